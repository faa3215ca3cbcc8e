import Verif.Props.Fields
import Mathlib.Tactic.LinearCombination

/-! # C64 (Faraday), C56 (Ampère): the field solver obeys the integral laws of Faraday and Ampère -/

set_option linter.unusedSimpArgs false
set_option linter.unusedVariables false
set_option linter.unusedSectionVars false

namespace Pico
namespace Yee

variable {K : Type _} [Field K] [LinearOrder K] [IsStrictOrderedRing K]

/-! ### Specification

Integrals per radian of the azimuth, except for the faces whose normal is the radius: there per unit of arc length. -/

/-- Area of a ring around the axis (per radian). -/
def ringArea (inner outer : K) : K := (outer ^ 2 - inner ^ 2) / 2

/-- Law of induction for a face: the change of the magnetic flux in a time step is minus the step times the circulation
of the electric field around the face. -/
def Induction (mu dt area circulation old new : K) : Prop := mu * (new - old) * area = - (dt * circulation)

/-- Law of Ampère and Maxwell for a face: the change of the displacement and the charge moved by the conductivity (with the
mean of the old and the new field) and by the current are the step times the circulation of the magnetic field. -/
def Ampere (eps sig dt current area circulation old new : K) : Prop :=
  (eps * (new - old) + sig * dt * ((old + new) / 2) + dt * current) * area = dt * circulation

/-- **C64.**  A magnetic step fulfils the law of induction on the faces of every cell of the domain, and the
magnetic field used for the particles is the mean of the old and the new one.  (`hw`: `E_phi` is zero at an outer
conducting wall, which C21 proves for all histories.) -/
theorem C64_faraday (p : Par K) (hp : p.Good) {m m' : Mem K} (h : calcH p m = .ok m')
    (hw : p.walls.rr = true → ∀ k, m .ep ((p.nr : Int) - 1) k = 0) (i k : Int) (hl : p.logical i k) :
    Induction p.mu p.dt p.dz (- (m .ep i (k + 1) - m .ep i k)) (m .hr i k) (m' .hr i k) ∧
    Induction p.mu p.dt (p.dr * p.dz) ((m .er i (k + 1) - m .er i k) * p.dr - (m .ez (i + 1) k - m .ez i k) * p.dz)
      (m .hp i k) (m' .hp i k) ∧
    (let inner : K := ((p.r0 : K) + i) * p.dr
     let outer : K := ((p.r0 : K) + i + 1) * p.dr
     Induction p.mu p.dt (ringArea inner outer) (outer * m .ep (i + 1) k - inner * m .ep i k) (m .hz i k) (m' .hz i k)) ∧
    m' .fr i k = (m .hr i k + m' .hr i k) / 2 ∧ m' .fp i k = (m .hp i k + m' .hp i k) / 2 ∧
    m' .fz i k = (m .hz i k + m' .hz i k) / 2 := by
  obtain ⟨m'', e, _, h1, _⟩ := calcH_eq p hp.nr m
  obtain rfl : m'' = m' := Res.ok.inj (e.symm.trans h)
  obtain ⟨⟨a1, a2⟩, a3, a4, a5, a6⟩ := h1 i k hl
  have dr' : p.dr ≠ 0 := ne_of_gt hp.dr
  have dz' : p.dz ≠ 0 := ne_of_gt hp.dz
  have mu' : p.mu ≠ 0 := ne_of_gt hp.mu
  have hw0 : (if p.walls.rr = true ∧ i = (p.nr : Int) - 1 then aR p m i k else 0) = 0 := by
    split
    · rename_i hc
      unfold aR
      rw [hc.2, hw hc.1, hw hc.1]
      simp
    · rfl
  rw [hw0, add_zero] at a1 a2
  have hi0 : (0 : K) ≤ (i : K) := by exact_mod_cast hl.1.1
  have r0 : (0 : K) ≤ (p.r0 : K) := Nat.cast_nonneg _
  have hR : (i : K) + 1 / 2 + p.r0 ≠ 0 := by positivity
  refine ⟨?_, ?_, ?_, ?_, ?_, ?_⟩
  · rw [a1]
    unfold Induction aR
    field_simp
    ring
  · rw [a3]
    unfold Induction aP
    field_simp
    ring
  · rw [a5]
    have hR2 : (i : K) * 2 + 1 + 2 * p.r0 ≠ 0 := by positivity
    have hR3 : 2 * (i : K) + 1 + 2 * p.r0 ≠ 0 := by positivity
    simp only
    unfold Induction aZ ringArea
    field_simp
    ring
  · rw [a1, a2]; ring
  · rw [a3, a4]; ring
  · rw [a5, a6]; ring

theorem newE_ampere (p : Par K) (m : Mem K) (i k : Int) (old x : K) (hd : 2 * m .eps i k + m .sig i k * p.dt ≠ 0) :
    m .eps i k * (newE p m i k old x - old) + m .sig i k * p.dt * ((old + newE p m i k old x) / 2) = - (p.dt * x) := by
  have h : newE p m i k old x * (2 * m .eps i k + m .sig i k * p.dt) =
      old * (2 * m .eps i k - m .sig i k * p.dt) - x * (2 * p.dt) := by
    unfold newE koefE koefH
    rw [sub_mul, mul_assoc, div_mul_cancel₀ _ hd, mul_assoc, div_mul_cancel₀ _ hd]
  linear_combination (1 / 2) * h

/-- **C56, electric field.**  An electric step fulfils the law of Ampère and Maxwell on the faces around all components of
the electric field that do not lie in a conducting wall: the radial and the azimuthal one, the axial one off the axis and
on the axis.  The fields, currents and media may be anything.  (Missing: the axial component in the corner of the axis and
the left wall, see `C56_corner_fails`.) -/
theorem C56_ampere_partial (p : Par K) (hp : p.Good) {m m' : Mem K} (h : calcE p m = .ok m')
    (i k : Int) (hl : p.logical i k) (hrr : p.walls.rr = true → i + 1 < p.nr) (hzz : p.walls.zz = true → k + 1 < p.nz)
    (hd : 2 * m .eps i k + m .sig i k * p.dt ≠ 0) :
    ((p.walls.z0 = true → 1 ≤ k) →
      Ampere (m .eps i k) (m .sig i k) p.dt (m .jr i k) p.dz (- (m .hp i k - m .hp i (k - 1))) (m .er i k) (m' .er i k)) ∧
    ((p.walls.z0 = true → 1 ≤ k) → (p.walls.r0 = true → 1 ≤ i) →
      Ampere (m .eps i k) (m .sig i k) p.dt (m .jp i k) (p.dr * p.dz)
        ((m .hr i k - m .hr i (k - 1)) * p.dr - (m .hz i k - m .hz (i - 1) k) * p.dz) (m .ep i k) (m' .ep i k)) ∧
    ((p.walls.r0 = true → 1 ≤ i) →
      let inner : K := ((p.r0 : K) + i - 1 / 2) * p.dr
      let outer : K := ((p.r0 : K) + i + 1 / 2) * p.dr
      Ampere (m .eps i k) (m .sig i k) p.dt (m .jz i k) (ringArea inner outer)
        (outer * m .hp i k - inner * m .hp (i - 1) k) (m .ez i k) (m' .ez i k)) ∧
    ((p.walls.z0 = true → 1 ≤ k) → p.walls.r0 = true → i = 0 →
      let outer : K := p.dr / 2
      Ampere (m .eps i k) (m .sig i k) p.dt (m .jz i k) (ringArea 0 outer) (outer * m .hp i k) (m .ez i k) (m' .ez i k)) := by
  obtain ⟨m'', e, _, _, h1⟩ := calcE_eq p hp.nr (by have := hp.nr'; omega) hp.nz (by have := hp.nz'; omega) m
  obtain rfl : m'' = m' := Res.ok.inj (e.symm.trans h)
  obtain ⟨a1, a2, a3⟩ := h1 i k hl
  have dr' : p.dr ≠ 0 := ne_of_gt hp.dr
  have dz' : p.dz ≠ 0 := ne_of_gt hp.dz
  obtain ⟨⟨l1, l2⟩, l3, l4⟩ := hl
  have nr' := hp.nr'
  have nz' := hp.nz'
  have re : i < (end_ p.walls.rr p.nr : Int) := by
    rw [end_lt _ hp.nr (by omega)]; split
    · have := hrr ‹_›; omega
    · omega
  have ze : k < (end_ p.walls.zz p.nz : Int) := by
    rw [end_lt _ hp.nz (by omega)]; split
    · have := hzz ‹_›; omega
    · omega
  have rb : (p.walls.r0 = true → 1 ≤ i) → ((begin_ p.walls.r0 : Nat) : Int) ≤ i := by
    intro x; unfold begin_; split
    · have := x ‹_›; omega
    · omega
  have zb : (p.walls.z0 = true → 1 ≤ k) → ((begin_ p.walls.z0 : Nat) : Int) ≤ k := by
    intro x; unfold begin_; split
    · have := x ‹_›; omega
    · omega
  have r0 : (0 : K) ≤ (p.r0 : K) := Nat.cast_nonneg _
  have hi0 : (0 : K) ≤ (i : K) := by exact_mod_cast l1
  refine ⟨?_, ?_, ?_, ?_⟩
  · intro hk
    rw [if_pos ⟨⟨zb hk, ze⟩, by
      by_cases hh : p.walls.r0 = true ∧ i = 0
      · exact Or.inr hh
      · exact Or.inl ⟨rb (fun x => by have : i ≠ 0 := fun y => hh ⟨x, y⟩
                                      omega), re⟩⟩] at a1
    have := newE_ampere p m i k (m .er i k) (xR p m i k) hd
    rw [← a1] at this
    unfold Ampere
    rw [this]
    unfold xR
    field_simp
    ring
  · intro hk hi
    rw [if_pos ⟨⟨zb hk, ze⟩, rb hi, re⟩] at a2
    have := newE_ampere p m i k (m .ep i k) (xP p m i k) hd
    rw [← a2] at this
    unfold Ampere
    rw [this]
    unfold xP
    field_simp
    ring
  · intro hi
    have hpos : (0 : K) < (i : K) + p.r0 := by
      by_cases hr0 : p.walls.r0 = true
      · have : (1 : K) ≤ (i : K) := by exact_mod_cast hi hr0
        linarith
      · have : p.r0 ≠ 0 := fun x => hr0 (hp.axis.mpr x)
        have : (1 : K) ≤ (p.r0 : K) := by exact_mod_cast Nat.one_le_iff_ne_zero.mpr this
        linarith
    rw [if_pos ⟨⟨rb hi, re⟩, by
      by_cases hh : p.walls.z0 = true ∧ k = 0
      · exact Or.inr hh
      · exact Or.inl ⟨zb (fun x => by have : k ≠ 0 := fun y => hh ⟨x, y⟩
                                      omega), ze⟩⟩] at a3
    have := newE_ampere p m i k (m .ez i k) (xZ p m i k) hd
    rw [← a3] at this
    simp only
    unfold Ampere
    rw [this]
    have hne := ne_of_gt hpos
    unfold xZ ringArea
    field_simp
    ring
  · intro hk hr0 hi
    have hn : ¬ ((((begin_ p.walls.r0 : Nat) : Int) ≤ i ∧ i < (end_ p.walls.rr p.nr : Int)) ∧
        ((((begin_ p.walls.z0 : Nat) : Int) ≤ k ∧ k < (end_ p.walls.zz p.nz : Int)) ∨ (p.walls.z0 = true ∧ k = 0))) := by
      rintro ⟨⟨x, _⟩, _⟩
      unfold begin_ at x
      rw [if_pos hr0] at x
      omega
    rw [if_neg hn, if_pos ⟨⟨hr0, hi⟩, zb hk, ze⟩] at a3
    have := newE_ampere p m i k (m .ez i k) (xA p m i k) hd
    rw [← a3] at this
    simp only
    unfold Ampere
    rw [this]
    unfold xA ringArea
    field_simp
    ring

/-- Where C56 fails: in the corner of the axis and the left wall the axial electric field is never changed, whatever the
current and the magnetic field are. -/
theorem C56_corner_fails (p : Par K) (hp : p.Good) (h0 : p.walls.r0 = true) (hz : p.walls.z0 = true) {m m' : Mem K}
    (h : calcE p m = .ok m') : m' .ez 0 0 = m .ez 0 0 := by
  obtain ⟨m'', e, _, _, h1⟩ := calcE_eq p hp.nr (by have := hp.nr'; omega) hp.nz (by have := hp.nz'; omega) m
  obtain rfl : m'' = m' := Res.ok.inj (e.symm.trans h)
  have nr := hp.nr
  have nz := hp.nz
  have := (h1 0 0 (by unfold Par.logical; omega)).2.2
  rw [if_neg, if_neg] at this
  · exact this
  · rintro ⟨_, x, _⟩
    unfold begin_ at x
    rw [if_pos hz] at x
    omega
  · rintro ⟨⟨x, _⟩, _⟩
    unfold begin_ at x
    rw [if_pos h0] at x
    omega

/-- The hypotheses hold at an inner node of the example domain, with a conductivity and a current. -/
example : ∃ m' : Mem ℚ, calcE exPar (fun c i k => match c with
      | .eps => 1 | .sig => 1/2 | _ => (i * i + 3 * k : Int)) = .ok m' ∧
    Ampere 1 (1/2) exPar.dt 10 (exPar.dr * exPar.dz) (3 * exPar.dr - 3 * exPar.dz) 10 (m' .ep 2 2) := by
  obtain ⟨m', h⟩ := calcE_defined exPar exPar_good (fun c i k => match c with
      | .eps => 1 | .sig => 1/2 | _ => (i * i + 3 * k : Int))
  refine ⟨m', h, ?_⟩
  have := (C56_ampere_partial exPar exPar_good h 2 2 (by decide) (by decide) (by decide) (by norm_num [exPar])).2.1
    (by decide) (by decide)
  norm_num at this
  exact this

end Yee
end Pico
