import Verif.Spec.Fields
import Verif.Lemmas.Yee
import Mathlib.Tactic.FieldSimp
import Mathlib.Tactic.Ring
import Mathlib.Tactic.Linarith
import Mathlib.Tactic.NormNum
import Mathlib.Tactic.Positivity

/-! # C15, C16, C21, C22: the field solver -/

set_option linter.unusedSimpArgs false
set_option linter.unusedSectionVars false
set_option linter.unnecessarySeqFocus false

namespace Pico
namespace Yee

variable {K : Type _} [Field K] [LinearOrder K] [IsStrictOrderedRing K]

/-- Updates never fail. -/
theorem calcE_defined (p : Par K) (hp : p.Good) (m : Mem K) : ∃ m', calcE p m = .ok m' := by
  obtain ⟨m', h, _⟩ := calcE_eq p hp.nr (by have := hp.nr'; omega) hp.nz (by have := hp.nz'; omega) m
  exact ⟨m', h⟩

theorem calcH_defined (p : Par K) (hp : p.Good) (m : Mem K) : ∃ m', calcH p m = .ok m' := by
  obtain ⟨m', h, _⟩ := calcH_eq p hp.nr m
  exact ⟨m', h⟩

/-! ## C21 conducting walls -/

omit [LinearOrder K] [IsStrictOrderedRing K] in
theorem isField_iff (c : Comp) : c.isField ↔ isE c ∨ isH c := by
  cases c <;> simp [Comp.isField, isE, isH]

/-- One event keeps conducting walls conducting. -/
theorem C21_event (p : Par K) (hp : p.Good) {m m' : Mem K} (h : Happens p m m') (hc : Conducting p m) :
    Conducting p m' := by
  have nrn := hp.nr
  have nzn := hp.nz
  have nr' := hp.nr'
  have nz' := hp.nz'
  cases h with
  | other h =>
    have f : ∀ i k, p.logical i k → m' .er i k = m .er i k ∧ m' .ep i k = m .ep i k ∧ m' .ez i k = m .ez i k :=
      fun i k hl => ⟨h _ _ _ trivial hl, h _ _ _ trivial hl, h _ _ _ trivial hl⟩
    refine ⟨?_, ?_, ?_, ?_⟩
    · intro w i hl; rw [(f _ _ hl).1, (f _ _ hl).2.1]; exact hc.z0 w i hl
    · intro w i k hl e; rw [(f _ _ hl).1, (f _ _ hl).2.1, (f _ _ hl).2.2]; exact hc.zz w i k hl e
    · intro w i k hl e; rw [(f _ _ hl).1, (f _ _ hl).2.1, (f _ _ hl).2.2]; exact hc.rr w i k hl e
    · intro w k hl; rw [(f _ _ hl).2.1]; exact hc.r0 w k hl
  | magnetic h =>
    obtain ⟨m'', e, h1, _⟩ := calcH_eq p hp.nr m
    obtain rfl : m'' = m' := Res.ok.inj (e.symm.trans h)
    have f : ∀ i k, m'' .er i k = m .er i k ∧ m'' .ep i k = m .ep i k ∧ m'' .ez i k = m .ez i k :=
      fun i k => ⟨h1 _ _ _ (by unfold isH; decide), h1 _ _ _ (by unfold isH; decide), h1 _ _ _ (by unfold isH; decide)⟩
    refine ⟨?_, ?_, ?_, ?_⟩
    · intro w i hl; rw [(f _ _).1, (f _ _).2.1]; exact hc.z0 w i hl
    · intro w i k hl e; rw [(f _ _).1, (f _ _).2.1, (f _ _).2.2]; exact hc.zz w i k hl e
    · intro w i k hl e; rw [(f _ _).1, (f _ _).2.1, (f _ _).2.2]; exact hc.rr w i k hl e
    · intro w k hl; rw [(f _ _).2.1]; exact hc.r0 w k hl
  | electric h =>
    obtain ⟨m'', e, _, _, h1⟩ := calcE_eq p hp.nr (by omega) hp.nz (by omega) m
    obtain rfl : m'' = m' := Res.ok.inj (e.symm.trans h)
    have r0b : p.walls.r0 = true → begin_ p.walls.r0 = 1 := fun w => by unfold begin_; rw [if_pos w]
    have z0b : p.walls.z0 = true → begin_ p.walls.z0 = 1 := fun w => by unfold begin_; rw [if_pos w]
    have rre : p.walls.rr = true → end_ p.walls.rr p.nr = p.nr - 1 := fun w => by
      rw [end_lt _ nrn (by omega), if_pos w]
    have zze : p.walls.zz = true → end_ p.walls.zz p.nz = p.nz - 1 := fun w => by
      rw [end_lt _ nzn (by omega), if_pos w]
    refine ⟨?_, ?_, ?_, ?_⟩
    · intro w i hl
      obtain ⟨a, b, _⟩ := h1 i 0 hl
      have := z0b w
      rw [a, b, if_neg (by omega), if_neg (by omega)]
      exact hc.z0 w i hl
    · intro w i k hl ek
      obtain ⟨a, b, c⟩ := h1 i k hl
      have := zze w
      have hz := hc.zz w i k hl ek
      refine ⟨?_, ?_, ?_⟩
      · rw [a, if_neg (by omega)]; exact hz.1
      · rw [b, if_neg (by omega)]; exact hz.2.1
      · have := hp.nz2
        have hz0 : ¬ (p.walls.z0 = true ∧ k = 0) := fun x => by have := hp.nz2 x.1 w; omega
        rw [c, if_neg (by rintro ⟨_, h | h⟩; exacts [by omega, hz0 h]), if_neg (by omega)]; exact hz.2.2
    · intro w i k hl ek
      obtain ⟨a, b, c⟩ := h1 i k hl
      have := rre w
      have hz := hc.rr w i k hl ek
      have hr0 : ¬ (p.walls.r0 = true ∧ i = 0) := fun x => by have := hp.nr2 x.1 w; omega
      refine ⟨?_, ?_, ?_⟩
      · rw [a, if_neg (by rintro ⟨_, h | h⟩; exacts [by omega, hr0 h])]; exact hz.1
      · rw [b, if_neg (by omega)]; exact hz.2.1
      · rw [c, if_neg (by omega), if_neg (fun x => hr0 x.1)]; exact hz.2.2
    · intro w k hl
      obtain ⟨a, b, c⟩ := h1 0 k hl
      have := r0b w
      rw [b, if_neg (by omega)]
      exact hc.r0 w k hl

omit [LinearOrder K] [IsStrictOrderedRing K] in
theorem logical_inside {p : Par K} {i k : Int} (h : p.logical i k) : p.inside i k := by
  unfold Par.logical at h; unfold Par.inside; omega

/-- **C21.**  In every history of a solver constructed with zero fields the walls stay perfect
conductors. -/
theorem C21_conducting (p : Par K) (hp : p.Good) {m m' : Mem K} (hf : Fresh p m) (h : History p m m') :
    Conducting p m' := by
  induction h with
  | nil =>
    have f : ∀ c i k, c ≠ .eps → c ≠ .sig → p.logical i k → m c i k = 0 :=
      fun c i k a b hl => hf c i k a b (logical_inside hl)
    exact ⟨fun _ i hl => ⟨f _ _ _ (by decide) (by decide) hl, f _ _ _ (by decide) (by decide) hl⟩,
      fun _ i k hl _ => ⟨f _ _ _ (by decide) (by decide) hl, f _ _ _ (by decide) (by decide) hl,
        f _ _ _ (by decide) (by decide) hl⟩,
      fun _ i k hl _ => ⟨f _ _ _ (by decide) (by decide) hl, f _ _ _ (by decide) (by decide) hl,
        f _ _ _ (by decide) (by decide) hl⟩,
      fun _ k hl => f _ _ _ (by decide) (by decide) hl⟩
  | snoc _ hs ih => exact C21_event p hp hs ih

/-! ## C15 divergence of H -/

/-- **C15** (one step).  A magnetic step leaves the divergence of `H` in every cell of the domain
unchanged, and the field at the half step has the same divergence. -/
theorem C15_step (p : Par K) (hp : p.Good) {m m' : Mem K} (h : calcH p m = .ok m')
    (hw : p.walls.rr = true → ∀ k, p.logical ((p.nr : Int) - 1) k → m .ep ((p.nr : Int) - 1) k = 0)
    (i k : Int) (hi : p.logical i k) (hi' : p.logical (i + 1) (k + 1)) :
    divMagnetic p (m' .hr) (m' .hz) i k = divMagnetic p (m .hr) (m .hz) i k ∧
    divMagnetic p (m' .fr) (m' .fz) i k = divMagnetic p (m .hr) (m .hz) i k := by
  obtain ⟨m'', e, _, h1, _⟩ := calcH_eq p hp.nr m
  obtain rfl : m'' = m' := Res.ok.inj (e.symm.trans h)
  have l1 : p.logical (i + 1) k := by unfold Par.logical at *; omega
  have l2 : p.logical i (k + 1) := by unfold Par.logical at *; omega
  obtain ⟨⟨a1, a2⟩, _, _, a3, a4⟩ := h1 i k hi
  obtain ⟨⟨b1, b2⟩, _, _, b3, b4⟩ := h1 (i + 1) k l1
  obtain ⟨⟨c1, c2⟩, _, _, c3, c4⟩ := h1 i (k + 1) l2
  have w1 : (if p.walls.rr = true ∧ i = (p.nr : Int) - 1 then aR p m i k else 0) = 0 :=
    if_neg (by unfold Par.logical at *; omega)
  have w2 : (if p.walls.rr = true ∧ i + 1 = (p.nr : Int) - 1 then aR p m (i + 1) k else 0) = 0 := by
    split
    · rename_i hh
      unfold aR
      rw [hh.2, hw hh.1 k (by rw [← hh.2]; exact l1), hw hh.1 (k + 1) (by rw [← hh.2]; exact hi')]
      simp
    · rfl
  rw [w1] at a1 a2
  rw [w2] at b1 b2
  have dr := hp.dr
  have dz := hp.dz
  have mu := hp.mu
  have hi0 : (0 : K) ≤ (i : K) := by exact_mod_cast hi.1.1
  have r0 : (0 : K) ≤ (p.r0 : K) := Nat.cast_nonneg _
  have hR : (p.r0 : K) + i + 1/2 ≠ 0 := by positivity
  have hR' : (i : K) + 1/2 + p.r0 ≠ 0 := by positivity
  have dr' : p.dr ≠ 0 := ne_of_gt dr
  have dz' : p.dz ≠ 0 := ne_of_gt dz
  have mu' : p.mu ≠ 0 := ne_of_gt mu
  unfold divMagnetic divergence
  rw [a1, b1, a3, c3, a2, b2, a4, c4]
  unfold aR aZ
  constructor
  · push_cast
    field_simp
    ring
  · push_cast
    field_simp
    ring

/-- **C15.**  In every history of a solver constructed with zero fields the divergence of `H` is
zero in every cell of the domain, whatever currents were deposited and whatever was in the overlay. -/
theorem C15_divergence_free (p : Par K) (hp : p.Good) {m m' : Mem K} (hf : Fresh p m) (h : History p m m')
    (i k : Int) (hi : p.logical i k) (hi' : p.logical (i + 1) (k + 1)) :
    divMagnetic p (m' .hr) (m' .hz) i k = 0 ∧ divMagnetic p (m' .fr) (m' .fz) i k = 0 := by
  have l1 : p.logical (i + 1) k := by unfold Par.logical at *; omega
  have l2 : p.logical i (k + 1) := by unfold Par.logical at *; omega
  induction h with
  | nil =>
    have f : ∀ c i k, c ≠ .eps → c ≠ .sig → p.logical i k → m c i k = 0 :=
      fun c i k a b hl => hf c i k a b (logical_inside hl)
    unfold divMagnetic divergence
    rw [f .hr (i+1) k (by decide) (by decide) l1, f .hr i k (by decide) (by decide) hi,
      f .hz i (k+1) (by decide) (by decide) l2, f .hz i k (by decide) (by decide) hi,
      f .fr (i+1) k (by decide) (by decide) l1, f .fr i k (by decide) (by decide) hi,
      f .fz i (k+1) (by decide) (by decide) l2, f .fz i k (by decide) (by decide) hi]
    simp
  | snoc hh hs ih =>
    rename_i m1 m2
    cases hs with
    | other ho =>
      unfold divMagnetic at *
      rw [ho .hr _ _ trivial l1, ho .hr _ _ trivial hi, ho .hz _ _ trivial l2, ho .hz _ _ trivial hi,
        ho .fr _ _ trivial l1, ho .fr _ _ trivial hi, ho .fz _ _ trivial l2, ho .fz _ _ trivial hi]
      exact ih
    | magnetic hm =>
      have := C15_step p hp hm (fun w k hl => ((C21_conducting p hp hf hh).rr w _ k hl rfl).2.1) i k hi hi'
      rw [this.1, this.2, ih.1]
      exact ⟨rfl, rfl⟩
    | electric he =>
      obtain ⟨m'', e, g, _⟩ := calcE_eq p hp.nr (by have := hp.nr'; omega) hp.nz (by have := hp.nz'; omega) m1
      obtain rfl : m'' = m2 := Res.ok.inj (e.symm.trans he)
      have g' : ∀ c, isH c → m'' c = m1 c := by
        intro c hc
        funext i k
        exact g c i k (by unfold isE isH at *; rcases hc with rfl | rfl | rfl | rfl | rfl | rfl <;> decide)
      rw [g' .hr (by unfold isH; decide), g' .hz (by unfold isH; decide), g' .fr (by unfold isH; decide),
        g' .fz (by unfold isH; decide)]
      exact ih

/-! ## C16 Gauss law -/

theorem newE_nosigma (p : Par K) (m : Mem K) (i k : Int) (old x : K) (he : m .eps i k ≠ 0) (hs : m .sig i k = 0) :
    m .eps i k * newE p m i k old x = m .eps i k * old - p.dt * x := by
  unfold newE koefE koefH
  rw [hs]
  simp only [zero_mul, sub_zero, add_zero]
  field_simp

/-- **C16** off the axis.  Where there is no conductivity an electric step changes the divergence of
`epsilon E` at a node by exactly `-dt` times the divergence of the current. -/
theorem C16_gauss (p : Par K) (hp : p.Good) {m m' : Mem K} (h : calcE p m = .ok m')
    (i k : Int) (hi : 1 ≤ i) (hk : 1 ≤ k) (hi' : i + (if p.walls.rr = true then 1 else 0) < p.nr)
    (hk' : k + (if p.walls.zz = true then 1 else 0) < p.nz)
    (hm : ∀ a b, (a = i ∧ b = k) ∨ (a = i - 1 ∧ b = k) ∨ (a = i ∧ b = k - 1) →
      m .eps a b ≠ 0 ∧ m .sig a b = 0) :
    divElectric p (displacement m' .er) (displacement m' .ez) i k =
      divElectric p (displacement m .er) (displacement m .ez) i k - p.dt * divElectric p (m .jr) (m .jz) i k := by
  obtain ⟨m'', e, g, _, h1⟩ := calcE_eq p hp.nr (by have := hp.nr'; omega) hp.nz (by have := hp.nz'; omega) m
  obtain rfl : m'' = m' := Res.ok.inj (e.symm.trans h)
  have geps : ∀ a b, m'' .eps a b = m .eps a b := fun a b => g _ _ _ (by unfold isE; decide)
  have rb : ((begin_ p.walls.r0 : Nat) : Int) ≤ 1 := by unfold begin_; split <;> omega
  have zb : ((begin_ p.walls.z0 : Nat) : Int) ≤ 1 := by unfold begin_; split <;> omega
  have re : i < ((end_ p.walls.rr p.nr : Nat) : Int) := by
    rw [end_lt _ hp.nr (by have := hp.nr'; omega)]; split <;> simp_all <;> omega
  have ze : k < ((end_ p.walls.zz p.nz : Nat) : Int) := by
    rw [end_lt _ hp.nz (by have := hp.nz'; omega)]; split <;> simp_all <;> omega
  have hin : i < p.nr := by split at hi' <;> omega
  have hkn : k < p.nz := by split at hk' <;> omega
  have rb' : ¬ (p.walls.r0 = true ∧ i - 1 = 0) → ((begin_ p.walls.r0 : Nat) : Int) ≤ i - 1 := by
    intro x; unfold begin_; split <;> rename_i hh <;> simp only [hh, true_and] at x <;> omega
  have zb' : ¬ (p.walls.z0 = true ∧ k - 1 = 0) → ((begin_ p.walls.z0 : Nat) : Int) ≤ k - 1 := by
    intro x; unfold begin_; split <;> rename_i hh <;> simp only [hh, true_and] at x <;> omega
  have A := (h1 i k (by unfold Par.logical; omega)).1
  rw [if_pos ⟨⟨by omega, ze⟩, Or.inl ⟨by omega, re⟩⟩] at A
  have B := (h1 (i - 1) k (by unfold Par.logical; omega)).1
  rw [if_pos ⟨⟨by omega, ze⟩, by
    by_cases hh : p.walls.r0 = true ∧ i - 1 = 0
    · exact Or.inr hh
    · exact Or.inl ⟨rb' hh, by omega⟩⟩] at B
  have C := (h1 i k (by unfold Par.logical; omega)).2.2
  rw [if_pos ⟨⟨by omega, re⟩, Or.inl ⟨by omega, ze⟩⟩] at C
  have D := (h1 i (k - 1) (by unfold Par.logical; omega)).2.2
  rw [if_pos ⟨⟨by omega, re⟩, by
    by_cases hh : p.walls.z0 = true ∧ k - 1 = 0
    · exact Or.inr hh
    · exact Or.inl ⟨zb' hh, by omega⟩⟩] at D
  have e1 := hm i k (by tauto)
  have e2 := hm (i - 1) k (by tauto)
  have e3 := hm i (k - 1) (by tauto)
  have dr' : p.dr ≠ 0 := ne_of_gt hp.dr
  have dz' : p.dz ≠ 0 := ne_of_gt hp.dz
  have hi0 : (0 : K) < (i : K) := by exact_mod_cast (by omega : 0 < i)
  have r0 : (0 : K) ≤ (p.r0 : K) := Nat.cast_nonneg _
  have hR : (p.r0 : K) + i ≠ 0 := by positivity
  have hR' : (i : K) + p.r0 ≠ 0 := by positivity
  unfold divElectric divergence displacement
  rw [A, B, C, D, geps, geps, geps, newE_nosigma _ _ _ _ _ _ e1.1 e1.2, newE_nosigma _ _ _ _ _ _ e2.1 e2.2,
    newE_nosigma _ _ _ _ _ _ e1.1 e1.2, newE_nosigma _ _ _ _ _ _ e3.1 e3.2]
  unfold xR xZ
  field_simp
  ring

/-- **C16** on the axis, away from the first two columns at a `z = 0` wall. -/
theorem C16_gauss_axis_partial (p : Par K) (hp : p.Good) {m m' : Mem K} (h : calcE p m = .ok m')
    (hw : p.walls.r0 = true) (k : Int) (hk : 1 ≤ k) (hkz : p.walls.z0 = true → 2 ≤ k)
    (hk' : k + (if p.walls.zz = true then 1 else 0) < p.nz)
    (hm : ∀ b, b = k ∨ b = k - 1 → m .eps 0 b ≠ 0 ∧ m .sig 0 b = 0) :
    divElectricAxis p (displacement m' .er) (displacement m' .ez) k =
      divElectricAxis p (displacement m .er) (displacement m .ez) k - p.dt * divElectricAxis p (m .jr) (m .jz) k := by
  obtain ⟨m'', e, g, _, h1⟩ := calcE_eq p hp.nr (by have := hp.nr'; omega) hp.nz (by have := hp.nz'; omega) m
  obtain rfl : m'' = m' := Res.ok.inj (e.symm.trans h)
  have geps : ∀ a b, m'' .eps a b = m .eps a b := fun a b => g _ _ _ (by unfold isE; decide)
  have rb : begin_ p.walls.r0 = 1 := by unfold begin_; rw [if_pos hw]
  have zb : ((begin_ p.walls.z0 : Nat) : Int) ≤ k - 1 := by
    unfold begin_; split <;> rename_i hh
    · have := hkz hh; omega
    · omega
  have ze : k < ((end_ p.walls.zz p.nz : Nat) : Int) := by
    rw [end_lt _ hp.nz (by have := hp.nz'; omega)]; split <;> simp_all <;> omega
  have hkn : k < p.nz := by split at hk' <;> omega
  have nr := hp.nr
  have A := (h1 0 k (by unfold Par.logical; omega)).1
  rw [if_pos ⟨⟨by omega, ze⟩, Or.inr ⟨hw, rfl⟩⟩] at A
  have C := (h1 0 k (by unfold Par.logical; omega)).2.2
  rw [if_neg (by omega), if_pos ⟨⟨hw, rfl⟩, ⟨by omega, ze⟩⟩] at C
  have D := (h1 0 (k - 1) (by unfold Par.logical; omega)).2.2
  rw [if_neg (by omega), if_pos ⟨⟨hw, rfl⟩, ⟨by omega, by omega⟩⟩] at D
  have e1 := hm k (by tauto)
  have e3 := hm (k - 1) (by tauto)
  have dr' : p.dr ≠ 0 := ne_of_gt hp.dr
  have dz' : p.dz ≠ 0 := ne_of_gt hp.dz
  unfold divElectricAxis divergenceAxis displacement
  rw [A, C, D, geps, geps, newE_nosigma _ _ _ _ _ _ e1.1 e1.2,
    newE_nosigma _ _ _ _ _ _ e1.1 e1.2, newE_nosigma _ _ _ _ _ _ e3.1 e3.2]
  unfold xR xA
  field_simp
  ring

/-- The corner is really missed: in every domain that touches the axis and the `z = 0` wall there is
a history after which an electric step creates divergence at node `(0, 1)` although there is no
current anywhere (`E_z(0, 0)` belongs neither to the axis loop nor to the left wall loop). -/
theorem C16_corner_fails (p : Par K) (hp : p.Good) (h0 : p.walls.r0 = true) (hz : p.walls.z0 = true)
    (hn : 3 ≤ p.nz) (hn' : 3 ≤ p.nr) :
    ∃ m₀ m m', Fresh p m₀ ∧ History p m₀ m ∧ calcE p m = .ok m' ∧
      (∀ i k, m .eps i k = 1 ∧ m .sig i k = 0 ∧ m .jr i k = 0 ∧ m .jz i k = 0) ∧
      divElectricAxis p (displacement m' .er) (displacement m' .ez) 1 ≠
        divElectricAxis p (displacement m .er) (displacement m .ez) 1 := by
  have dr' := hp.dr
  have dz' := hp.dz
  have dt' := hp.dt
  have mu' := hp.mu
  have rb : begin_ p.walls.r0 = 1 := by unfold begin_; rw [if_pos h0]
  have zb : begin_ p.walls.z0 = 1 := by unfold begin_; rw [if_pos hz]
  have ze : (2 : Int) ≤ ((end_ p.walls.zz p.nz : Nat) : Int) := by
    rw [end_lt _ hp.nz (by have := hp.nz'; omega)]; split <;> omega
  have re : (2 : Int) ≤ ((end_ p.walls.rr p.nr : Nat) : Int) := by
    rw [end_lt _ hp.nr (by have := hp.nr'; omega)]; split <;> omega
  let m0 : Mem K := fun c _ _ => match c with
    | .eps => 1
    | _ => 0
  let m1 : Mem K := fun c i k => match c with
    | .eps => 1
    | .jz => if i = 1 ∧ k = 0 then 1 else 0
    | _ => 0
  obtain ⟨m2, e2, g2, _, f2⟩ := calcE_eq p hp.nr (by have := hp.nr'; omega) hp.nz (by have := hp.nz'; omega) m1
  obtain ⟨m3, e3, g3, f3, _⟩ := calcH_eq p hp.nr m2
  let m4 : Mem K := fun c i k => if c = .jz then 0 else m3 c i k
  obtain ⟨m5, e5, g5, _, f5⟩ := calcE_eq p hp.nr (by have := hp.nr'; omega) hp.nz (by have := hp.nz'; omega) m4
  have q2 : ∀ c i k, ¬ isE c → ¬ isH c → m3 c i k = m1 c i k := fun c i k a b => by rw [g3 c i k b, g2 c i k a]
  have q4 : ∀ c i k, ¬ c = .jz → m4 c i k = m3 c i k := fun c i k h => if_neg h
  -- the electric field after the first step
  have er2 : ∀ k, p.logical 0 k → m2 .er 0 k = 0 := by
    intro k hl
    rw [(f2 0 k hl).1]
    split
    · show (0 : K) * _ - (0 + (0 - 0) / p.dz) * _ = 0
      ring
    · rfl
  have ez2 : ∀ k, p.logical 0 k → m2 .ez 0 k = 0 := by
    intro k hl
    rw [(f2 0 k hl).2.2, if_neg (by omega)]
    split
    · have : (if (0 : Int) = 1 ∧ k = 0 then (1 : K) else 0) = 0 := if_neg (by omega)
      show (0 : K) * _ - ((if (0 : Int) = 1 ∧ k = 0 then (1 : K) else 0) - 0 * 4 / p.dr) * _ = 0
      rw [this]; ring
    · rfl
  have ez10 : m2 .ez 1 0 = - p.dt := by
    rw [(f2 1 0 (by unfold Par.logical; omega)).2.2, if_pos ⟨by omega, Or.inr ⟨hz, rfl⟩⟩]
    have : (if (1 : Int) = 1 ∧ (0 : Int) = 0 then (1 : K) else 0) = 1 := if_pos ⟨rfl, rfl⟩
    show (0 : K) * _ - ((if (1 : Int) = 1 ∧ (0 : Int) = 0 then (1 : K) else 0) - (0 - 0) / p.dr - (0 + 0) / _) *
      ((2 * p.dt) / (2 * 1 + 0 * p.dt)) = _
    rw [this]; simp
  have ez11 : m2 .ez 1 1 = 0 := by
    rw [(f2 1 1 (by unfold Par.logical; omega)).2.2, if_pos ⟨by omega, Or.inl ⟨by omega, by omega⟩⟩]
    have : (if (1 : Int) = 1 ∧ (1 : Int) = 0 then (1 : K) else 0) = 0 := if_neg (by omega)
    show (0 : K) * _ - ((if (1 : Int) = 1 ∧ (1 : Int) = 0 then (1 : K) else 0) - (0 - 0) / p.dr - (0 + 0) / _) *
      _ = _
    rw [this]; simp
  have l00 : p.logical 0 0 := by unfold Par.logical; omega
  have l01 : p.logical 0 1 := by unfold Par.logical; omega
  have l02 : p.logical 0 2 := by unfold Par.logical; omega
  have z2 : m2 .hp 0 0 = 0 := g2 _ _ _ (by unfold isE; decide)
  have z2' : m2 .hp 0 1 = 0 := g2 _ _ _ (by unfold isE; decide)
  have hp00 : m4 .hp 0 0 = - (p.dt * p.dt / p.dr / p.mu) := by
    rw [q4 _ _ _ (by decide), (f3 0 0 l00).2.1, z2]
    unfold aP
    have a1 : (0 : Int) + 1 = 1 := rfl
    rw [a1, ez10, ez2 0 l00, er2 1 l01, er2 0 l00]
    field_simp
    ring
  have hp01 : m4 .hp 0 1 = 0 := by
    rw [q4 _ _ _ (by decide), (f3 0 1 l01).2.1, z2']
    unfold aP
    have a1 : (0 : Int) + 1 = 1 := rfl
    have a2 : (1 : Int) + 1 = 2 := rfl
    rw [a1, a2, ez11, ez2 1 l01, er2 1 l01, er2 2 l02]
    simp
  have er4 : m4 .er 0 1 = 0 := by
    rw [q4 _ _ _ (by decide), g3 _ _ _ (by unfold isH; decide), er2 1 l01]
  have ez41 : m4 .ez 0 1 = 0 := by
    rw [q4 _ _ _ (by decide), g3 _ _ _ (by unfold isH; decide), ez2 1 l01]
  have ez40 : m4 .ez 0 0 = 0 := by
    rw [q4 _ _ _ (by decide), g3 _ _ _ (by unfold isH; decide), ez2 0 l00]
  have other : ∀ i k, m4 .eps i k = 1 ∧ m4 .sig i k = 0 ∧ m4 .jr i k = 0 ∧ m4 .jz i k = 0 := fun i k =>
    ⟨(q4 _ _ _ (by decide)).trans (q2 _ _ _ (by unfold isE; decide) (by unfold isH; decide)),
      (q4 _ _ _ (by decide)).trans (q2 _ _ _ (by unfold isE; decide) (by unfold isH; decide)),
      (q4 _ _ _ (by decide)).trans (q2 _ _ _ (by unfold isE; decide) (by unfold isH; decide)), if_pos rfl⟩
  refine ⟨m0, m4, m5, ?_, ?_, e5, other, ?_⟩
  · intro c i k h _ _
    cases c <;> first | rfl | exact absurd rfl h
  · refine .snoc (.snoc (.snoc (.snoc .nil (.other (m' := m1) ?_)) (.electric e2)) (.magnetic e3)) (.other ?_)
    · intro c i k hf _
      cases c <;> first | rfl | exact hf.elim
    · intro c i k hf _
      exact q4 _ _ _ (by rintro rfl; exact hf)
  · have A := (f5 0 1 l01).1
    rw [if_pos ⟨⟨by omega, by omega⟩, Or.inr ⟨h0, rfl⟩⟩] at A
    have C := (f5 0 1 l01).2.2
    rw [if_neg (by omega), if_pos ⟨⟨h0, rfl⟩, ⟨by omega, by omega⟩⟩] at C
    have D := (f5 0 0 l00).2.2
    rw [if_neg (by omega), if_neg (by omega)] at D
    have geps : ∀ a b, m5 .eps a b = 1 := fun a b => (g5 _ _ _ (by unfold isE; decide)).trans (other a b).1
    have ex : (1 : Int) - 1 = 0 := rfl
    unfold newE xR at A
    unfold newE xA at C
    rw [ex, er4, (other 0 1).1, (other 0 1).2.1, (other 0 1).2.2.1, hp01, hp00] at A
    rw [ez41, (other 0 1).1, (other 0 1).2.1, (other 0 1).2.2.2, hp01] at C
    rw [ez40] at D
    unfold divElectricAxis divergenceAxis displacement
    rw [ex, A, C, D, geps, geps, er4, ez41, ez40]
    unfold koefH
    have e : 4 * (1 * (0 * koefE p 1 0 - (0 + (0 - -(p.dt * p.dt / p.dr / p.mu)) / p.dz) *
          (2 * p.dt / (2 * 1 + 0 * p.dt)))) / p.dr +
        (1 * (0 * koefE p 1 0 - (0 - 0 * 4 / p.dr) * (2 * p.dt / (2 * 1 + 0 * p.dt))) - 1 * 0) / p.dz =
        - (4 * (p.dt * p.dt / p.dr / p.mu / p.dz * p.dt) / p.dr) := by
      field_simp
      ring
    rw [e]
    have : 0 < 4 * (p.dt * p.dt / p.dr / p.mu / p.dz * p.dt) / p.dr := by positivity
    intro hh
    have h3 : 4 * (m4 .eps 0 1 * 0) / p.dr + (m4 .eps 0 1 * 0 - m4 .eps 0 0 * 0) / p.dz = 0 := by simp
    rw [h3] at hh
    linarith

/-! ## C22 absorbing layers -/

/-- **C22.**  The factor applied to the old field lies in `(-1, 1]`; it is 1 exactly without
conductivity. -/
theorem C22_factor (p : Par K) (hp : p.Good) (eps sig : K) (he : 0 < eps) (hs : 0 ≤ sig) :
    -1 < koefE p eps sig ∧ koefE p eps sig ≤ 1 ∧ (koefE p eps sig = 1 ↔ sig = 0) := by
  have dt := hp.dt
  have h1 : 0 ≤ sig * p.dt := by positivity
  have h2 : 0 < 2 * eps + sig * p.dt := by positivity
  unfold koefE
  refine ⟨by rw [lt_div_iff₀ h2]; linarith, by rw [div_le_iff₀ h2]; linarith, ?_⟩
  rw [div_eq_iff (ne_of_gt h2)]
  constructor
  · intro h
    have : sig * p.dt = 0 := by linarith
    rcases mul_eq_zero.mp this with h | h
    · exact h
    · exact absurd h (ne_of_gt dt)
  · rintro rfl; ring

theorem pmlLoop_eq (p : Par K) (c : Nat × Nat → K) (m : Mem K) :
    ∃ m', pmlLoop p c m = .ok m' ∧
      (∀ x i k, ¬ (x = .sig ∧ p.logical i k) → m' x i k = m x i k) ∧
      (∀ i k : Nat, i < p.nr → k < p.nz → m' .sig i k = m .sig i k + c (i, k)) := by
  have hl := (loop_eq_foldl (fun q m => upd p m .sig q.1 q.2 (· + c q))
    (fun m (q : Nat × Nat) => put m .sig q.1 q.2 (m .sig q.1 q.2 + c q)) (fun _ => True) (idx2 0 p.nr 0 p.nz)
    (fun a ha s _ => by
      have := mem_idx2.mp ha
      exact upd_ok (by unfold Par.inside; omega)) (fun _ _ _ _ => trivial) m trivial).1
  have hf := fold_cells (fun (a : Nat × Nat) x i k => x = .sig ∧ i = (a.1 : Int) ∧ k = (a.2 : Int))
    (fun x => x ≠ .sig) (fun m (q : Nat × Nat) => put m .sig q.1 q.2 (m .sig q.1 q.2 + c q)) (idx2 0 p.nr 0 p.nz)
    (fun a _ s x i k h => if_neg h)
    (fun a _ x i k h hro => hro h.1)
    (by
      intro a _ s s' h1 h2 x i k h3
      unfold put
      rw [if_pos h3, if_pos h3, h2 .sig a.1 a.2 ⟨rfl, rfl, rfl⟩])
    (by
      intro a ha b hb' x i k h1 h2
      exact Prod.ext (by have := h1.2.1.symm.trans h2.2.1; omega) (by have := h1.2.2.symm.trans h2.2.2; omega))
    (nodup_idx2 _ _ _ _) m
  refine ⟨_, hl, ?_, ?_⟩
  · intro x i k h
    refine hf.2 x i k ?_
    rintro a ha ⟨hc, h1, h2⟩
    have := mem_idx2.mp ha
    exact h ⟨hc, by unfold Par.logical; omega⟩
  · intro i k hi hk
    rw [hf.1 (i, k) (mem_idx2.mpr (by dsimp only; omega)) .sig i k ⟨rfl, rfl, rfl⟩]
    exact if_pos ⟨rfl, rfl, rfl⟩

theorem distToEnd_eq (g off cell : Nat) (h : K) (hle : off + cell ≤ g) (hb : g < 2 ^ 63) :
    distToEnd g off cell h = ((g - off - cell : Nat) : K) * h := by
  unfold distToEnd
  congr 2
  omega

/-- Quadratic profile: `s0` at the inner edge, `s1` at the wall; `d` whole cells lie between the
cell and the wall, `n` is the thickness of the layer. -/
def profile (s0 s1 : K) (n t : K) : K := s0 + (s1 - s0) / n ^ 2 * t ^ 2

theorem profile_mono {s0 s1 n t t' : K} (h : s0 ≤ s1) (hn : 0 < n) (ht : 0 ≤ t) (htt : t ≤ t') :
    profile s0 s1 n t ≤ profile s0 s1 n t' := by
  unfold profile
  have : t ^ 2 ≤ t' ^ 2 := by nlinarith
  have h2 : 0 ≤ (s1 - s0) / n ^ 2 := by
    have : 0 ≤ s1 - s0 := by linarith
    positivity
  nlinarith [mul_le_mul_of_nonneg_left this h2]

theorem profile_ge {s0 s1 n t : K} (h : s0 ≤ s1) (hn : 0 < n) : s0 ≤ profile s0 s1 n t := by
  unfold profile
  have : 0 ≤ s1 - s0 := by linarith
  have : 0 ≤ (s1 - s0) / n ^ 2 * t ^ 2 := by positivity
  linarith

theorem sigOuter_eq {p : Par K} (hp : p.Good) {q : Pml K} (hq : q.Fits p) {i : Nat} (hi : i < p.nr) :
    sigOuter p q i = if q.gnr - q.r0 - i < q.outer then
      profile q.s0 q.s1 q.outer ((q.outer : K) + 1 - ((q.gnr - q.r0 - i : Nat) : K)) else 0 := by
  have dr := hp.dr
  have hr := hq.rIn
  unfold sigOuter
  rw [distToEnd_eq _ _ _ _ (by omega) hq.big.1, hq.sizeR]
  have c1 : ((q.gnr - q.r0 - i : Nat) : K) * p.dr < p.dr * q.outer ↔ q.gnr - q.r0 - i < q.outer := by
    rw [mul_comm p.dr, mul_lt_mul_iff_left₀ dr]
    exact Nat.cast_lt
  by_cases h : q.gnr - q.r0 - i < q.outer
  · have ho : (0 : K) < q.outer := by exact_mod_cast (by omega : 0 < q.outer)
    rw [if_pos ⟨by omega, c1.mpr h⟩, if_pos h]
    unfold profile
    have hc : ((q.gnr - q.r0 - i : Nat) : K) = (q.gnr : K) - q.r0 - i := by
      rw [Nat.cast_sub (by omega), Nat.cast_sub (by omega)]
    rw [hc]
    field_simp
    ring
  · rw [if_neg (fun x => h (c1.mp x.2)), if_neg h]

theorem sigRight_eq {p : Par K} (hp : p.Good) {q : Pml K} (hq : q.Fits p) {k : Nat} (hi : k < p.nz) :
    sigRight p q k = if q.gnz - q.z0 - k < q.right then
      profile q.s0 q.s1 q.right ((q.right : K) + 1 - ((q.gnz - q.z0 - k : Nat) : K)) else 0 := by
  have dz := hp.dz
  have hr := hq.zIn
  unfold sigRight
  rw [distToEnd_eq _ _ _ _ (by omega) hq.big.2, hq.sizeZ]
  have c1 : ((q.gnz - q.z0 - k : Nat) : K) * p.dz < p.dz * q.right ↔ q.gnz - q.z0 - k < q.right := by
    rw [mul_comm p.dz, mul_lt_mul_iff_left₀ dz]
    exact Nat.cast_lt
  by_cases h : q.gnz - q.z0 - k < q.right
  · have ho : (0 : K) < q.right := by exact_mod_cast (by omega : 0 < q.right)
    rw [if_pos ⟨by omega, c1.mpr h⟩, if_pos h]
    unfold profile
    have hc : ((q.gnz - q.z0 - k : Nat) : K) = (q.gnz : K) - q.z0 - k := by
      rw [Nat.cast_sub (by omega), Nat.cast_sub (by omega)]
    rw [hc]
    field_simp
    ring
  · rw [if_neg (fun x => h (c1.mp x.2)), if_neg h]

theorem sigLeft_eq {p : Par K} (hp : p.Good) {q : Pml K} (k : Nat) :
    sigLeft p q k = if q.z0 + k < q.left then
      profile q.s0 q.s1 q.left (((q.left - (q.z0 + k) : Nat) : K)) else 0 := by
  have dz := hp.dz
  unfold sigLeft
  have c1 : p.dz * k + q.z0 * p.dz < p.dz * q.left ↔ q.z0 + k < q.left := by
    rw [show p.dz * (k : K) + q.z0 * p.dz = p.dz * ((q.z0 + k : Nat) : K) by push_cast; ring,
      mul_lt_mul_iff_right₀ dz]
    exact Nat.cast_lt
  by_cases h : q.z0 + k < q.left
  · have ho : (0 : K) < q.left := by exact_mod_cast (by omega : 0 < q.left)
    rw [if_pos ⟨by omega, c1.mpr h⟩, if_pos h]
    unfold profile
    have hc : ((q.left - (q.z0 + k) : Nat) : K) = (q.left : K) - (q.z0 + k) := by
      rw [Nat.cast_sub (by omega)]; push_cast; ring
    rw [hc]
    field_simp
    ring
  · rw [if_neg (fun x => h (c1.mp x.2)), if_neg h]

/-- **C22.**  The conductivity that `set_pml` installs in a domain: never negative, zero outside the
layers, growing with the radius, growing to the right beyond the left layer, growing to the left
before the right layer. -/
theorem C22_profile (p : Par K) (hp : p.Good) (q : Pml K) (hq : q.Fits p) (m : Mem K)
    (hm : ∀ i k, p.logical i k → m .sig i k = 0) :
    ∃ m', setPml p q m = .ok m' ∧
      (∀ c i k, c ≠ .sig → m' c i k = m c i k) ∧
      (∀ i k, p.logical i k → 0 ≤ m' .sig i k) ∧
      (∀ i k, p.logical i k → ¬ q.inOuter i → ¬ q.inLeft k → ¬ q.inRight k → m' .sig i k = 0) ∧
      (∀ i i' k, p.logical i k → p.logical i' k → i ≤ i' → m' .sig i k ≤ m' .sig i' k) ∧
      (∀ i k k', p.logical i k → p.logical i k' → k ≤ k' → ¬ q.inLeft k → m' .sig i k ≤ m' .sig i k') ∧
      (∀ i k k', p.logical i k → p.logical i k' → k ≤ k' → ¬ q.inRight k' → m' .sig i k' ≤ m' .sig i k) := by
  obtain ⟨m1, e1, f1, g1⟩ := pmlLoop_eq p (fun c => sigOuter p q c.1) m
  obtain ⟨m2, e2, f2, g2⟩ := pmlLoop_eq p (fun c => sigLeft p q c.2) m1
  obtain ⟨m3, e3, f3, g3⟩ := pmlLoop_eq p (fun c => sigRight p q c.2) m2
  have hs0 := hq.s0
  have hs1 := hq.s1
  have hr := hq.rIn
  have hz := hq.zIn
  have tot : ∀ i k : Nat, i < p.nr → k < p.nz →
      m3 .sig i k = sigOuter p q i + sigLeft p q k + sigRight p q k := by
    intro i k hi hk
    rw [g3 i k hi hk, g2 i k hi hk, g1 i k hi hk, hm _ _ (by unfold Par.logical; omega)]
    ring
  have o0 : ∀ i, i < p.nr → 0 ≤ sigOuter p q i := by
    intro i hi
    rw [sigOuter_eq hp hq hi]
    split
    · exact le_trans hs0 (profile_ge hs1 (by exact_mod_cast (by omega : 0 < q.outer)))
    · exact le_refl _
  have l0 : ∀ k, 0 ≤ sigLeft p q k := by
    intro k
    rw [sigLeft_eq hp]
    split
    · exact le_trans hs0 (profile_ge hs1 (by exact_mod_cast (by omega : 0 < q.left)))
    · exact le_refl _
  have r0 : ∀ k, k < p.nz → 0 ≤ sigRight p q k := by
    intro k hk
    rw [sigRight_eq hp hq hk]
    split
    · exact le_trans hs0 (profile_ge hs1 (by exact_mod_cast (by omega : 0 < q.right)))
    · exact le_refl _
  have oz : ∀ i : Nat, i < p.nr → ¬ q.inOuter i → sigOuter p q i = 0 := by
    intro i hi h
    unfold Pml.inOuter at h
    rw [sigOuter_eq hp hq hi, if_neg (by omega)]
  have lz : ∀ k : Nat, ¬ q.inLeft k → sigLeft p q k = 0 := by
    intro k h
    unfold Pml.inLeft at h
    rw [sigLeft_eq hp, if_neg (by omega)]
  have rz : ∀ k : Nat, k < p.nz → ¬ q.inRight k → sigRight p q k = 0 := by
    intro k hi h
    unfold Pml.inRight at h
    rw [sigRight_eq hp hq hi, if_neg (by omega)]
  have om : ∀ i i' : Nat, i ≤ i' → i' < p.nr → sigOuter p q i ≤ sigOuter p q i' := by
    intro i i' h h'
    by_cases hh : q.gnr - q.r0 - i < q.outer
    · rw [sigOuter_eq hp hq (by omega), sigOuter_eq hp hq h', if_pos hh, if_pos (by omega)]
      have c : ((q.gnr - q.r0 - i' : Nat) : K) ≤ ((q.gnr - q.r0 - i : Nat) : K) := Nat.cast_le.mpr (by omega)
      have c' : ((q.gnr - q.r0 - i : Nat) : K) ≤ (q.outer : K) := Nat.cast_le.mpr (by omega)
      exact profile_mono hs1 (by exact_mod_cast (by omega : 0 < q.outer)) (by linarith) (by linarith)
    · rw [sigOuter_eq hp hq (by omega), if_neg hh]
      exact o0 i' h'
  have rm : ∀ k k' : Nat, k ≤ k' → k' < p.nz → sigRight p q k ≤ sigRight p q k' := by
    intro i i' h h'
    by_cases hh : q.gnz - q.z0 - i < q.right
    · rw [sigRight_eq hp hq (by omega), sigRight_eq hp hq h', if_pos hh, if_pos (by omega)]
      have c : ((q.gnz - q.z0 - i' : Nat) : K) ≤ ((q.gnz - q.z0 - i : Nat) : K) := Nat.cast_le.mpr (by omega)
      have c' : ((q.gnz - q.z0 - i : Nat) : K) ≤ (q.right : K) := Nat.cast_le.mpr (by omega)
      exact profile_mono hs1 (by exact_mod_cast (by omega : 0 < q.right)) (by linarith) (by linarith)
    · rw [sigRight_eq hp hq (by omega), if_neg hh]
      exact r0 i' h'
  have lm : ∀ k k' : Nat, k ≤ k' → sigLeft p q k' ≤ sigLeft p q k := by
    intro i i' h
    by_cases hh : q.z0 + i' < q.left
    · rw [sigLeft_eq hp, sigLeft_eq hp, if_pos hh, if_pos (by omega)]
      have c : ((q.left - (q.z0 + i') : Nat) : K) ≤ ((q.left - (q.z0 + i) : Nat) : K) := Nat.cast_le.mpr (by omega)
      exact profile_mono hs1 (by exact_mod_cast (by omega : 0 < q.left)) (Nat.cast_nonneg _) c
    · rw [sigLeft_eq hp (k := i'), if_neg hh]
      exact l0 i
  have nat : ∀ i k, p.logical i k → ∃ a b : Nat, i = a ∧ k = b ∧ a < p.nr ∧ b < p.nz := by
    intro i k h
    unfold Par.logical at h
    exact ⟨i.toNat, k.toNat, by omega, by omega, by omega, by omega⟩
  refine ⟨m3, ?_, ?_, ?_, ?_, ?_, ?_, ?_⟩
  · unfold setPml
    rw [e1, Res.ok_bind, e2, Res.ok_bind, e3]
  · intro c i k h
    rw [f3 _ _ _ (fun x => h x.1), f2 _ _ _ (fun x => h x.1), f1 _ _ _ (fun x => h x.1)]
  · intro i k h
    obtain ⟨a, b, rfl, rfl, ha, hb⟩ := nat i k h
    rw [tot a b ha hb]
    have := o0 a ha; have := l0 b; have := r0 b hb
    linarith
  · intro i k h h1 h2 h3
    obtain ⟨a, b, rfl, rfl, ha, hb⟩ := nat i k h
    rw [tot a b ha hb, oz a ha h1, lz b h2, rz b hb h3]
    ring
  · intro i i' k h h' hle
    obtain ⟨a, b, rfl, rfl, ha, hb⟩ := nat i k h
    obtain ⟨a', b', rfl, e, ha', hb'⟩ := nat i' b h'
    rw [tot a b ha hb, tot a' b ha' hb]
    have := om a a' (by omega) ha'
    linarith
  · intro i k k' h h' hle hn
    obtain ⟨a, b, rfl, rfl, ha, hb⟩ := nat i k h
    obtain ⟨a', b', e, rfl, ha', hb'⟩ := nat a k' h'
    rw [tot a b ha hb, tot a b' ha hb', lz b hn]
    have := l0 b'
    have := rm b b' (by omega) hb'
    linarith
  · intro i k k' h h' hle hn
    obtain ⟨a, b, rfl, rfl, ha, hb⟩ := nat i k h
    obtain ⟨a', b', e, rfl, ha', hb'⟩ := nat a k' h'
    rw [tot a b ha hb, tot a b' ha hb', rz b' hb' hn]
    have := r0 b hb
    have := lm b b' (by omega)
    linarith

/-- **C22.**  Without currents and magnetic field an electric step never increases the modulus of
any component; where the conductivity is zero it leaves the components as they are. -/
theorem C22_damps (p : Par K) (hp : p.Good) {m m' : Mem K} (h : calcE p m = .ok m')
    (he : ∀ i k, p.logical i k → 0 < m .eps i k) (hs : ∀ i k, p.logical i k → 0 ≤ m .sig i k)
    (hJ : ∀ c i k, c = .jr ∨ c = .jp ∨ c = .jz ∨ c = .hr ∨ c = .hp ∨ c = .hz → m c i k = 0)
    (c : Comp) (hc : c = .er ∨ c = .ep ∨ c = .ez) (i k : Int) (hl : p.logical i k) :
    |m' c i k| ≤ |m c i k| ∧ (m .sig i k = 0 → m' c i k = m c i k) := by
  obtain ⟨m'', e, _, _, h1⟩ := calcE_eq p hp.nr (by have := hp.nr'; omega) hp.nz (by have := hp.nz'; omega) m
  obtain rfl : m'' = m' := Res.ok.inj (e.symm.trans h)
  have key : ∀ v x, x = 0 → |newE p m i k v x| ≤ |v| ∧ (m .sig i k = 0 → newE p m i k v x = v) := by
    rintro v x rfl
    obtain ⟨a, b, c⟩ := C22_factor p hp _ _ (he i k hl) (hs i k hl)
    unfold newE
    rw [zero_mul, sub_zero, abs_mul]
    refine ⟨?_, fun hh => by rw [c.mpr hh, mul_one]⟩
    have : |koefE p (m .eps i k) (m .sig i k)| ≤ 1 := abs_le.mpr ⟨le_of_lt a, b⟩
    nlinarith [abs_nonneg v]
  have zR : xR p m i k = 0 := by
    unfold xR; simp [hJ .jr, hJ .hp]
  have zP : xP p m i k = 0 := by
    unfold xP; simp [hJ .jp, hJ .hr, hJ .hz]
  have zZ : xZ p m i k = 0 := by
    unfold xZ; simp [hJ .jz, hJ .hp]
  have zA : xA p m i k = 0 := by
    unfold xA; simp [hJ .jz, hJ .hp]
  obtain ⟨a, b, d⟩ := h1 i k hl
  rcases hc with rfl | rfl | rfl
  · rw [a]; split
    · exact key _ _ zR
    · exact ⟨le_refl _, fun _ => rfl⟩
  · rw [b]; split
    · exact key _ _ zP
    · exact ⟨le_refl _, fun _ => rfl⟩
  · rw [d]; split
    · exact key _ _ zZ
    · split
      · exact key _ _ zA
      · exact ⟨le_refl _, fun _ => rfl⟩

/-! ## The hypotheses are met: a 5 × 6 domain touching axis and left wall, over the rationals -/

def exPar : Par ℚ := ⟨1/2, 1/3, 1/10, 1, 0, 5, 6, ⟨true, true, false, true⟩⟩
def exPml : Pml ℚ := ⟨2, 3, 2, 1/10, 1, 4, 4, 8, 12, 0, 0⟩

theorem exPar_good : exPar.Good :=
  ⟨by norm_num [exPar], by norm_num [exPar], by norm_num [exPar], by norm_num [exPar], by decide, by decide,
    by decide, by decide, by decide, by decide, by decide⟩

example : exPml.Fits exPar :=
  ⟨by norm_num [exPml], by norm_num [exPml], rfl, by norm_num [exPml, exPar], by norm_num [exPml, exPar],
    by decide, by decide, by decide⟩

/-- A memory with non-trivial contents on which the Gauss theorem applies at node `(2, 3)`. -/
example : ∃ m' : Mem ℚ, calcE exPar (fun c i k => match c with
      | .eps => 1 | .sig => 0 | _ => (i * i + 3 * k : Int)) = .ok m' ∧
    divElectric exPar (displacement m' .er) (displacement m' .ez) 2 3 =
      divElectric exPar (fun i k => 1 * ((i * i + 3 * k : Int) : ℚ)) (fun i k => 1 * ((i * i + 3 * k : Int) : ℚ)) 2 3
      - 1/10 * divElectric exPar (fun i k => ((i * i + 3 * k : Int) : ℚ)) (fun i k => ((i * i + 3 * k : Int) : ℚ)) 2 3 := by
  obtain ⟨m', h⟩ := calcE_defined exPar exPar_good (fun c i k => match c with
      | .eps => 1 | .sig => 0 | _ => (i * i + 3 * k : Int))
  exact ⟨m', h, C16_gauss exPar exPar_good h 2 3 (by decide) (by decide) (by decide) (by decide)
    (fun _ _ _ => ⟨one_ne_zero, rfl⟩)⟩

/-- Two full steps with a deposited current are a history from a fresh solver. -/
example : ∃ m₀ m₁ m₂ m₃ m₄ : Mem ℚ, Fresh exPar m₀ ∧ m₁ .jz 2 2 = 1 ∧ calcE exPar m₁ = .ok m₂ ∧
    calcH exPar m₂ = .ok m₃ ∧ calcE exPar m₃ = .ok m₄ ∧ History exPar m₀ m₄ := by
  obtain ⟨m₂, h2⟩ := calcE_defined exPar exPar_good
    (fun c i k => if c = .eps then 1 else if c = .jz ∧ i = 2 ∧ k = 2 then 1 else 0)
  obtain ⟨m₃, h3⟩ := calcH_defined exPar exPar_good m₂
  obtain ⟨m₄, h4⟩ := calcE_defined exPar exPar_good m₃
  refine ⟨fun c _ _ => if c = .eps then 1 else 0, _, m₂, m₃, m₄, ?_, ?_, h2, h3, h4,
    .snoc (.snoc (.snoc (.snoc .nil (.other ?_)) (.electric h2)) (.magnetic h3)) (.electric h4)⟩
  · intro c i k h _ _
    exact if_neg h
  · rfl
  · intro c i k hc _
    cases c <;> first | rfl | exact hc.elim

end Yee
end Pico
