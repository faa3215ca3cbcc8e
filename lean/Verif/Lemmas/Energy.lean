import Verif.Spec.Energy
import Verif.Lemmas.Yee
import Verif.Props.Maxwell
import Verif.Model.FieldStep
import Mathlib.Algebra.BigOperators.Intervals
import Mathlib.Algebra.BigOperators.Ring.Finset
import Mathlib.Tactic.LinearCombination

/-! # Summation by parts for the field solver -/

set_option linter.unusedSimpArgs false
set_option linter.unusedVariables false
set_option linter.unusedSectionVars false

namespace Pico
namespace Yee

variable {K : Type _} [Field K]

theorem boxSum_congr {p : Par K} {f g : Int → Int → K} (h : ∀ i k, p.logical i k → f i k = g i k) :
    boxSum p f = boxSum p g := by
  unfold boxSum
  refine Finset.sum_congr rfl fun i hi => Finset.sum_congr rfl fun k hk => h _ _ ?_
  rw [Finset.mem_range] at hi hk
  unfold Par.logical
  omega

theorem boxSum_add (p : Par K) (f g : Int → Int → K) : boxSum p (fun i k => f i k + g i k) = boxSum p f + boxSum p g := by
  unfold boxSum
  simp only [Finset.sum_add_distrib]

theorem boxSum_sub (p : Par K) (f g : Int → Int → K) : boxSum p (fun i k => f i k - g i k) = boxSum p f - boxSum p g := by
  unfold boxSum
  simp only [Finset.sum_sub_distrib]

theorem boxSum_mul (p : Par K) (c : K) (f : Int → Int → K) : boxSum p (fun i k => c * f i k) = c * boxSum p f := by
  unfold boxSum
  simp only [Finset.mul_sum]

theorem boxSum_zero (p : Par K) : boxSum p (fun _ _ => 0) = 0 := by unfold boxSum; simp

theorem tele (G : Int → K) (n : Nat) : ∑ k ∈ Finset.range n, (G ((k : Int) + 1) - G k) = G n - G 0 := by
  have := Finset.sum_range_sub (fun k : Nat => G (k : Int)) n
  push_cast at this
  exact this

theorem boxSum_tele_k (p : Par K) (G : Int → Int → K) (h : ∀ i, p.logical i 0 → G i 0 = 0 ∧ G i p.nz = 0) (hz : 1 ≤ p.nz) :
    boxSum p (fun i k => G i (k + 1) - G i k) = 0 := by
  unfold boxSum
  refine Finset.sum_eq_zero fun i hi => ?_
  rw [Finset.mem_range] at hi
  obtain ⟨a, b⟩ := h i (by unfold Par.logical; omega)
  rw [tele (G i), a, b, sub_zero]

theorem boxSum_tele_i (p : Par K) (G : Int → Int → K) (h : ∀ k, p.logical 0 k → G 0 k = 0 ∧ G p.nr k = 0) (hr : 1 ≤ p.nr) :
    boxSum p (fun i k => G (i + 1) k - G i k) = 0 := by
  unfold boxSum
  rw [Finset.sum_comm]
  refine Finset.sum_eq_zero fun k hk => ?_
  rw [Finset.mem_range] at hk
  obtain ⟨a, b⟩ := h k (by unfold Par.logical; omega)
  rw [tele (fun i => G i k), a, b, sub_zero]

/-- The electric field vanishes in the walls, in the corner on the axis and behind the walls. -/
structure Shut (p : Par K) (m : Mem K) : Prop where
  er0 : ∀ i : Int, 0 ≤ i → i ≤ p.nr → m .er i 0 = 0
  erz : ∀ i : Int, 0 ≤ i → i ≤ p.nr → m .er i ((p.nz : Int) - 1) = 0 ∧ m .er i p.nz = 0
  err : ∀ k : Int, 0 ≤ k → k ≤ p.nz → m .er ((p.nr : Int) - 1) k = 0
  ep0 : ∀ i : Int, 0 ≤ i → i ≤ p.nr → m .ep i 0 = 0
  epz : ∀ i : Int, 0 ≤ i → i ≤ p.nr → m .ep i ((p.nz : Int) - 1) = 0 ∧ m .ep i p.nz = 0
  epr : ∀ k : Int, 0 ≤ k → k ≤ p.nz → m .ep ((p.nr : Int) - 1) k = 0 ∧ m .ep p.nr k = 0
  epa : ∀ k : Int, 0 ≤ k → k ≤ p.nz → m .ep 0 k = 0
  ezz : ∀ i : Int, 0 ≤ i → i ≤ p.nr → m .ez i ((p.nz : Int) - 1) = 0
  ezr : ∀ k : Int, 0 ≤ k → k ≤ p.nz → m .ez ((p.nr : Int) - 1) k = 0 ∧ m .ez p.nr k = 0
  eza : m .ez 0 0 = 0

theorem Shut.congr {p : Par K} {m m' : Mem K} (h : Shut p m) (h1 : m' .er = m .er) (h2 : m' .ep = m .ep)
    (h3 : m' .ez = m .ez) : Shut p m' := by
  refine ⟨?_, ?_, ?_, ?_, ?_, ?_, ?_, ?_, ?_, ?_⟩ <;> (first | rw [h1] | rw [h2] | rw [h3])
  · exact h.er0
  · exact h.erz
  · exact h.err
  · exact h.ep0
  · exact h.epz
  · exact h.epr
  · exact h.epa
  · exact h.ezz
  · exact h.ezr
  · exact h.eza

variable [LinearOrder K] [IsStrictOrderedRing K]

/-- What an electric step in a closed chamber does. -/
theorem calcE_closed {p : Par K} (hp : p.Good) (hc : Closed p) {m m' : Mem K} (h : calcE p m = .ok m') (hs : Shut p m)
    (hd : ∀ i k, p.logical i k → 2 * m .eps i k + m .sig i k * p.dt ≠ 0) :
    Shut p m' ∧ (∀ c i k, ¬ isE c → m' c i k = m c i k) ∧
    ∀ i k, p.logical i k →
      (let e := (m .er i k + m' .er i k) / 2
       (m .eps i k * (m' .er i k - m .er i k) + m .sig i k * p.dt * e + p.dt * xR p m i k) * e = 0) ∧
      (let e := (m .ep i k + m' .ep i k) / 2
       (m .eps i k * (m' .ep i k - m .ep i k) + m .sig i k * p.dt * e + p.dt * xP p m i k) * e = 0) ∧
      (let e := (m .ez i k + m' .ez i k) / 2
       (m .eps i k * (m' .ez i k - m .ez i k) + m .sig i k * p.dt * e +
         p.dt * (if i = 0 then xA p m i k else xZ p m i k)) * e = 0) := by
  have nr' := hp.nr'
  have nz' := hp.nz'
  have nr1 := hp.nr
  have nz1 := hp.nz
  obtain ⟨m'', e, h1, h2, h3⟩ := calcE_eq p hp.nr (by omega) hp.nz (by omega) m
  obtain rfl : m'' = m' := Res.ok.inj (e.symm.trans h)
  have b0 : ((begin_ p.walls.r0 : Nat) : Int) = 1 := by unfold begin_; rw [if_pos hc.r0]; rfl
  have b1 : ((begin_ p.walls.z0 : Nat) : Int) = 1 := by unfold begin_; rw [if_pos hc.z0]; rfl
  have e0 : ((end_ p.walls.rr p.nr : Nat) : Int) = (p.nr : Int) - 1 := by
    rw [end_lt _ hp.nr (by omega), if_pos hc.rr]; omega
  have e1 : ((end_ p.walls.zz p.nz : Nat) : Int) = (p.nz : Int) - 1 := by
    rw [end_lt _ hp.nz (by omega), if_pos hc.zz]; omega
  simp only [b0, b1, e0, e1] at h3
  simp only [hc.r0, hc.z0, true_and] at h3
  have nr2 := hc.rows
  have nz2 := hc.cols
  have ov : ∀ c (i k : Int), isE c → 0 ≤ i → i ≤ p.nr → 0 ≤ k → k ≤ p.nz → (i = p.nr ∨ k = p.nz) → m'' c i k = 0 :=
    fun c i k hE a1 a2 a3 a4 a5 => h2 c i k hE (by unfold Par.inside; omega) (by unfold Par.logical; omega)
  have ier : isE .er := by unfold isE; decide
  have iep : isE .ep := by unfold isE; decide
  have iez : isE .ez := by unfold isE; decide
  -- frozen cells
  have zr : ∀ i k, p.logical i k → ¬ ((1 ≤ k ∧ k < (p.nz : Int) - 1) ∧ ((1 ≤ i ∧ i < (p.nr : Int) - 1) ∨ i = 0)) →
      m .er i k = 0 := by
    intro i k hl hn
    unfold Par.logical at hl
    by_cases k0 : k = 0
    · subst k0; exact hs.er0 i (by omega) (by omega)
    by_cases k1 : k = (p.nz : Int) - 1
    · subst k1; exact (hs.erz i (by omega) (by omega)).1
    have : i = (p.nr : Int) - 1 := by omega
    subst this; exact hs.err k (by omega) (by omega)
  have zp : ∀ i k, p.logical i k → ¬ ((1 ≤ k ∧ k < (p.nz : Int) - 1) ∧ (1 ≤ i ∧ i < (p.nr : Int) - 1)) →
      m .ep i k = 0 := by
    intro i k hl hn
    unfold Par.logical at hl
    by_cases k0 : k = 0
    · subst k0; exact hs.ep0 i (by omega) (by omega)
    by_cases k1 : k = (p.nz : Int) - 1
    · subst k1; exact (hs.epz i (by omega) (by omega)).1
    by_cases i0 : i = 0
    · subst i0; exact hs.epa k (by omega) (by omega)
    have : i = (p.nr : Int) - 1 := by omega
    subst this; exact (hs.epr k (by omega) (by omega)).1
  have zz : ∀ i k, p.logical i k → ¬ ((1 ≤ i ∧ i < (p.nr : Int) - 1) ∧ ((1 ≤ k ∧ k < (p.nz : Int) - 1) ∨ k = 0)) →
      ¬ (i = 0 ∧ (1 ≤ k ∧ k < (p.nz : Int) - 1)) → m .ez i k = 0 := by
    intro i k hl hn hn'
    unfold Par.logical at hl
    by_cases k1 : k = (p.nz : Int) - 1
    · subst k1; exact hs.ezz i (by omega) (by omega)
    by_cases i1 : i = (p.nr : Int) - 1
    · subst i1; exact (hs.ezr k (by omega) (by omega)).1
    obtain ⟨rfl, rfl⟩ : i = 0 ∧ k = 0 := by omega
    exact hs.eza
  have fr : ∀ i k, p.logical i k → ¬ ((1 ≤ k ∧ k < (p.nz : Int) - 1) ∧ ((1 ≤ i ∧ i < (p.nr : Int) - 1) ∨ i = 0)) →
      m'' .er i k = 0 := fun i k hl hn => by rw [(h3 i k hl).1, if_neg hn]; exact zr i k hl hn
  have fp : ∀ i k, p.logical i k → ¬ ((1 ≤ k ∧ k < (p.nz : Int) - 1) ∧ (1 ≤ i ∧ i < (p.nr : Int) - 1)) →
      m'' .ep i k = 0 := fun i k hl hn => by rw [(h3 i k hl).2.1, if_neg hn]; exact zp i k hl hn
  have fz : ∀ i k, p.logical i k → ¬ ((1 ≤ i ∧ i < (p.nr : Int) - 1) ∧ ((1 ≤ k ∧ k < (p.nz : Int) - 1) ∨ k = 0)) →
      ¬ (i = 0 ∧ (1 ≤ k ∧ k < (p.nz : Int) - 1)) → m'' .ez i k = 0 := fun i k hl hn hn' => by
    rw [(h3 i k hl).2.2, if_neg hn, if_neg hn']; exact zz i k hl hn hn'
  have lg : ∀ i k : Int, 0 ≤ i → 0 ≤ k → i ≠ p.nr → k ≠ p.nz → i ≤ p.nr → k ≤ p.nz → p.logical i k := by
    intro i k a b c d e f; unfold Par.logical; omega
  refine ⟨⟨?_, ?_, ?_, ?_, ?_, ?_, ?_, ?_, ?_, ?_⟩, h1, ?_⟩
  · intro i a b
    by_cases hi : i = p.nr
    · exact ov _ _ _ ier a b (by omega) (by omega) (Or.inl hi)
    · exact fr i 0 (lg i 0 a (by omega) hi (by omega) b (by omega)) (by omega)
  · intro i a b
    refine ⟨?_, ov _ _ _ ier a b (by omega) (by omega) (Or.inr rfl)⟩
    by_cases hi : i = p.nr
    · exact ov _ _ _ ier a b (by omega) (by omega) (Or.inl hi)
    · exact fr i _ (lg i _ a (by omega) hi (by omega) b (by omega)) (by omega)
  · intro k a b
    by_cases hk : k = p.nz
    · exact ov _ _ _ ier (by omega) (by omega) a b (Or.inr hk)
    · exact fr _ k (lg _ k (by omega) a (by omega) hk (by omega) b) (by omega)
  · intro i a b
    by_cases hi : i = p.nr
    · exact ov _ _ _ iep a b (by omega) (by omega) (Or.inl hi)
    · exact fp i 0 (lg i 0 a (by omega) hi (by omega) b (by omega)) (by omega)
  · intro i a b
    refine ⟨?_, ov _ _ _ iep a b (by omega) (by omega) (Or.inr rfl)⟩
    by_cases hi : i = p.nr
    · exact ov _ _ _ iep a b (by omega) (by omega) (Or.inl hi)
    · exact fp i _ (lg i _ a (by omega) hi (by omega) b (by omega)) (by omega)
  · intro k a b
    refine ⟨?_, ov _ _ _ iep (by omega) (by omega) a b (Or.inl rfl)⟩
    by_cases hk : k = p.nz
    · exact ov _ _ _ iep (by omega) (by omega) a b (Or.inr hk)
    · exact fp _ k (lg _ k (by omega) a (by omega) hk (by omega) b) (by omega)
  · intro k a b
    by_cases hk : k = p.nz
    · exact ov _ _ _ iep (by omega) (by omega) a b (Or.inr hk)
    · exact fp 0 k (lg 0 k (by omega) a (by omega) hk (by omega) b) (by omega)
  · intro i a b
    by_cases hi : i = p.nr
    · exact ov _ _ _ iez a b (by omega) (by omega) (Or.inl hi)
    · exact fz i _ (lg i _ a (by omega) hi (by omega) b (by omega)) (by omega) (by omega)
  · intro k a b
    refine ⟨?_, ov _ _ _ iez (by omega) (by omega) a b (Or.inl rfl)⟩
    by_cases hk : k = p.nz
    · exact ov _ _ _ iez (by omega) (by omega) a b (Or.inr hk)
    · exact fz _ k (lg _ k (by omega) a (by omega) hk (by omega) b) (by omega) (by omega)
  · exact fz 0 0 (lg 0 0 (by omega) (by omega) (by omega) (by omega) (by omega) (by omega)) (by omega) (by omega)
  · intro i k hl
    have hd' := hd i k hl
    refine ⟨?_, ?_, ?_⟩
    · by_cases c : (1 ≤ k ∧ k < (p.nz : Int) - 1) ∧ ((1 ≤ i ∧ i < (p.nr : Int) - 1) ∨ i = 0)
      · have a := (h3 i k hl).1
        rw [if_pos c] at a
        have b := newE_ampere p m i k (m .er i k) (xR p m i k) hd'
        rw [← a] at b
        dsimp only
        linear_combination ((m .er i k + m'' .er i k) / 2) * b
      · dsimp only
        rw [fr i k hl c, zr i k hl c]; ring
    · by_cases c : (1 ≤ k ∧ k < (p.nz : Int) - 1) ∧ (1 ≤ i ∧ i < (p.nr : Int) - 1)
      · have a := (h3 i k hl).2.1
        rw [if_pos c] at a
        have b := newE_ampere p m i k (m .ep i k) (xP p m i k) hd'
        rw [← a] at b
        dsimp only
        linear_combination ((m .ep i k + m'' .ep i k) / 2) * b
      · dsimp only
        rw [fp i k hl c, zp i k hl c]; ring
    · by_cases c : (1 ≤ i ∧ i < (p.nr : Int) - 1) ∧ ((1 ≤ k ∧ k < (p.nz : Int) - 1) ∨ k = 0)
      · have a := (h3 i k hl).2.2
        rw [if_pos c] at a
        have b := newE_ampere p m i k (m .ez i k) (xZ p m i k) hd'
        rw [← a] at b
        dsimp only
        rw [if_neg (by omega)]
        linear_combination ((m .ez i k + m'' .ez i k) / 2) * b
      · by_cases c' : i = 0 ∧ (1 ≤ k ∧ k < (p.nz : Int) - 1)
        · have a := (h3 i k hl).2.2
          rw [if_neg c, if_pos c'] at a
          have b := newE_ampere p m i k (m .ez i k) (xA p m i k) hd'
          rw [← a] at b
          dsimp only
          rw [if_pos c'.1]
          linear_combination ((m .ez i k + m'' .ez i k) / 2) * b
        · dsimp only
          rw [fz i k hl c c', zz i k hl c c']; ring

/-- Magnetic fields half a step before (`a`) and after (`b`) the electric field of `b`. -/
def Link (p : Par K) (a b : Mem K) : Prop := ∀ i k, p.logical i k →
  b .hr i k = a .hr i k + aR p b i k ∧ b .hp i k = a .hp i k + aP p b i k ∧ b .hz i k = a .hz i k - aZ p b i k

theorem calcH_closed {p : Par K} (hp : p.Good) {m m' : Mem K} (h : calcH p m = .ok m') (hs : Shut p m) :
    Shut p m' ∧ (∀ c i k, ¬ isH c → m' c i k = m c i k) ∧ Link p m m' := by
  obtain ⟨m'', e, h1, h2, _⟩ := calcH_eq p hp.nr m
  obtain rfl : m'' = m' := Res.ok.inj (e.symm.trans h)
  have er : m'' .er = m .er := by funext i k; exact h1 _ _ _ (by unfold isH; decide)
  have ep : m'' .ep = m .ep := by funext i k; exact h1 _ _ _ (by unfold isH; decide)
  have ez : m'' .ez = m .ez := by funext i k; exact h1 _ _ _ (by unfold isH; decide)
  refine ⟨hs.congr er ep ez, h1, fun i k hl => ?_⟩
  obtain ⟨⟨a1, _⟩, a2, _, a3, _⟩ := h2 i k hl
  have w : (if p.walls.rr = true ∧ i = (p.nr : Int) - 1 then aR p m i k else 0) = 0 := by
    split
    · rename_i hc
      unfold Par.logical at hl
      unfold aR
      rw [hc.2, (hs.epr k (by omega) (by omega)).1, (hs.epr (k + 1) (by omega) (by omega)).1]
      simp
    · rfl
  rw [w, add_zero] at a1
  have c1 : aR p m'' i k = aR p m i k := by unfold aR; rw [ep]
  have c2 : aP p m'' i k = aP p m i k := by unfold aP; rw [er, ez]
  have c3 : aZ p m'' i k = aZ p m i k := by unfold aZ; rw [ep]
  rw [c1, c2, c3]
  exact ⟨a1, a2, a3⟩

/-! ### Volumes -/

theorem volHalf_eq (p : Par K) (i : Int) : volHalf p i = ((i : K) + 1 / 2) * p.dr ^ 2 * p.dz := by
  unfold volHalf ringVolume; ring

theorem volNode_zero (p : Par K) : volNode p 0 = p.dr ^ 2 * p.dz / 8 := by
  unfold volNode ringVolume; rw [if_pos rfl]; ring

theorem volNode_pos (p : Par K) {i : Int} (h : i ≠ 0) : volNode p i = (i : K) * p.dr ^ 2 * p.dz := by
  unfold volNode ringVolume; rw [if_neg h]; ring

/-- Mean of two states. -/
def mean (a b : Mem K) (c : Comp) (i k : Int) : K := (a c i k + b c i k) / 2

/-- Energy that flows through the border between the columns `k - 1` and `k`. -/
def flowZ (p : Par K) (b c : Mem K) (i k : Int) : K :=
  p.dt * (-(((i : K) + 1 / 2) * p.dr ^ 2 * mean b c .er i k * b .hp i (k - 1)) +
    (i : K) * p.dr ^ 2 * mean b c .ep i k * b .hr i (k - 1))

/-- Energy that flows through the border between the rows `i - 1` and `i`. -/
def flowR (p : Par K) (b c : Mem K) (i k : Int) : K :=
  if i = 0 then 0 else
  p.dt * p.dr * p.dz * (((i : K) - 1 / 2) * mean b c .ez i k * b .hp (i - 1) k - (i : K) * mean b c .ep i k * b .hz (i - 1) k)

theorem mag_r {p : Par K} (hp : p.Good) (b c : Mem K) (hb : Shut p b) (hc : Shut p c) {i k : Int} (hl : p.logical i k) :
    p.mu / 2 * volNode p i * (aR p b i k + aR p c i k) =
      p.dt * ((i : K) * p.dr ^ 2) * (mean b c .ep i (k + 1) - mean b c .ep i k) := by
  have dz' : p.dz ≠ 0 := ne_of_gt hp.dz
  have mu' : p.mu ≠ 0 := ne_of_gt hp.mu
  by_cases h : i = 0
  · subst h
    unfold Par.logical at hl
    unfold aR mean
    rw [hb.epa k (by omega) (by omega), hb.epa (k + 1) (by omega) (by omega), hc.epa k (by omega) (by omega),
      hc.epa (k + 1) (by omega) (by omega)]
    simp
  · rw [volNode_pos p h]
    unfold aR mean
    field_simp
    ring

theorem mag_p {p : Par K} (hp : p.Good) (b c : Mem K) (i k : Int) :
    p.mu / 2 * volHalf p i * (aP p b i k + aP p c i k) =
      p.dt * (((i : K) + 1 / 2) * p.dr) * (p.dz * (mean b c .ez (i + 1) k - mean b c .ez i k) -
        p.dr * (mean b c .er i (k + 1) - mean b c .er i k)) := by
  have dz' : p.dz ≠ 0 := ne_of_gt hp.dz
  have dr' : p.dr ≠ 0 := ne_of_gt hp.dr
  have mu' : p.mu ≠ 0 := ne_of_gt hp.mu
  rw [volHalf_eq]
  unfold aP mean
  field_simp
  ring

theorem mag_z {p : Par K} (hp : p.Good) (h0 : p.r0 = 0) (b c : Mem K) {i k : Int} (hl : p.logical i k) :
    p.mu / 2 * volHalf p i * (aZ p b i k + aZ p c i k) =
      p.dt * (p.dz * p.dr) * (((i : K) + 1) * mean b c .ep (i + 1) k - (i : K) * mean b c .ep i k) := by
  have dz' : p.dz ≠ 0 := ne_of_gt hp.dz
  have dr' : p.dr ≠ 0 := ne_of_gt hp.dr
  have mu' : p.mu ≠ 0 := ne_of_gt hp.mu
  have hi0 : (0 : K) ≤ (i : K) := by exact_mod_cast hl.1.1
  have hR2 : (i : K) * 2 + 1 ≠ 0 := by positivity
  have hR3 : 2 * (i : K) + 1 ≠ 0 := by positivity
  have hR : (i : K) + 1 / 2 ≠ 0 := by positivity
  rw [volHalf_eq]
  unfold aZ mean
  rw [h0, Nat.cast_zero, add_zero]
  field_simp
  ring

theorem el_r {p : Par K} (hp : p.Good) (m : Mem K) (i k : Int) :
    volHalf p i * xR p m i k = volHalf p i * m .jr i k + ((i : K) + 1 / 2) * p.dr ^ 2 * (m .hp i k - m .hp i (k - 1)) := by
  have dz' : p.dz ≠ 0 := ne_of_gt hp.dz
  rw [volHalf_eq]
  unfold xR
  field_simp

theorem el_p {p : Par K} (hp : p.Good) (m : Mem K) {i : Int} (k : Int) (h : i ≠ 0) :
    volNode p i * xP p m i k = volNode p i * m .jp i k - (i : K) * p.dr ^ 2 * (m .hr i k - m .hr i (k - 1)) +
      (i : K) * p.dr * p.dz * (m .hz i k - m .hz (i - 1) k) := by
  have dz' : p.dz ≠ 0 := ne_of_gt hp.dz
  have dr' : p.dr ≠ 0 := ne_of_gt hp.dr
  rw [volNode_pos p h]
  unfold xP
  field_simp
  try ring

theorem el_z {p : Par K} (hp : p.Good) (h0 : p.r0 = 0) (m : Mem K) {i : Int} (k : Int) (h : i ≠ 0) :
    volNode p i * xZ p m i k = volNode p i * m .jz i k -
      p.dr * p.dz * (((i : K) + 1 / 2) * m .hp i k - ((i : K) - 1 / 2) * m .hp (i - 1) k) := by
  have dr' : p.dr ≠ 0 := ne_of_gt hp.dr
  have hi : (i : K) ≠ 0 := by exact_mod_cast h
  rw [volNode_pos p h]
  unfold xZ
  rw [h0, Nat.cast_zero, add_zero]
  field_simp
  ring

theorem el_a {p : Par K} (hp : p.Good) (m : Mem K) (k : Int) :
    volNode p 0 * xA p m 0 k = volNode p 0 * m .jz 0 k - p.dr * p.dz * (1 / 2 * m .hp 0 k) := by
  have dr' : p.dr ≠ 0 := ne_of_gt hp.dr
  rw [volNode_zero]
  unfold xA
  field_simp
  ring

/-- Electric step from `b` (with the sources `s`) to `c`. -/
def Moves (p : Par K) (eps : Int → Int → K) (b c : Mem K) : Prop := ∀ i k, p.logical i k →
  (eps i k * (c .er i k - b .er i k) + c .sig i k * p.dt * mean b c .er i k + p.dt * xR p b i k) * mean b c .er i k = 0 ∧
  (eps i k * (c .ep i k - b .ep i k) + c .sig i k * p.dt * mean b c .ep i k + p.dt * xP p b i k) * mean b c .ep i k = 0 ∧
  (eps i k * (c .ez i k - b .ez i k) + c .sig i k * p.dt * mean b c .ez i k +
    p.dt * (if i = 0 then xA p b i k else xZ p b i k)) * mean b c .ez i k = 0

theorem cell_balance {p : Par K} (hp : p.Good) (hc : Closed p) {eps : Int → Int → K} {a b c : Mem K}
    (sb : Shut p b) (sc : Shut p c) (lb : Link p a b) (lc : Link p b c) (mv : Moves p eps b c)
    (hj : ∀ i k, b .jr i k = c .jr i k ∧ b .jp i k = c .jp i k ∧ b .jz i k = c .jz i k) {i k : Int} (hl : p.logical i k) :
    (eps i k / 2 * (volHalf p i * c .er i k ^ 2 + volNode p i * (c .ep i k ^ 2 + c .ez i k ^ 2)) +
      p.mu / 2 * (volNode p i * (b .hr i k * c .hr i k) + volHalf p i * (b .hp i k * c .hp i k + b .hz i k * c .hz i k))) -
    (eps i k / 2 * (volHalf p i * b .er i k ^ 2 + volNode p i * (b .ep i k ^ 2 + b .ez i k ^ 2)) +
      p.mu / 2 * (volNode p i * (a .hr i k * b .hr i k) + volHalf p i * (a .hp i k * b .hp i k + a .hz i k * b .hz i k))) =
    -p.dt * (volHalf p i * (c .jr i k * mean b c .er i k + c .sig i k * mean b c .er i k ^ 2) +
      volNode p i * (c .jp i k * mean b c .ep i k + c .sig i k * mean b c .ep i k ^ 2 + c .jz i k * mean b c .ez i k +
        c .sig i k * mean b c .ez i k ^ 2)) +
    ((flowZ p b c i (k + 1) - flowZ p b c i k) + (flowR p b c (i + 1) k - flowR p b c i k)) := by
  obtain ⟨l1, l2, l3⟩ := lb i k hl
  obtain ⟨n1, n2, n3⟩ := lc i k hl
  obtain ⟨m1, m2, m3⟩ := mv i k hl
  obtain ⟨j1, j2, j3⟩ := hj i k
  have g1 := mag_r hp b c sb sc hl
  have g2 := mag_p hp b c i k
  have g3 := mag_z hp hc.axis b c hl
  have x1 := el_r hp b i k
  have hi1 : i + 1 ≠ 0 := by unfold Par.logical at hl; omega
  have fR1 : flowR p b c (i + 1) k = p.dt * p.dr * p.dz * (((i : K) + 1 / 2) * mean b c .ez (i + 1) k * b .hp i k -
      ((i : K) + 1) * mean b c .ep (i + 1) k * b .hz i k) := by
    unfold flowR
    rw [if_neg hi1, add_sub_cancel_right]
    push_cast
    ring
  have fZ1 : flowZ p b c i (k + 1) = p.dt * (-(((i : K) + 1 / 2) * p.dr ^ 2 * mean b c .er i (k + 1) * b .hp i k) +
    (i : K) * p.dr ^ 2 * mean b c .ep i (k + 1) * b .hr i k) := by
    unfold flowZ
    rw [add_sub_cancel_right]
  have q1 : c .er i k ^ 2 - b .er i k ^ 2 = 2 * ((c .er i k - b .er i k) * mean b c .er i k) := by unfold mean; ring
  have q2 : c .ep i k ^ 2 - b .ep i k ^ 2 = 2 * ((c .ep i k - b .ep i k) * mean b c .ep i k) := by unfold mean; ring
  have q3 : c .ez i k ^ 2 - b .ez i k ^ 2 = 2 * ((c .ez i k - b .ez i k) * mean b c .ez i k) := by unfold mean; ring
  rw [fR1, fZ1]
  rw [j1] at x1
  by_cases h : i = 0
  · subst h
    have x3 := el_a hp b k
    rw [j3] at x3
    rw [if_pos rfl] at m3
    have fR0 : flowR p b c 0 k = 0 := if_pos rfl
    have zp : mean b c .ep 0 k = 0 := by
      unfold Par.logical at hl
      unfold mean
      rw [sb.epa k (by omega) (by omega), sc.epa k (by omega) (by omega)]; simp
    rw [fR0]
    unfold flowZ
    rw [zp] at q2 g1 g3 m2 ⊢
    push_cast at *
    linear_combination eps 0 k / 2 * volHalf p 0 * q1 + eps 0 k / 2 * volNode p 0 * q2 + eps 0 k / 2 * volNode p 0 * q3 +
      volHalf p 0 * m1 + volNode p 0 * m3 - p.dt * mean b c .er 0 k * x1 - p.dt * mean b c .ez 0 k * x3 +
      b .hr 0 k * g1 + b .hp 0 k * g2 - b .hz 0 k * g3 +
      p.mu / 2 * volNode p 0 * b .hr 0 k * (n1 + l1) + p.mu / 2 * volHalf p 0 * b .hp 0 k * (n2 + l2) +
      p.mu / 2 * volHalf p 0 * b .hz 0 k * (n3 + l3)
  · have x2 := el_p hp b k h
    have x3 := el_z hp hc.axis b k h
    rw [j2] at x2
    rw [j3] at x3
    rw [if_neg h] at m3
    have fR0 : flowR p b c i k = p.dt * p.dr * p.dz * (((i : K) - 1 / 2) * mean b c .ez i k * b .hp (i - 1) k -
        (i : K) * mean b c .ep i k * b .hz (i - 1) k) := if_neg h
    rw [fR0]
    unfold flowZ
    linear_combination eps i k / 2 * volHalf p i * q1 + eps i k / 2 * volNode p i * q2 + eps i k / 2 * volNode p i * q3 +
      volHalf p i * m1 + volNode p i * m2 + volNode p i * m3 - p.dt * mean b c .er i k * x1 - p.dt * mean b c .ep i k * x2 -
      p.dt * mean b c .ez i k * x3 +
      b .hr i k * g1 + b .hp i k * g2 - b .hz i k * g3 +
      p.mu / 2 * volNode p i * b .hr i k * (n1 + l1) + p.mu / 2 * volHalf p i * b .hp i k * (n2 + l2) +
      p.mu / 2 * volHalf p i * b .hz i k * (n3 + l3)

theorem balance {p : Par K} (hp : p.Good) (hc : Closed p) {eps : Int → Int → K} {a b c : Mem K}
    (sb : Shut p b) (sc : Shut p c) (lb : Link p a b) (lc : Link p b c) (mv : Moves p eps b c)
    (hj : ∀ i k, b .jr i k = c .jr i k ∧ b .jp i k = c .jp i k ∧ b .jz i k = c .jz i k) :
    fieldEnergy p eps b c - fieldEnergy p eps a b = -(p.dt * power p b c) := by
  have nr1 := hp.nr
  have nz1 := hp.nz
  unfold fieldEnergy electricEnergy magneticEnergy power
  rw [← boxSum_add, ← boxSum_add, ← boxSum_sub]
  rw [boxSum_congr (fun i k hl => cell_balance hp hc sb sc lb lc mv hj hl)]
  rw [boxSum_add, boxSum_mul, boxSum_add p (fun i k => flowZ p b c i (k + 1) - flowZ p b c i k)]
  rw [boxSum_tele_k p (flowZ p b c) _ hp.nz, boxSum_tele_i p (flowR p b c) _ hp.nr]
  · unfold mean
    ring
  · intro k hl
    unfold Par.logical at hl
    refine ⟨if_pos rfl, ?_⟩
    unfold flowR mean
    rw [if_neg (by omega), (sb.ezr k (by omega) (by omega)).2, (sc.ezr k (by omega) (by omega)).2,
      (sb.epr k (by omega) (by omega)).2, (sc.epr k (by omega) (by omega)).2]
    ring
  · intro i hl
    unfold Par.logical at hl
    unfold flowZ mean
    rw [sb.er0 i (by omega) (by omega), sc.er0 i (by omega) (by omega), sb.ep0 i (by omega) (by omega),
      sc.ep0 i (by omega) (by omega), (sb.erz i (by omega) (by omega)).2, (sc.erz i (by omega) (by omega)).2,
      (sb.epz i (by omega) (by omega)).2, (sc.epz i (by omega) (by omega)).2]
    constructor <;> ring

end Yee
end Pico
