import Verif.Lemmas.Energy
import Mathlib.Algebra.Order.BigOperators.Group.Finset
import Mathlib.Tactic.Positivity
import Mathlib.Tactic.Linarith
import Mathlib.Tactic.FieldSimp
import Mathlib.Tactic.LinearCombination
import Mathlib.Tactic.GCongr

/-! # The magnetic change of a step is bounded by the electric field (lemmas for C77) -/

set_option linter.unusedSimpArgs false
set_option linter.unusedVariables false
set_option linter.unusedSectionVars false

namespace Pico
namespace Yee

variable {K : Type _} [Field K] [LinearOrder K] [IsStrictOrderedRing K]

theorem boxSum_le {p : Par K} {f g : Int → Int → K} (h : ∀ i k, p.logical i k → f i k ≤ g i k) :
    boxSum p f ≤ boxSum p g := by
  unfold boxSum
  refine Finset.sum_le_sum fun i hi => Finset.sum_le_sum fun k hk => h _ _ ?_
  rw [Finset.mem_range] at hi hk
  unfold Par.logical
  omega

theorem boxSum_nonneg {p : Par K} {f : Int → Int → K} (h : ∀ i k, p.logical i k → 0 ≤ f i k) : 0 ≤ boxSum p f := by
  have := boxSum_le (p := p) (f := fun _ _ => 0) (g := f) h
  rwa [boxSum_zero] at this

theorem shift_k (p : Par K) (G : Int → Int → K) (h : ∀ i, p.logical i 0 → 0 ≤ G i 0 ∧ G i p.nz = 0) (hz : 1 ≤ p.nz) :
    boxSum p (fun i k => G i (k + 1)) ≤ boxSum p G := by
  rw [← sub_nonpos, ← boxSum_sub]
  unfold boxSum
  refine Finset.sum_nonpos fun i hi => ?_
  rw [Finset.mem_range] at hi
  obtain ⟨a, b⟩ := h i (by unfold Par.logical; omega)
  rw [tele (G i), b]
  linarith

theorem shift_i (p : Par K) (G : Int → Int → K) (h : ∀ k, p.logical 0 k → 0 ≤ G 0 k ∧ G p.nr k = 0) (hr : 1 ≤ p.nr) :
    boxSum p (fun i k => G (i + 1) k) ≤ boxSum p G := by
  rw [← sub_nonpos, ← boxSum_sub]
  unfold boxSum
  rw [Finset.sum_comm]
  refine Finset.sum_nonpos fun k hk => ?_
  rw [Finset.mem_range] at hk
  obtain ⟨a, b⟩ := h k (by unfold Par.logical; omega)
  rw [tele (fun i => G i k), b]
  linarith

theorem volHalf_nonneg {p : Par K} (hp : p.Good) {i : Int} (hi : 0 ≤ i) : 0 ≤ volHalf p i := by
  rw [volHalf_eq]
  have := hp.dr; have := hp.dz
  have : (0 : K) ≤ (i : K) := by exact_mod_cast hi
  positivity

theorem volNode_nonneg {p : Par K} (hp : p.Good) {i : Int} (hi : 0 ≤ i) : 0 ≤ volNode p i := by
  have := hp.dr; have := hp.dz
  by_cases h : i = 0
  · subst h; rw [volNode_zero]; positivity
  · rw [volNode_pos p h]
    have : (0 : K) ≤ (i : K) := by exact_mod_cast hi
    positivity

/-- Weighted square of the electric field. -/
def sqE (p : Par K) (m : Mem K) : K :=
  boxSum p fun i k => volHalf p i * m .er i k ^ 2 + volNode p i * (m .ep i k ^ 2 + m .ez i k ^ 2)

/-- Weighted square of the change of the magnetic field. -/
def sqA (p : Par K) (m : Mem K) : K :=
  boxSum p fun i k => volNode p i * aR p m i k ^ 2 + volHalf p i * (aP p m i k ^ 2 + aZ p m i k ^ 2)

/-- Terms of one cell, without the shifted ones. -/
theorem split_sq (x y s : K) (hs : 0 < s) : (x - y) ^ 2 ≤ (1 + s) * x ^ 2 + (1 + 1 / s) * y ^ 2 := by
  have : (1 + s) * x ^ 2 + (1 + 1 / s) * y ^ 2 - (x - y) ^ 2 = (s * x + y) ^ 2 / s := by
    field_simp; ring
  have h2 : 0 ≤ (s * x + y) ^ 2 / s := by positivity
  linarith

theorem two_sq (x y : K) : (x - y) ^ 2 ≤ 2 * (x ^ 2 + y ^ 2) := by nlinarith [sq_nonneg (x + y)]

theorem sqA_le {p : Par K} (hp : p.Good) (hc : Closed p) {m : Mem K} (hs : Shut p m) :
    sqA p m ≤ p.dt ^ 2 / p.mu ^ 2 * (8 / p.dr ^ 2 + 4 / p.dz ^ 2) * sqE p m := by
  have dr := hp.dr
  have dz := hp.dz
  have dt := hp.dt
  have mu := hp.mu
  set s : K := p.dr ^ 2 / (2 * p.dz ^ 2) with hsd
  have s0 : 0 < s := by positivity
  -- shifted parts
  let G1 : Int → Int → K := fun i k => 2 / p.dz ^ 2 * (volNode p i * m .ep i k ^ 2)
  let G2 : Int → Int → K := fun i k => if i = 0 then 0 else (1 + s) * (2 / p.dr ^ 2) * (volHalf p (i - 1) * m .ez i k ^ 2)
  let G3 : Int → Int → K := fun i k => (1 + 1 / s) * (2 / p.dz ^ 2) * (volHalf p i * m .er i k ^ 2)
  let G4 : Int → Int → K := fun i k => if i = 0 then 0 else 2 * p.dz / ((i : K) - 1 / 2) * ((i : K) ^ 2 * m .ep i k ^ 2)
  let D2 : Int → Int → K := fun i k => (1 + s) * (2 / p.dr ^ 2) * (volHalf p i * m .ez i k ^ 2)
  let D4 : Int → Int → K := fun i k => 2 * p.dz / ((i : K) + 1 / 2) * ((i : K) ^ 2 * m .ep i k ^ 2)
  have cell : ∀ i k, p.logical i k → volNode p i * aR p m i k ^ 2 + volHalf p i * (aP p m i k ^ 2 + aZ p m i k ^ 2) ≤
      p.dt ^ 2 / p.mu ^ 2 * (((G1 i (k + 1) + G1 i k) + (G2 (i + 1) k + D2 i k)) + ((G3 i (k + 1) + G3 i k) + (G4 (i + 1) k + D4 i k))) := by
    intro i k hl
    unfold Par.logical at hl
    have i0 : (0 : K) ≤ (i : K) := by exact_mod_cast hl.1.1
    have vN := volNode_nonneg hp hl.1.1
    have vH := volHalf_nonneg hp hl.1.1
    have hi1 : i + 1 ≠ 0 := by omega
    have q : 0 ≤ p.dt ^ 2 / p.mu ^ 2 := by positivity
    have r1 : aR p m i k ^ 2 = p.dt ^ 2 / p.mu ^ 2 * ((m .ep i (k + 1) - m .ep i k) ^ 2 / p.dz ^ 2) := by
      unfold aR; field_simp
    have r2 : aP p m i k ^ 2 = p.dt ^ 2 / p.mu ^ 2 *
        ((m .ez (i + 1) k - m .ez i k) / p.dr - (m .er i (k + 1) - m .er i k) / p.dz) ^ 2 := by
      unfold aP; field_simp
    have r3 : volHalf p i * aZ p m i k ^ 2 = p.dt ^ 2 / p.mu ^ 2 *
        (p.dz / ((i : K) + 1 / 2) * (((i : K) + 1) * m .ep (i + 1) k - (i : K) * m .ep i k) ^ 2) := by
      unfold aZ; rw [hc.axis, volHalf_eq]
      have : (i : K) + 1 / 2 ≠ 0 := by positivity
      have : (i : K) * 2 + 1 ≠ 0 := by positivity
      push_cast
      field_simp
      ring
    have b1 : (m .ep i (k + 1) - m .ep i k) ^ 2 / p.dz ^ 2 ≤ 2 / p.dz ^ 2 * (m .ep i (k + 1) ^ 2 + m .ep i k ^ 2) := by
      rw [div_mul_eq_mul_div]; gcongr; exact two_sq _ _
    have b2 := split_sq ((m .ez (i + 1) k - m .ez i k) / p.dr) ((m .er i (k + 1) - m .er i k) / p.dz) s s0
    have b3 : ((m .ez (i + 1) k - m .ez i k) / p.dr) ^ 2 ≤ 2 / p.dr ^ 2 * (m .ez (i + 1) k ^ 2 + m .ez i k ^ 2) := by
      rw [div_mul_eq_mul_div, div_pow]; gcongr; exact two_sq _ _
    have b4 : ((m .er i (k + 1) - m .er i k) / p.dz) ^ 2 ≤ 2 / p.dz ^ 2 * (m .er i (k + 1) ^ 2 + m .er i k ^ 2) := by
      rw [div_mul_eq_mul_div, div_pow]; gcongr; exact two_sq _ _
    have b5 : p.dz / ((i : K) + 1 / 2) * (((i : K) + 1) * m .ep (i + 1) k - (i : K) * m .ep i k) ^ 2 ≤
        p.dz / ((i : K) + 1 / 2) * (2 * ((((i : K) + 1) * m .ep (i + 1) k) ^ 2 + ((i : K) * m .ep i k) ^ 2)) := by
      gcongr; exact two_sq _ _
    have b6 : volHalf p i * (((m .ez (i + 1) k - m .ez i k) / p.dr - (m .er i (k + 1) - m .er i k) / p.dz) ^ 2) ≤
        volHalf p i * ((1 + s) * (2 / p.dr ^ 2 * (m .ez (i + 1) k ^ 2 + m .ez i k ^ 2)) +
          (1 + 1 / s) * (2 / p.dz ^ 2 * (m .er i (k + 1) ^ 2 + m .er i k ^ 2))) := by
      refine mul_le_mul_of_nonneg_left (b2.trans ?_) vH
      gcongr
    have b7 := mul_le_mul_of_nonneg_left b1 vN
    have t2 : G2 (i + 1) k = (1 + s) * (2 / p.dr ^ 2) * (volHalf p i * m .ez (i + 1) k ^ 2) := by
      show (if i + 1 = 0 then _ else _) = _
      rw [if_neg hi1, add_sub_cancel_right]
    have t4 : G4 (i + 1) k = 2 * p.dz / ((i : K) + 1 / 2) * (((i : K) + 1) ^ 2 * m .ep (i + 1) k ^ 2) := by
      show (if i + 1 = 0 then _ else _) = _
      rw [if_neg hi1]
      push_cast
      rw [show (i : K) + 1 - 1 / 2 = (i : K) + 1 / 2 by ring]
    have e : volNode p i * aR p m i k ^ 2 + volHalf p i * (aP p m i k ^ 2 + aZ p m i k ^ 2) = p.dt ^ 2 / p.mu ^ 2 *
        (volNode p i * ((m .ep i (k + 1) - m .ep i k) ^ 2 / p.dz ^ 2) +
          volHalf p i * ((m .ez (i + 1) k - m .ez i k) / p.dr - (m .er i (k + 1) - m .er i k) / p.dz) ^ 2 +
          p.dz / ((i : K) + 1 / 2) * (((i : K) + 1) * m .ep (i + 1) k - (i : K) * m .ep i k) ^ 2) := by
      rw [mul_add, r3, r1, r2]; ring
    rw [e, t2, t4]
    refine mul_le_mul_of_nonneg_left ?_ q
    refine (add_le_add (add_le_add b7 b6) b5).trans (le_of_eq ?_)
    show _ = ((2 / p.dz ^ 2 * (volNode p i * m .ep i (k + 1) ^ 2) + 2 / p.dz ^ 2 * (volNode p i * m .ep i k ^ 2)) +
      (_ + (1 + s) * (2 / p.dr ^ 2) * (volHalf p i * m .ez i k ^ 2))) +
      (((1 + 1 / s) * (2 / p.dz ^ 2) * (volHalf p i * m .er i (k + 1) ^ 2) +
        (1 + 1 / s) * (2 / p.dz ^ 2) * (volHalf p i * m .er i k ^ 2)) +
      (_ + 2 * p.dz / ((i : K) + 1 / 2) * ((i : K) ^ 2 * m .ep i k ^ 2)))
    ring
  have sG1 : boxSum p (fun i k => G1 i (k + 1)) ≤ boxSum p G1 := by
    refine shift_k p G1 (fun i hl => ⟨?_, ?_⟩) hp.nz
    · have := volNode_nonneg hp hl.1.1
      show 0 ≤ 2 / p.dz ^ 2 * (volNode p i * m .ep i 0 ^ 2)
      positivity
    · show 2 / p.dz ^ 2 * (volNode p i * m .ep i p.nz ^ 2) = 0
      rw [(hs.epz i hl.1.1 hl.1.2.le).2]; ring
  have sG2 : boxSum p (fun i k => G2 (i + 1) k) ≤ boxSum p G2 := by
    refine shift_i p G2 (fun k hl => ⟨?_, ?_⟩) hp.nr
    · show 0 ≤ (if (0 : Int) = 0 then (0 : K) else _)
      rw [if_pos rfl]
    · show (if (p.nr : Int) = 0 then (0 : K) else _) = 0
      split
      · rfl
      · rw [(hs.ezr k hl.2.1 hl.2.2.le).2]; ring
  have sG3 : boxSum p (fun i k => G3 i (k + 1)) ≤ boxSum p G3 := by
    refine shift_k p G3 (fun i hl => ⟨?_, ?_⟩) hp.nz
    · have := volHalf_nonneg hp hl.1.1
      show 0 ≤ (1 + 1 / s) * (2 / p.dz ^ 2) * (volHalf p i * m .er i 0 ^ 2)
      positivity
    · show (1 + 1 / s) * (2 / p.dz ^ 2) * (volHalf p i * m .er i p.nz ^ 2) = 0
      rw [(hs.erz i hl.1.1 hl.1.2.le).2]; ring
  have sG4 : boxSum p (fun i k => G4 (i + 1) k) ≤ boxSum p G4 := by
    refine shift_i p G4 (fun k hl => ⟨?_, ?_⟩) hp.nr
    · show 0 ≤ (if (0 : Int) = 0 then (0 : K) else _)
      rw [if_pos rfl]
    · show (if (p.nr : Int) = 0 then (0 : K) else _) = 0
      split
      · rfl
      · rw [(hs.epr k hl.2.1 hl.2.2.le).2]; ring
  have total : boxSum p (fun i k => ((G1 i k + G1 i k) + (G2 i k + D2 i k)) + ((G3 i k + G3 i k) + (G4 i k + D4 i k))) ≤
      (8 / p.dr ^ 2 + 4 / p.dz ^ 2) * sqE p m := by
    unfold sqE
    rw [← boxSum_mul]
    refine boxSum_le fun i k hl => ?_
    unfold Par.logical at hl
    have i0 : (0 : K) ≤ (i : K) := by exact_mod_cast hl.1.1
    have w1 : (1 + s) * (8 / p.dr ^ 2) = 8 / p.dr ^ 2 + 4 / p.dz ^ 2 := by rw [hsd]; field_simp; ring
    have w2 : (1 + 1 / s) * (4 / p.dz ^ 2) = 8 / p.dr ^ 2 + 4 / p.dz ^ 2 := by rw [hsd]; field_simp; ring
    have vN := volNode_nonneg hp hl.1.1
    have a2 : G2 i k + D2 i k ≤ (8 / p.dr ^ 2 + 4 / p.dz ^ 2) * (volNode p i * m .ez i k ^ 2) := by
      rw [← w1]
      show (if i = 0 then 0 else (1 + s) * (2 / p.dr ^ 2) * (volHalf p (i - 1) * m .ez i k ^ 2)) +
        (1 + s) * (2 / p.dr ^ 2) * (volHalf p i * m .ez i k ^ 2) ≤ _
      by_cases h : i = 0
      · rw [if_pos h, h, volNode_zero, volHalf_eq]
        refine le_of_eq ?_
        push_cast
        ring
      · rw [if_neg h, volNode_pos p h, volHalf_eq, volHalf_eq]
        push_cast
        have : 0 ≤ (1 + s) * (4 / p.dr ^ 2) * (((i : K) * p.dr ^ 2 * p.dz) * m .ez i k ^ 2) := by positivity
        have e : (1 + s) * (2 / p.dr ^ 2) * (((i : K) - 1 + 1 / 2) * p.dr ^ 2 * p.dz * m .ez i k ^ 2) +
          (1 + s) * (2 / p.dr ^ 2) * (((i : K) + 1 / 2) * p.dr ^ 2 * p.dz * m .ez i k ^ 2) =
          (1 + s) * (4 / p.dr ^ 2) * (((i : K) * p.dr ^ 2 * p.dz) * m .ez i k ^ 2) := by ring
        have e2 : (1 + s) * (8 / p.dr ^ 2) * ((i : K) * p.dr ^ 2 * p.dz * m .ez i k ^ 2) =
          2 * ((1 + s) * (4 / p.dr ^ 2) * (((i : K) * p.dr ^ 2 * p.dz) * m .ez i k ^ 2)) := by ring
        rw [e, e2]
        linarith
    have a3 : G3 i k + G3 i k = (8 / p.dr ^ 2 + 4 / p.dz ^ 2) * (volHalf p i * m .er i k ^ 2) := by
      rw [← w2]
      show (1 + 1 / s) * (2 / p.dz ^ 2) * (volHalf p i * m .er i k ^ 2) + (1 + 1 / s) * (2 / p.dz ^ 2) * (volHalf p i * m .er i k ^ 2) = _
      ring
    have a1 : G1 i k + G1 i k = 4 / p.dz ^ 2 * (volNode p i * m .ep i k ^ 2) := by
      show 2 / p.dz ^ 2 * (volNode p i * m .ep i k ^ 2) + 2 / p.dz ^ 2 * (volNode p i * m .ep i k ^ 2) = _
      ring
    have a4 : G4 i k + D4 i k ≤ 8 / p.dr ^ 2 * (volNode p i * m .ep i k ^ 2) := by
      show (if i = 0 then 0 else 2 * p.dz / ((i : K) - 1 / 2) * ((i : K) ^ 2 * m .ep i k ^ 2)) +
        2 * p.dz / ((i : K) + 1 / 2) * ((i : K) ^ 2 * m .ep i k ^ 2) ≤ _
      by_cases h : i = 0
      · rw [if_pos h, h]
        push_cast
        have := volNode_nonneg hp (le_refl (0 : Int))
        have : 0 ≤ 8 / p.dr ^ 2 * (volNode p 0 * m .ep 0 k ^ 2) := by positivity
        calc _ = 0 := by ring
          _ ≤ _ := this
      · rw [if_neg h, volNode_pos p h]
        have i1 : (1 : K) ≤ (i : K) := by
          have : 1 ≤ i := by omega
          exact_mod_cast this
        have pos1 : 0 < (i : K) - 1 / 2 := by linarith
        have pos2 : 0 < (i : K) + 1 / 2 := by linarith
        have q1 : 1 / ((i : K) - 1 / 2) + 1 / ((i : K) + 1 / 2) ≤ 4 / (i : K) := by
          rw [div_add_div _ _ pos1.ne' pos2.ne', div_le_div_iff₀ (by positivity) (by linarith)]
          nlinarith
        have e : 2 * p.dz / ((i : K) - 1 / 2) * ((i : K) ^ 2 * m .ep i k ^ 2) + 2 * p.dz / ((i : K) + 1 / 2) * ((i : K) ^ 2 * m .ep i k ^ 2) =
          (2 * p.dz * ((i : K) ^ 2 * m .ep i k ^ 2)) * (1 / ((i : K) - 1 / 2) + 1 / ((i : K) + 1 / 2)) := by ring
        rw [e]
        refine (mul_le_mul_of_nonneg_left q1 (by positivity)).trans (le_of_eq ?_)
        have : (i : K) ≠ 0 := by linarith
        field_simp
        ring
    rw [a1, a3]
    have e : (8 / p.dr ^ 2 + 4 / p.dz ^ 2) * (volHalf p i * m .er i k ^ 2 + volNode p i * (m .ep i k ^ 2 + m .ez i k ^ 2)) =
      (4 / p.dz ^ 2 * (volNode p i * m .ep i k ^ 2) + (8 / p.dr ^ 2 + 4 / p.dz ^ 2) * (volNode p i * m .ez i k ^ 2)) +
      ((8 / p.dr ^ 2 + 4 / p.dz ^ 2) * (volHalf p i * m .er i k ^ 2) + 8 / p.dr ^ 2 * (volNode p i * m .ep i k ^ 2)) := by ring
    rw [e]
    exact add_le_add (add_le_add le_rfl a2) (add_le_add le_rfl a4)
  unfold sqA
  refine (boxSum_le cell).trans ?_
  rw [boxSum_mul, mul_assoc]
  refine mul_le_mul_of_nonneg_left (le_trans ?_ total) (by positivity)
  simp only [boxSum_add] at *
  linarith

/-- Below the Courant limit the energy is at least a positive multiple of the electric energy plus the energy of the mean
magnetic field. -/
theorem energy_ge {p : Par K} (hp : p.Good) (hc : Closed p) {eps : Int → Int → K} {e0 : K} (he : 0 < e0)
    (hee : ∀ i k, p.logical i k → e0 ≤ eps i k) {a b : Mem K} (hs : Shut p b) (hl : Link p a b) :
    (1 - courant p e0) * electricEnergy p eps b + meanMagneticEnergy p a b ≤ fieldEnergy p eps a b := by
  have dr := hp.dr
  have dz := hp.dz
  have mu := hp.mu
  have h1 : magneticEnergy p a b = meanMagneticEnergy p a b - p.mu / 8 * sqA p b := by
    unfold magneticEnergy meanMagneticEnergy sqA
    rw [← boxSum_mul, ← boxSum_sub]
    refine boxSum_congr fun i k h => ?_
    obtain ⟨x, y, z⟩ := hl i k h
    rw [x, y, z]
    ring
  have h2 : e0 / 2 * sqE p b ≤ electricEnergy p eps b := by
    unfold sqE electricEnergy
    rw [← boxSum_mul]
    refine boxSum_le fun i k h => ?_
    have := volHalf_nonneg hp h.1.1
    have := volNode_nonneg hp h.1.1
    have := hee i k h
    gcongr
  have h3 := sqA_le hp hc hs
  have q : courant p e0 * electricEnergy p eps b ≥ p.mu / 8 * sqA p b := by
    have c0 : 0 ≤ courant p e0 := by unfold courant; positivity
    calc p.mu / 8 * sqA p b ≤ p.mu / 8 * (p.dt ^ 2 / p.mu ^ 2 * (8 / p.dr ^ 2 + 4 / p.dz ^ 2) * sqE p b) := by gcongr
      _ = courant p e0 * (e0 / 2 * sqE p b) := by unfold courant; field_simp; ring
      _ ≤ _ := by gcongr
  unfold fieldEnergy
  rw [h1]
  linarith

end Yee
end Pico
