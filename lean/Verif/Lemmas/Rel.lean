import Verif.Model.Rel
import Verif.Props.Vec3
import Mathlib.Tactic.Linarith
import Mathlib.Tactic.Positivity
import Mathlib.Tactic.FieldSimp
import Mathlib.Tactic.LinearCombination

set_option linter.unusedSectionVars false
set_option linter.unusedSimpArgs false
set_option linter.unusedVariables false

namespace Pico
namespace Rel

theorem len2_nonneg (v : Vec3 ℝ) : 0 ≤ v.length2 := by
  unfold Vec3.length2
  have := mul_self_nonneg v.x; have := mul_self_nonneg v.y; have := mul_self_nonneg v.z
  linarith

theorem len2_smul (v : Vec3 ℝ) (s : ℝ) : (v.smul s).length2 = s ^ 2 * v.length2 := by
  unfold Vec3.length2 Vec3.smul
  ring

theorem smul_smul' (v : Vec3 ℝ) (s t : ℝ) : (v.smul s).smul t = v.smul (s * t) := by
  unfold Vec3.smul
  simp only [mul_assoc]

theorem smul_one' (v : Vec3 ℝ) : v.smul 1 = v := by
  unfold Vec3.smul
  simp only [mul_one]

/-- Below `c` the Lorentz factor is defined. -/
theorem lorenz_lt {c v2 : ℝ} (hc : 0 < c) (h : v2 < c ^ 2) :
    ∃ γ, lorenzFactor c v2 = .ok γ ∧ 0 < γ ∧ γ ^ 2 * (c ^ 2 - v2) = c ^ 2 := by
  have h' : v2 / (c * c) < 1 := by rw [div_lt_one (by positivity)]; linarith [pow_two c]
  have p : 0 < 1 - v2 / (c * c) := by linarith
  have sp : 0 < Real.sqrt (1 - v2 / (c * c)) := Real.sqrt_pos.mpr p
  refine ⟨1 / Real.sqrt (1 - v2 / (c * c)), ?_, by positivity, ?_⟩
  · unfold lorenzFactor
    dsimp only
    rw [if_neg (by linarith), if_neg sp.ne']
  · rw [div_pow, Real.sq_sqrt p.le, one_pow]
    have hc' := hc.ne'
    have : c ^ 2 - v2 ≠ 0 := by linarith
    have e : 1 - v2 / (c * c) = (c ^ 2 - v2) / c ^ 2 := by field_simp
    rw [e]
    field_simp

theorem lorenz_gt {c v2 : ℝ} (hc : 0 < c) (h : c ^ 2 < v2) : lorenzFactor c v2 = .fatal := by
  unfold lorenzFactor
  dsimp only
  rw [if_pos]
  show 1 < v2 / (c * c)
  rw [lt_div_iff₀ (by positivity)]
  linarith [pow_two c]

theorem gamma_ge_one {c v2 γ : ℝ} (hc : 0 < c) (h0 : 0 ≤ v2) (hg : 0 < γ) (h : γ ^ 2 * (c ^ 2 - v2) = c ^ 2) : 1 ≤ γ := by
  by_contra hn
  have h1 : γ ^ 2 < 1 := by nlinarith
  have h2 : 0 < c ^ 2 := by positivity
  have h3 : 0 < c ^ 2 - v2 := by
    by_contra h4
    have : γ ^ 2 * (c ^ 2 - v2) ≤ 0 := mul_nonpos_of_nonneg_of_nonpos (by positivity) (by linarith)
    linarith
  nlinarith

/-- The inverse factor. -/
theorem inv_spec {c v2 : ℝ} (hc : 0 < c) (h : 0 ≤ v2) :
    0 < lorenzFactorInv c v2 ∧ lorenzFactorInv c v2 ^ 2 * (c ^ 2 + v2) = c ^ 2 := by
  have p : 0 < 1 + v2 / (c * c) := by positivity
  unfold lorenzFactorInv
  refine ⟨Real.rpow_pos_of_pos p _, ?_⟩
  rw [← Real.rpow_natCast, ← Real.rpow_mul p.le]
  have : (-(1/2) * ((2 : ℕ) : ℝ) : ℝ) = -1 := by norm_num
  rw [this, Real.rpow_neg_one]
  have hc' := hc.ne'
  have e : 1 + v2 / (c * c) = (c ^ 2 + v2) / c ^ 2 := by field_simp
  have : c ^ 2 + v2 ≠ 0 := by positivity
  rw [e]
  field_simp

theorem sq_inj {a b : ℝ} (ha : 0 < a) (hb : 0 < b) (h : a ^ 2 = b ^ 2) : a = b := by
  have : (a - b) * (a + b) = 0 := by linear_combination h
  rcases mul_eq_zero.mp this with c | c
  · linarith
  · linarith

/-- Velocity below `c` to momentum per mass and back. -/
theorem inv_of_lorenz {c v2 γ : ℝ} (hc : 0 < c) (h0 : 0 ≤ v2) (hg : 0 < γ) (h : γ ^ 2 * (c ^ 2 - v2) = c ^ 2) :
    lorenzFactorInv c (γ ^ 2 * v2) * γ = 1 := by
  have hs := inv_spec (v2 := γ ^ 2 * v2) hc (by positivity)
  have e : c ^ 2 + γ ^ 2 * v2 = γ ^ 2 * c ^ 2 := by linear_combination -h
  rw [e] at hs
  apply sq_inj (by have := hs.1; positivity) one_pos
  have hc2 : c ^ 2 ≠ 0 := by positivity
  apply mul_left_cancel₀ hc2
  linear_combination hs.2

/-- Momentum per mass to velocity. -/
theorem inv_lt {c u2 : ℝ} (hc : 0 < c) (h0 : 0 ≤ u2) : lorenzFactorInv c u2 ^ 2 * u2 < c ^ 2 := by
  have hs := inv_spec hc h0
  have : 0 < lorenzFactorInv c u2 ^ 2 * c ^ 2 := by have := hs.1; positivity
  nlinarith [hs.2]

theorem lorenz_of_inv {c u2 : ℝ} (hc : 0 < c) (h0 : 0 ≤ u2) :
    ∃ γ, lorenzFactor c (lorenzFactorInv c u2 ^ 2 * u2) = .ok γ ∧ γ * lorenzFactorInv c u2 = 1 := by
  obtain ⟨γ, e, hg, h⟩ := lorenz_lt hc (inv_lt hc h0)
  refine ⟨γ, e, ?_⟩
  have hs := inv_spec hc h0
  set g := lorenzFactorInv c u2
  apply sq_inj (by have := hs.1; positivity) one_pos
  have e2 : c ^ 2 - g ^ 2 * u2 = g ^ 2 * c ^ 2 := by linear_combination -hs.2
  rw [e2] at h
  have hc2 : c ^ 2 ≠ 0 := by positivity
  apply mul_left_cancel₀ hc2
  linear_combination h

end Rel
end Pico
