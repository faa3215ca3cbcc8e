import Verif.Spec.Collide
import Verif.Lemmas.Rel
import Mathlib.Tactic.Ring
import Mathlib.Tactic.FieldSimp
import Mathlib.Tactic.Linarith
import Mathlib.Tactic.LinearCombination

/-! Four-momenta: boosts and rotations. -/

set_option linter.unusedSimpArgs false
set_option linter.unusedVariables false

namespace Pico
namespace Coll

open Rel

/-- Cauchy and Schwarz. -/
theorem dot_sq_le (a b : Vec3 ℝ) : a.dot b ^ 2 ≤ a.length2 * b.length2 := by
  unfold Vec3.dot Vec3.length2
  nlinarith [sq_nonneg (a.x * b.y - a.y * b.x), sq_nonneg (a.x * b.z - a.z * b.x), sq_nonneg (a.y * b.z - a.z * b.y)]

theorem abs_dot_lt {a b : Vec3 ℝ} {x y : ℝ} (hx : 0 < x) (hy : 0 < y) (ha : a.length2 ≤ x ^ 2) (hb : b.length2 < y ^ 2) :
    |a.dot b| < x * y := by
  apply abs_lt_of_sq_lt_sq _ (by positivity)
  calc a.dot b ^ 2 ≤ a.length2 * b.length2 := dot_sq_le a b
    _ ≤ x ^ 2 * b.length2 := mul_le_mul_of_nonneg_right ha (len2_nonneg b)
    _ < x ^ 2 * y ^ 2 := mul_lt_mul_of_pos_left hb (by positivity)
    _ = (x * y) ^ 2 := by ring

/-- A velocity below `c` and its four-momentum. -/
structure Mom (c m : ℝ) (p0 : ℝ) (p : Vec3 ℝ) : Prop where
  pos : 0 < p0
  shell : p0 ^ 2 - p.length2 = (m * c) ^ 2

theorem Mom.lt {c m p0 : ℝ} {p : Vec3 ℝ} (h : Mom c m p0 p) (hc : 0 < c) (hm : 0 < m) : p.length2 < p0 ^ 2 := by
  have := h.shell
  have : 0 < (m * c) ^ 2 := by positivity
  linarith

/-- The boost of the code. -/
noncomputable def boost (beta : Vec3 ℝ) (gamma s : ℝ) (p : Vec3 ℝ) (p0 : ℝ) : Vec3 ℝ :=
  (p.add (((beta.smul (beta.dot p)).smul (gamma - 1)).sdiv beta.length2)).add ((beta.smul gamma).smul (s * p0))
noncomputable def boost0 (beta : Vec3 ℝ) (gamma s : ℝ) (p : Vec3 ℝ) (p0 : ℝ) : ℝ := gamma * (p0 + s * beta.dot p)

/-- A boost with `gamma² (1 - beta²) = 1` keeps the invariant length, in both directions. -/
theorem boost_shell {beta : Vec3 ℝ} {gamma s : ℝ} (hs : s ^ 2 = 1) (hb : beta.length2 ≠ 0)
    (hg : gamma ^ 2 * (1 - beta.length2) = 1) (p : Vec3 ℝ) (p0 : ℝ) :
    boost0 beta gamma s p p0 ^ 2 - (boost beta gamma s p p0).length2 = p0 ^ 2 - p.length2 := by
  obtain ⟨k, hk⟩ : ∃ k, k = (gamma - 1) / beta.length2 := ⟨_, rfl⟩
  have R1 : k * beta.length2 = gamma - 1 := by rw [hk]; field_simp
  have R3 : k * (gamma + 1) = gamma ^ 2 := by
    apply mul_left_cancel₀ hb
    linear_combination (gamma + 1) * R1 + hg
  have e : boost beta gamma s p p0 = ⟨p.x + beta.x * beta.dot p * k + beta.x * gamma * (s * p0),
      p.y + beta.y * beta.dot p * k + beta.y * gamma * (s * p0), p.z + beta.z * beta.dot p * k + beta.z * gamma * (s * p0)⟩ := by
    unfold boost Vec3.add Vec3.zip Vec3.smul Vec3.sdiv
    rw [hk]
    simp only [Vec3.mk.injEq]
    refine ⟨by ring, by ring, by ring⟩
  rw [e]
  unfold boost0
  obtain ⟨d, hd⟩ : ∃ d, d = beta.dot p := ⟨_, rfl⟩
  rw [← hd]
  have hd' : d = beta.x * p.x + beta.y * p.y + beta.z * p.z := by rw [hd]; unfold Vec3.dot; ring
  have hb2 : beta.length2 = beta.x * beta.x + beta.y * beta.y + beta.z * beta.z := rfl
  generalize beta.length2 = b2 at *
  unfold Vec3.length2
  dsimp only
  have key : (gamma * (p0 + s * d)) ^ 2 - ((p.x + beta.x * d * k + beta.x * gamma * (s * p0)) * (p.x + beta.x * d * k + beta.x * gamma * (s * p0)) +
      (p.y + beta.y * d * k + beta.y * gamma * (s * p0)) * (p.y + beta.y * d * k + beta.y * gamma * (s * p0)) +
      (p.z + beta.z * d * k + beta.z * gamma * (s * p0)) * (p.z + beta.z * d * k + beta.z * gamma * (s * p0))) =
      gamma ^ 2 * (p0 ^ 2 + 2 * s * p0 * d + s ^ 2 * d ^ 2) - (p.x * p.x + p.y * p.y + p.z * p.z) - d ^ 2 * k ^ 2 * b2 - gamma ^ 2 * s ^ 2 * p0 ^ 2 * b2
        - 2 * d * d * k - 2 * gamma * s * p0 * d - 2 * d * k * gamma * s * p0 * b2 := by
    rw [hb2]
    linear_combination (2 * d * k + 2 * gamma * s * p0) * hd'
  rw [key, hs]
  linear_combination p0 ^ 2 * hg - d ^ 2 * k * R1 - d ^ 2 * R3 - 2 * gamma * s * p0 * d * R1

/-- ... and the direction of time. -/
theorem boost_pos {c m gamma s p0 : ℝ} {beta p : Vec3 ℝ} (hc : 0 < c) (hm : 0 < m) (hs : s ^ 2 = 1) (hg0 : 0 < gamma)
    (hg : gamma ^ 2 * (1 - beta.length2) = 1) (h : Mom c m p0 p) : 0 < boost0 beta gamma s p p0 := by
  unfold boost0
  apply mul_pos hg0
  have b1 : beta.length2 ≤ 1 ^ 2 := by
    by_contra hn
    have : gamma ^ 2 * (1 - beta.length2) ≤ 0 := mul_nonpos_of_nonneg_of_nonpos (by positivity) (by linarith)
    linarith
  have k := abs_dot_lt one_pos h.pos b1 (h.lt hc hm)
  have k2 : |s * beta.dot p| < p0 := by
    have : |s| = 1 := by
      have : (s - 1) * (s + 1) = 0 := by linear_combination hs
      rcases mul_eq_zero.mp this with h | h
      · rw [show s = 1 by linarith, abs_one]
      · rw [show s = -1 by linarith, abs_neg, abs_one]
    rw [abs_mul, this, one_mul]
    linarith
  linarith [(abs_lt.mp k2).1]

theorem boost_mom {c m gamma s p0 : ℝ} {beta p : Vec3 ℝ} (hc : 0 < c) (hm : 0 < m) (hs : s ^ 2 = 1) (hg0 : 0 < gamma)
    (hb : beta.length2 ≠ 0) (hg : gamma ^ 2 * (1 - beta.length2) = 1) (h : Mom c m p0 p) :
    Mom c m (boost0 beta gamma s p p0) (boost beta gamma s p p0) :=
  ⟨boost_pos hc hm hs hg0 hg h, by rw [boost_shell hs hb hg]; exact h.shell⟩

/-- A turned momentum has the same length. -/
theorem turned_len {p q : Vec3 ℝ} {sT cT sP cP : ℝ} (hT : sT ^ 2 + cT ^ 2 = 1) (hP : sP ^ 2 + cP ^ 2 = 1)
    (h : turned p sT cT sP cP = .ok q) : q.length2 = p.length2 := by
  unfold turned at h
  have hl : p.length ^ 2 = p.length2 := Real.sq_sqrt (len2_nonneg p)
  have hr : Real.sqrt (p.x * p.x + p.y * p.y) ^ 2 = p.x * p.x + p.y * p.y :=
    Real.sq_sqrt (by have := mul_self_nonneg p.x; have := mul_self_nonneg p.y; linarith)
  generalize p.length = l at *
  generalize Real.sqrt (p.x * p.x + p.y * p.y) = r at *
  simp only at h
  split at h
  · exact absurd h (by simp)
  · rename_i hr0
    injection h with h
    subst h
    unfold Vec3.length2 at *
    dsimp only
    have e : ∀ a b : ℝ, a * b / r = a / r * b := fun a b => by ring
    obtain ⟨X, hX⟩ : ∃ X, X = p.x / r := ⟨_, rfl⟩
    obtain ⟨Y, hY⟩ : ∃ Y, Y = p.y / r := ⟨_, rfl⟩
    have x : p.x = X * r := by rw [hX]; field_simp
    have y : p.y = Y * r := by rw [hY]; field_simp
    rw [e, e, e, e, ← hX, ← hY]
    rw [x, y] at hr hl ⊢
    have xy : X ^ 2 + Y ^ 2 = 1 := by
      have : r ^ 2 ≠ 0 := pow_ne_zero 2 hr0
      apply mul_left_cancel₀ this
      linear_combination -hr
    have hl' : l ^ 2 = r ^ 2 + p.z ^ 2 := by linear_combination hl + r ^ 2 * xy
    generalize p.z = z at *
    have t1 : (X * z * sT * cP - Y * l * sT * sP + X * r * cT) * (X * z * sT * cP - Y * l * sT * sP + X * r * cT) +
      (Y * z * sT * cP + X * l * sT * sP + Y * r * cT) * (Y * z * sT * cP + X * l * sT * sP + Y * r * cT) =
      (X ^ 2 + Y ^ 2) * ((z * sT * cP + r * cT) ^ 2 + l ^ 2 * sT ^ 2 * sP ^ 2) := by ring
    rw [t1, xy, hl']
    linear_combination (r ^ 2 + z ^ 2) * sT ^ 2 * hP + (r ^ 2 + z ^ 2) * hT - r ^ 2 * xy

end Coll
end Pico
