import Verif.Model.Interp
import Verif.Spec.Interp
import Verif.Lemmas.Weighter
import Verif.Lemmas.CurrentPath
import Mathlib.Tactic.LinearCombination
import Mathlib.Tactic.Positivity
import Mathlib.Tactic.Linarith
import Mathlib.Tactic.FieldSimp

set_option linter.unusedSectionVars false
set_option linter.unusedSimpArgs false
set_option linter.unusedVariables false

namespace Pico
namespace Interp

open Yee

variable {K : Type _} [Field K] [LinearOrder K] [IsStrictOrderedRing K] [FloorRing K]

theorem ring_lo {dr r j : K} (hd : 0 < dr) (hr : dr / 2 ≤ r) (h1 : j * dr ≤ r) (h2 : r < (j + 1) * dr) :
    ringShare dr r j = ((j + 1/2) * dr) ^ 2 - (r - 1/2 * dr) ^ 2 := by
  unfold ringShare
  rw [min_eq_right (by linarith), max_eq_left (a := r - dr / 2) (by linarith), max_eq_right]
  · ring
  · have e : ((j + 1/2) * dr) ^ 2 - (r - dr / 2) ^ 2 = ((j + 1) * dr - r) * (r + j * dr) := by ring
    rw [e]
    have : 0 ≤ r + j * dr := by linarith
    exact mul_nonneg (by linarith) this

theorem ring_hi {dr r j : K} (hd : 0 < dr) (hr : dr / 2 ≤ r) (h0 : 0 ≤ j) (h1 : j * dr ≤ r) (h2 : r < (j + 1) * dr) :
    ringShare dr r (j + 1) = (r + 1/2 * dr) ^ 2 - ((j + 1/2) * dr) ^ 2 := by
  unfold ringShare
  rw [min_eq_left (by linarith), max_eq_right (a := r - dr / 2) (by linarith), max_eq_right]
  · ring
  · have e : (r + dr / 2) ^ 2 - ((j + 1 - 1/2) * dr) ^ 2 = (r - j * dr) * (r + (j + 1) * dr) := by ring
    rw [e]
    have := mul_nonneg h0 hd.le
    exact mul_nonneg (by linarith) (by linarith)

theorem ring_zero {dr r j : K} (hd : 0 < dr) (hr : dr / 2 ≤ r) (h0 : 0 ≤ j)
    (h : (j + 1) * dr ≤ r ∨ r ≤ (j - 1) * dr) : ringShare dr r j = 0 := by
  have jd := mul_nonneg h0 hd.le
  unfold ringShare
  apply max_eq_left
  rcases h with h | h
  · rw [min_eq_right (by linarith), max_eq_left (by linarith)]
    have e : ((j + 1/2) * dr) ^ 2 - (r - dr / 2) ^ 2 = ((j + 1) * dr - r) * (r + j * dr) := by ring
    rw [e]
    exact mul_nonpos_of_nonpos_of_nonneg (by linarith) (by linarith)
  · rw [min_eq_left (by linarith), max_eq_right (by linarith)]
    have e : (r + dr / 2) ^ 2 - ((j - 1/2) * dr) ^ 2 = (r - (j - 1) * dr) * (r + j * dr) := by ring
    rw [e]
    exact mul_nonpos_of_nonpos_of_nonneg (by linarith) (by linarith)

theorem line_lo {dz z j : K} (hd : 0 < dz) (h1 : j * dz ≤ z) (h2 : z < (j + 1) * dz) :
    lineShare dz z j = (j + 1) * dz - z := by
  unfold lineShare
  rw [min_eq_right (by linarith), max_eq_left (a := z - dz / 2) (by linarith), max_eq_right]
  · ring
  · linarith

theorem line_hi {dz z j : K} (hd : 0 < dz) (h1 : j * dz ≤ z) (h2 : z < (j + 1) * dz) :
    lineShare dz z (j + 1) = z - j * dz := by
  unfold lineShare
  rw [min_eq_left (by linarith), max_eq_right (a := z - dz / 2) (by linarith), max_eq_right]
  · ring
  · linarith

theorem line_zero {dz z j : K} (hd : 0 < dz) (h : (j + 1) * dz ≤ z ∨ z ≤ (j - 1) * dz) : lineShare dz z j = 0 := by
  unfold lineShare
  apply max_eq_left
  rcases h with h | h
  · rw [min_eq_right (by linarith), max_eq_left (by linarith)]; linarith
  · rw [min_eq_left (by linarith), max_eq_right (by linarith)]; linarith

/-- A sum with two non-zero terms. -/
theorem sum_two {lo hi i : Int} (f : Int → K) (h1 : lo ≤ i) (h2 : i + 1 ≤ hi) (h : ∀ a, a ≠ i → a ≠ i + 1 → f a = 0) :
    ∑ a ∈ Finset.Icc lo hi, f a = f i + f (i + 1) := by
  rw [← Finset.sum_pair (by omega : i ≠ i + 1)]
  symm
  apply Finset.sum_subset
  · intro a ha
    simp only [Finset.mem_insert, Finset.mem_singleton] at ha
    rw [Finset.mem_Icc]; omega
  · intro a _ ha
    simp only [Finset.mem_insert, Finset.mem_singleton, not_or] at ha
    exact h a ha.1 ha.2

/-- Cells around the particle for a component with offsets `α`, `β`. -/
structure Around (g : Geom K) (α β r z : K) (i k : Int) : Prop where
  dr : 0 < g.dr
  dz : 0 < g.dz
  half : g.dr / 2 ≤ r
  i0 : 0 ≤ i
  α0 : 0 ≤ α
  rlo : ((i : K) + α) * g.dr ≤ r
  rhi : r < ((i : K) + α + 1) * g.dr
  zlo : ((k : K) + β) * g.dz ≤ z
  zhi : z < ((k : K) + β + 1) * g.dz
  il : -2 ≤ i - g.r0
  ih : i - g.r0 + 1 ≤ g.nr + 1
  kl : -2 ≤ k - g.z0
  kh : k - g.z0 + 1 ≤ g.nz + 1

theorem not_near {i a : Int} (h1 : a ≠ i) (h2 : a ≠ i + 1) : (a : K) + 1 ≤ i ∨ (i : K) + 2 ≤ a := by
  rcases lt_or_gt_of_ne h1 with h | h
  · left; exact_mod_cast h
  · right
    have : i + 2 ≤ a := by omega
    exact_mod_cast this

theorem weight_far_r {g : Geom K} {α β r z : K} {i k : Int} (A : Around g α β r z i k) {a b : Int} (h1 : a ≠ i)
    (h2 : a ≠ i + 1) : seenWeight g α β r z a b = 0 := by
  unfold seenWeight
  split
  · next h0 =>
    have h0 : (0 : K) ≤ a := by exact_mod_cast h0
    rw [ring_zero A.dr A.half (by linarith [A.α0]), zero_mul, zero_div]
    rcases not_near (K := K) h1 h2 with h | h
    · left
      have : ((a : K) + α + 1) * g.dr ≤ ((i : K) + α) * g.dr := mul_le_mul_of_nonneg_right (by linarith) A.dr.le
      linarith [A.rlo]
    · right
      have : ((i : K) + α + 1) * g.dr ≤ ((a : K) + α - 1) * g.dr := mul_le_mul_of_nonneg_right (by linarith) A.dr.le
      linarith [A.rhi]
  · rfl

theorem weight_far_z {g : Geom K} {α β r z : K} {i k : Int} (A : Around g α β r z i k) {a b : Int} (h1 : b ≠ k)
    (h2 : b ≠ k + 1) : seenWeight g α β r z a b = 0 := by
  unfold seenWeight
  split
  · rw [line_zero A.dz, mul_zero, zero_div]
    rcases not_near (K := K) h1 h2 with h | h
    · left
      have : ((b : K) + β + 1) * g.dz ≤ ((k : K) + β) * g.dz := mul_le_mul_of_nonneg_right (by linarith) A.dz.le
      linarith [A.zlo]
    · right
      have : ((k : K) + β + 1) * g.dz ≤ ((b : K) + β - 1) * g.dz := mul_le_mul_of_nonneg_right (by linarith) A.dz.le
      linarith [A.zhi]
  · rfl

theorem seen_four {g : Geom K} {α β r z : K} {i k : Int} (A : Around g α β r z i k) (f : Int → Int → K) :
    seen g α β f r z =
      seenWeight g α β r z i k * f (i - g.r0) (k - g.z0) + seenWeight g α β r z i (k + 1) * f (i - g.r0) (k - g.z0 + 1) +
      (seenWeight g α β r z (i + 1) k * f (i - g.r0 + 1) (k - g.z0) +
        seenWeight g α β r z (i + 1) (k + 1) * f (i - g.r0 + 1) (k - g.z0 + 1)) := by
  unfold seen
  have e1 : i - (g.r0 : Int) + g.r0 = i := by omega
  have e2 : i - (g.r0 : Int) + 1 + g.r0 = i + 1 := by omega
  have e3 : k - (g.z0 : Int) + g.z0 = k := by omega
  have e4 : k - (g.z0 : Int) + 1 + g.z0 = k + 1 := by omega
  rw [sum_two (i := i - g.r0) _ A.il A.ih, sum_two (i := k - g.z0) _ A.kl A.kh, sum_two (i := k - g.z0) _ A.kl A.kh,
    e1, e2, e3, e4]
  · intro b h1 h2
    rw [weight_far_z A (by omega) (by omega), zero_mul]
  · intro b h1 h2
    rw [weight_far_z A (by omega) (by omega), zero_mul]
  · intro a h1 h2
    refine Finset.sum_eq_zero fun b _ => ?_
    rw [weight_far_r A (by omega) (by omega), zero_mul]

/-- The four weights. -/
theorem weight_vals {g : Geom K} {α β r z : K} {i k : Int} (A : Around g α β r z i k) :
    seenWeight g α β r z i k = ((((i : K) + α + 1/2) * g.dr) ^ 2 - (r - 1/2 * g.dr) ^ 2) * (((k : K) + β + 1) * g.dz - z) /
      (g.dr * g.dr * (2 * ((i : K) + α) + 1) * g.dz) ∧
    seenWeight g α β r z i (k + 1) = ((((i : K) + α + 1/2) * g.dr) ^ 2 - (r - 1/2 * g.dr) ^ 2) * (z - ((k : K) + β) * g.dz) /
      (g.dr * g.dr * (2 * ((i : K) + α) + 1) * g.dz) ∧
    seenWeight g α β r z (i + 1) k = ((r + 1/2 * g.dr) ^ 2 - (((i : K) + α + 1/2) * g.dr) ^ 2) * (((k : K) + β + 1) * g.dz - z) /
      (g.dr * g.dr * (2 * ((i : K) + α) + 3) * g.dz) ∧
    seenWeight g α β r z (i + 1) (k + 1) = ((r + 1/2 * g.dr) ^ 2 - (((i : K) + α + 1/2) * g.dr) ^ 2) * (z - ((k : K) + β) * g.dz) /
      (g.dr * g.dr * (2 * ((i : K) + α) + 3) * g.dz) := by
  have i0 : (0 : K) ≤ i := by exact_mod_cast A.i0
  have h0 : 0 ≤ (i : K) + α := by linarith [A.α0]
  have c1 : ((i + 1 : Int) : K) + α = (i : K) + α + 1 := by push_cast; ring
  have c2 : ((k + 1 : Int) : K) + β = (k : K) + β + 1 := by push_cast; ring
  have s1 : (((i : K) + α + 1) * g.dr) ^ 2 - (((i : K) + α) * g.dr) ^ 2 = g.dr * g.dr * (2 * ((i : K) + α) + 1) := by ring
  have s2 : (((i : K) + α + 1 + 1) * g.dr) ^ 2 - (((i : K) + α + 1) * g.dr) ^ 2 = g.dr * g.dr * (2 * ((i : K) + α) + 3) := by ring
  unfold seenWeight
  have p1 := A.i0
  have p2 : 0 ≤ i + 1 := by omega
  rw [if_pos p1, if_pos p1, if_pos p2, if_pos p2, c1, c2, ring_lo A.dr A.half A.rlo A.rhi,
    ring_hi A.dr A.half h0 A.rlo A.rhi, line_lo A.dz A.zlo A.zhi, line_hi A.dz A.zlo A.zhi, s1, s2]
  exact ⟨rfl, rfl, rfl, rfl⟩

/-- The four addends of the code. -/
theorem four_eq {pi : K} (hpi : 0 < pi) {g : Geom K} {α β r z : K} {i k : Int} (A : Around g α β r z i k) (m : Mem K)
    (c : Comp) {r2 dz1 dz2 v1 v2 : K} (h2 : r2 = ((i : K) + α + 1/2) * g.dr) (hz1 : dz1 = ((k : K) + β + 1) * g.dz - z)
    (hz2 : dz2 = z - ((k : K) + β) * g.dz) (hv1 : v1 = pi * g.dz * g.dr * g.dr * (2 * ((i : K) + α) + 1))
    (hv2 : v2 = pi * g.dz * g.dr * g.dr * (2 * ((i : K) + α) + 3)) :
    four pi g m c i k (r - 1/2 * g.dr) r2 (r + 1/2 * g.dr) dz1 dz2 v1 v2 =
      .ok (seenWeight g α β r z i k * m c (i - g.r0) (k - g.z0),
        seenWeight g α β r z (i + 1) k * m c (i - g.r0 + 1) (k - g.z0),
        seenWeight g α β r z i (k + 1) * m c (i - g.r0) (k - g.z0 + 1),
        seenWeight g α β r z (i + 1) (k + 1) * m c (i - g.r0 + 1) (k - g.z0 + 1)) := by
  have i0 : (0 : K) ≤ i := by exact_mod_cast A.i0
  have h0 : 0 ≤ (i : K) + α := by linarith [A.α0]
  have dr := A.dr
  have dz := A.dz
  have n1 : v1 ≠ 0 := by rw [hv1]; positivity
  have n2 : v2 ≠ 0 := by rw [hv2]; positivity
  have a1 := A.il; have a2 := A.ih; have a3 := A.kl; have a4 := A.kh
  unfold four
  dsimp only
  have I00 : VB.insideG g (i - g.r0) (k - g.z0) := by unfold VB.insideG; omega
  have I10 : VB.insideG g (i - g.r0 + 1) (k - g.z0) := by unfold VB.insideG; omega
  have I01 : VB.insideG g (i - g.r0) (k - g.z0 + 1) := by unfold VB.insideG; omega
  have I11 : VB.insideG g (i - g.r0 + 1) (k - g.z0 + 1) := by unfold VB.insideG; omega
  unfold rdG quot
  rw [if_pos I00, Res.ok_bind, if_neg n1, Res.ok_bind, if_pos I10, Res.ok_bind, if_neg n2, Res.ok_bind,
    if_pos I01, Res.ok_bind, if_neg n1, Res.ok_bind, if_pos I11, Res.ok_bind, if_neg n2, Res.ok_bind]
  obtain ⟨w1, w2, w3, w4⟩ := weight_vals A
  rw [w1, w2, w3, w4]
  have q1 : (2 * ((i : K) + α) + 1) ≠ 0 := by positivity
  have q2 : (2 * ((i : K) + α) + 3) ≠ 0 := by positivity
  congr 1
  subst h2 hz1 hz2 hv1 hv2
  unfold cylRngVol
  refine Prod.ext ?_ (Prod.ext ?_ (Prod.ext ?_ ?_)) <;>
    (dsimp only; field_simp)

/-- The weights add up to less than one. -/
theorem weights_sum {g : Geom K} {α β r z : K} {i k : Int} (A : Around g α β r z i k) :
    seenWeight g α β r z i k + seenWeight g α β r z i (k + 1) +
      (seenWeight g α β r z (i + 1) k + seenWeight g α β r z (i + 1) (k + 1)) < 1 := by
  have i0 : (0 : K) ≤ i := by exact_mod_cast A.i0
  have h0 : 0 ≤ (i : K) + α := by linarith [A.α0]
  have dr := A.dr
  have dz := A.dz
  obtain ⟨w1, w2, w3, w4⟩ := weight_vals A
  rw [w1, w2, w3, w4]
  obtain ⟨u, hu⟩ : ∃ u, r = ((i : K) + α + u) * g.dr := ⟨r / g.dr - ((i : K) + α), by field_simp; ring⟩
  have q1 : 0 < 2 * ((i : K) + α) + 1 := by positivity
  have q2 : 0 < 2 * ((i : K) + α) + 3 := by positivity
  generalize (i : K) + α = j at *
  subst hu
  have e : (((j + 1 / 2) * g.dr) ^ 2 - ((j + u) * g.dr - 1 / 2 * g.dr) ^ 2) * (((k : K) + β + 1) * g.dz - z) /
        (g.dr * g.dr * (2 * j + 1) * g.dz) +
      (((j + 1 / 2) * g.dr) ^ 2 - ((j + u) * g.dr - 1 / 2 * g.dr) ^ 2) * (z - ((k : K) + β) * g.dz) /
        (g.dr * g.dr * (2 * j + 1) * g.dz) +
      ((((j + u) * g.dr + 1 / 2 * g.dr) ^ 2 - ((j + 1 / 2) * g.dr) ^ 2) * (((k : K) + β + 1) * g.dz - z) /
        (g.dr * g.dr * (2 * j + 3) * g.dz) +
      (((j + u) * g.dr + 1 / 2 * g.dr) ^ 2 - ((j + 1 / 2) * g.dr) ^ 2) * (z - ((k : K) + β) * g.dz) /
        (g.dr * g.dr * (2 * j + 3) * g.dz)) =
      1 - (2 * j + 1 + 2 * (u - 1) ^ 2) / ((2 * j + 1) * (2 * j + 3)) := by
    field_simp
    ring
  rw [e]
  have : 0 < (2 * j + 1 + 2 * (u - 1) ^ 2) / ((2 * j + 1) * (2 * j + 3)) := by positivity
  linarith

theorem weight_nonneg {g : Geom K} (hdr : 0 < g.dr) (hdz : 0 < g.dz) {α β r z : K} (hα : 0 ≤ α) (a b : Int) :
    0 ≤ seenWeight g α β r z a b := by
  unfold seenWeight
  split
  · next h =>
    have h : (0 : K) ≤ a := by exact_mod_cast h
    apply div_nonneg
    · exact mul_nonneg (le_max_left _ _) (le_max_left _ _)
    · have : (((a : K) + α + 1) * g.dr) ^ 2 - (((a : K) + α) * g.dr) ^ 2 = g.dr * g.dr * (2 * ((a : K) + α) + 1) := by ring
      rw [this]
      positivity
  · exact le_rfl

end Interp
end Pico
