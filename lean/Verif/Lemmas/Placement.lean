import Verif.Model.Placement
import Verif.Lemmas.Rand
import Verif.Props.Rand
import Verif.Lemmas.Pusher

set_option linter.unusedSectionVars false
set_option linter.unusedSimpArgs false
set_option linter.unusedVariables false

namespace Pico
namespace Place

open _root_.Pico.Part

theorem usub_eq {a b : Nat} (h : b ≤ a) (h' : a < 2 ^ 32) : usub a b = a - b := by
  unfold usub
  rw [show a + (2 ^ 32 - b) = (a - b) + 2 ^ 32 by omega, Nat.add_mod_right, Nat.mod_eq_of_lt (by omega)]

section
variable {K : Type _} [Field K] [LinearOrder K] [IsStrictOrderedRing K] [FloorRing K]

theorem vSum_eq (pi : K) (g : Geom K) (ps : List (Part K)) : vSum pi g ps = (ps.map fun p => volOf pi g p.posR).sum := by
  unfold vSum
  rw [List.sum_eq_foldl, List.foldl_map]

theorem volOf_pos {pi : K} (hp : 0 < pi) {g : Geom K} (hr : 0 < g.dr) (hz : 0 < g.dz) {r : K} (h : 0 < r) : 0 < volOf pi g r := by
  unfold volOf
  split <;> positivity

theorem vSum_pos {pi : K} (hp : 0 < pi) {g : Geom K} (hr : 0 < g.dr) (hz : 0 < g.dz) {ps : List (Part K)} (hne : ps ≠ [])
    (h : ∀ p ∈ ps, 0 < p.posR) : 0 < vSum pi g ps := by
  rw [vSum_eq]
  refine List.sum_pos _ ?_ (by simpa using hne)
  intro x hx
  obtain ⟨p, hp', rfl⟩ := List.mem_map.mp hx
  exact volOf_pos hp hr hz (h p hp')

/-! ### Counting loop over `double` -/

theorem forUp_spec {hi h x : K} {l : List K} (w : ForUp hi h x l) :
    l = (List.range l.length).map (fun k : Nat => x + k * h) ∧ (∀ k : Nat, k < l.length → x + k * h ≤ hi) ∧
      hi < x + l.length * h := by
  induction w with
  | done hx => exact ⟨rfl, fun k hk => absurd hk (by simp), by simpa using hx⟩
  | @step x l hx _ ih =>
    obtain ⟨a, b, c⟩ := ih
    refine ⟨?_, ?_, ?_⟩
    · rw [List.length_cons, List.range_succ_eq_map, List.map_cons, List.map_map]
      have e : (fun k : Nat => x + (k : K) * h) ∘ Nat.succ = fun k : Nat => x + h + (k : K) * h := by
        funext k; simp only [Function.comp, Nat.succ_eq_add_one]; push_cast; ring
      rw [e]
      conv_lhs => rw [a]
      simp
    · intro k hk
      rcases k with _ | k
      · simpa using hx
      · have := b k (by simpa using hk)
        push_cast
        linarith
    · rw [List.length_cons]
      push_cast
      linarith

theorem forUp_det {hi h x : K} {l l' : List K} (w : ForUp hi h x l) (w' : ForUp hi h x l') : l = l' := by
  induction w generalizing l' with
  | done hx => cases w' with
    | done _ => rfl
    | step k _ => exact absurd hx (not_lt.mpr k)
  | step hx _ ih => cases w' with
    | done k => exact absurd k (not_lt.mpr hx)
    | step _ k => rw [ih k]

theorem forUp_exists {hi h : K} (hh : 0 < h) (x : K) : ∃ l, ForUp hi h x l := by
  have key : ∀ n : Nat, ∀ x : K, hi < x + n * h → ∃ l, ForUp hi h x l := by
    intro n
    induction n with
    | zero => intro x hx; exact ⟨[], .done (by simpa using hx)⟩
    | succ n ih =>
      intro x hx
      rcases lt_or_ge hi x with k | k
      · exact ⟨[], .done k⟩
      · obtain ⟨l, hl⟩ := ih (x + h) (by push_cast at hx; linarith)
        exact ⟨x :: l, .step k hl⟩
  obtain ⟨n, hn⟩ := exists_nat_gt ((hi - x) / h)
  refine key n x ?_
  rw [div_lt_iff₀ hh] at hn
  linarith

theorem nearest_step {n : Nat} (hn : 1 ≤ n) (r : Nat) :
    decide (((r : K) / (n : K)) ≠ ⌊(r : K) / (n : K)⌋) = !decide (n ∣ r) := by
  have n0 : (n : K) ≠ 0 := by exact_mod_cast (by omega : n ≠ 0)
  have e : ((r : K) / (n : K)) = ((⌊(r : K) / (n : K)⌋ : Int) : K) ↔ n ∣ r := by
    constructor
    · intro h
      rw [div_eq_iff n0] at h
      have h0 : 0 ≤ ⌊(r : K) / (n : K)⌋ := Int.floor_nonneg.mpr (by positivity)
      obtain ⟨q, hq⟩ := Int.eq_ofNat_of_zero_le h0
      rw [hq] at h
      have : r = q * n := by exact_mod_cast h
      exact ⟨q, by rw [this, mul_comm]⟩
    · rintro ⟨q, rfl⟩
      push_cast
      rw [mul_div_cancel_left₀ _ n0]
      simp
  by_cases h : n ∣ r
  · simp only [h, decide_true, Bool.not_true, decide_eq_false_iff_not, not_not]
    exact e.mpr h
  · simp only [h, decide_false, Bool.not_false, decide_eq_true_eq]
    exact fun k => h (e.mp k)

end

/-! ### Inverse of the linear profile -/

/-- `y` solves "fraction `u` of the amount lies before `y`" for the densities `d0` at 0 and `d1` at 1. -/
theorem profile {d0 d1 u : ℝ} (h0 : 0 ≤ d0) (h1 : 0 ≤ d1) (hne : d0 ≠ d1) (hu : 0 ≤ u) (hu1 : u ≤ 1) :
    let y := (Real.sqrt (d0 ^ 2 + u * (2 * d0 * (d1 - d0) + (d1 - d0) ^ 2)) - d0) / (d1 - d0)
    0 ≤ y ∧ y ≤ 1 ∧ d0 * y + (d1 - d0) * y ^ 2 / 2 = u * ((d0 + d1) / 2) := by
  intro y
  have e : d0 ^ 2 + u * (2 * d0 * (d1 - d0) + (d1 - d0) ^ 2) = (1 - u) * d0 ^ 2 + u * d1 ^ 2 := by ring
  have hS : 0 ≤ (1 - u) * d0 ^ 2 + u * d1 ^ 2 := by
    have : 0 ≤ 1 - u := by linarith
    positivity
  have hd : d1 - d0 ≠ 0 := sub_ne_zero.mpr (Ne.symm hne)
  set s := Real.sqrt (d0 ^ 2 + u * (2 * d0 * (d1 - d0) + (d1 - d0) ^ 2)) with hs
  have s0 : 0 ≤ s := Real.sqrt_nonneg _
  have s2 : s ^ 2 = (1 - u) * d0 ^ 2 + u * d1 ^ 2 := by rw [hs, e, Real.sq_sqrt hS]
  have hy : y = (s - d0) / (d1 - d0) := rfl
  have last : d0 * y + (d1 - d0) * y ^ 2 / 2 = u * ((d0 + d1) / 2) := by
    rw [hy]
    field_simp
    linear_combination s2
  rcases lt_or_gt_of_ne hne with h | h
  · have a1 : d0 ≤ s := by
      refine le_of_sq_le_sq ?_ s0
      rw [s2]
      have : 0 ≤ u * (d1 ^ 2 - d0 ^ 2) := mul_nonneg hu (by nlinarith)
      nlinarith
    have a2 : s ≤ d1 := by
      refine le_of_sq_le_sq ?_ h1
      rw [s2]
      have : 0 ≤ (1 - u) * (d1 ^ 2 - d0 ^ 2) := mul_nonneg (by linarith) (by nlinarith)
      nlinarith
    have dp : 0 < d1 - d0 := by linarith
    refine ⟨?_, ?_, last⟩
    · rw [hy]; exact div_nonneg (by linarith) dp.le
    · rw [hy, div_le_one dp]; linarith
  · have a1 : s ≤ d0 := by
      refine le_of_sq_le_sq ?_ h0
      rw [s2]
      have : 0 ≤ u * (d0 ^ 2 - d1 ^ 2) := mul_nonneg hu (by nlinarith)
      nlinarith
    have a2 : d1 ≤ s := by
      refine le_of_sq_le_sq ?_ s0
      rw [s2]
      have : 0 ≤ (1 - u) * (d0 ^ 2 - d1 ^ 2) := mul_nonneg (by linarith) (by nlinarith)
      nlinarith
    have dp : d1 - d0 < 0 := by linarith
    refine ⟨?_, ?_, last⟩
    · rw [hy]; exact div_nonneg_of_nonpos (by linarith) dp.le
    · rw [hy, div_le_one_of_neg dp]; linarith

/-- The last number before a power of the base. -/
theorem behind_pred_pow {b : Nat} (hb : 2 ≤ b) (k : Nat) :
    (Rand.behindPoint b (Nat.digits b (b ^ k - 1)) : ℝ) = 1 - 1 / (b : ℝ) ^ k := by
  have b0 : (b : ℝ) ≠ 0 := by exact_mod_cast (by omega : b ≠ 0)
  induction k with
  | zero => simp [Rand.behindPoint]
  | succ k ih =>
    have pk : 1 ≤ b ^ k := Nat.one_le_pow _ _ (by omega)
    have e : b ^ (k + 1) - 1 = (b - 1) + b * (b ^ k - 1) := by
      rw [Nat.mul_sub, pow_succ, mul_comm]
      have : b ≤ b * b ^ k := Nat.le_mul_of_pos_right _ pk
      omega
    rw [e, Nat.digits_add b (by omega) (b - 1) (b ^ k - 1) (by omega) (Or.inl (by omega)), Rand.behindPoint, ih]
    have : ((b - 1 : Nat) : ℝ) = b - 1 := by rw [Nat.cast_sub (by omega)]; simp
    rw [this, pow_succ]
    field_simp
    ring

end Place
end Pico
