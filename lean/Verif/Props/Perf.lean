import Verif.Spec.Perf
import Mathlib.Tactic.Linarith
import Mathlib.Tactic.NormNum
import Mathlib.Tactic.FieldSimp
import Mathlib.Tactic.Ring
import Mathlib.Tactic.Positivity

/-! # C137: what the performance test tells -/

set_option linter.unusedSimpArgs false
set_option linter.unusedVariables false
set_option linter.unusedSectionVars false

namespace Pico
namespace Perf

theorem avg_cons (t : ℝ) (l : List ℝ) : avg (t :: l) = some ((t + l.sum) / ((l.length : ℝ) + 1)) := by
  unfold avg
  rw [if_neg (by simp), ← List.sum_eq_foldl, List.sum_cons, List.length_cons]
  push_cast
  rfl

/-- **C137.**  With `n` earlier commits of positive times and mean `a`: the newest is reported as failed exactly if it takes at
least `11 n / (10 n - 1)` times as long as they do on average. -/
theorem C137_failed (new a : ℝ) (old : List ℝ) (h : MeanTime old a) (hp : ∀ t ∈ old, 0 < t) (hn : 0 < new) :
    verdict (new :: old) = some .failed ↔ Slower (11 * (old.length : ℝ) / (10 * (old.length : ℝ) - 1)) new a := by
  obtain ⟨h1, h2⟩ := h
  have n1 : (1 : ℝ) ≤ (old.length : ℝ) := by
    have : 1 ≤ old.length := List.length_pos_iff.2 h1
    exact_mod_cast this
  have s0 : 0 < old.sum := List.sum_pos old hp h1
  have a0 : 0 < a := by
    by_contra q
    have : a * (old.length : ℝ) ≤ 0 := mul_nonpos_of_nonpos_of_nonneg (by linarith) (by linarith)
    linarith
  set n : ℝ := (old.length : ℝ)
  unfold verdict Slower
  rw [avg_cons, Option.bind_some, ← h2]
  show (some new).bind _ = _ ↔ _
  rw [Option.bind_some, Option.some.injEq]
  have g0 : 0 < (new + a * n) / (n + 1) := by positivity
  have d : 0 < 10 * n - 1 := by linarith
  rw [div_mul_eq_mul_div, div_le_iff₀ d]
  have k1 : new / ((new + a * n) / (n + 1)) < 11 / 10 ↔ ¬ 11 * n * a ≤ new * (10 * n - 1) := by
    rw [div_lt_iff₀ g0, not_le, ← mul_div_assoc, lt_div_iff₀ (by linarith)]
    constructor <;> intro q <;> nlinarith
  constructor
  · intro q
    split_ifs at q with c1 c2
    · rw [k1, not_not] at c2
      exact c2
  · intro q
    have c2 : ¬ new / ((new + a * n) / (n + 1)) < 11 / 10 := by rw [k1, not_not]; exact q
    have c3 : ¬ new / ((new + a * n) / (n + 1)) < 101 / 100 := fun w => c2 (w.trans (by norm_num))
    have c1 : ¬ new ≤ (new + a * n) / (n + 1) := fun w => c3 (by
      rw [div_lt_iff₀ g0]; nlinarith)
    rw [if_neg (by rintro (w | w); exacts [c1 w, c3 w]), if_neg c2]

/-- **C137.**  A failure means a slowdown of at least a tenth; commits that are not slower than the earlier ones pass without a
warning. -/
theorem C137_sound (new a : ℝ) (old : List ℝ) (h : MeanTime old a) (hp : ∀ t ∈ old, 0 < t) (hn : 0 < new) :
    (verdict (new :: old) = some .failed → Slower (11 / 10) new a) ∧
    (new ≤ a → verdict (new :: old) = some .passed) := by
  have h' := h
  obtain ⟨h1, h2⟩ := h'
  have n1 : (1 : ℝ) ≤ (old.length : ℝ) := by
    have : 1 ≤ old.length := List.length_pos_iff.2 h1
    exact_mod_cast this
  have s0 : 0 < old.sum := List.sum_pos old hp h1
  have a0 : 0 < a := by
    by_contra q
    have : a * (old.length : ℝ) ≤ 0 := mul_nonpos_of_nonpos_of_nonneg (by linarith) (by linarith)
    linarith
  constructor
  · intro q
    have := (C137_failed new a old h hp hn).1 q
    unfold Slower at this ⊢
    rw [div_mul_eq_mul_div, div_le_iff₀ (by linarith)] at this
    nlinarith
  · intro q
    unfold verdict
    rw [avg_cons, Option.bind_some, ← h2]
    show (some new).bind _ = _
    rw [Option.bind_some, if_pos (Or.inl ?_)]
    rw [le_div_iff₀ (by linarith)]
    nlinarith

/-- Where C137 fails: a single commit is compared with itself and passes. -/
theorem C137_alone_fails (new : ℝ) : verdict [new] = some .passed := by
  unfold verdict
  rw [avg_cons, Option.bind_some]
  show (some new).bind _ = _
  rw [Option.bind_some, if_pos (Or.inl (by simp))]

/-- Where C137 fails: the newest time is part of the average, so that slowdowns of a tenth and more pass (with one earlier commit
up to 22 percent). -/
theorem C137_diluted_fails (a new : ℝ) (old : List ℝ) (h : MeanTime old a) (hp : ∀ t ∈ old, 0 < t) (hn : 0 < new)
    (h1 : Slower (11 / 10) new a) (h2 : new < 11 * (old.length : ℝ) / (10 * (old.length : ℝ) - 1) * a) :
    verdict (new :: old) ≠ some .failed := by
  rw [Ne, C137_failed new a old h hp hn]
  unfold Slower
  exact not_le.2 h2

/-- Where C137 fails: a newest commit whose run reports no time (it does not build, or it crashes) counts as no time at all and
passes, whatever the others took. -/
theorem C137_crash_fails (l : Nat) (old : List (Option ℝ)) (hp : ∀ t ∈ old, ∀ x, t = some x → 0 ≤ x) :
    report (l + 1) (none :: old) = some .passed := by
  unfold report
  rw [List.take_succ_cons, List.map_cons]
  unfold verdict
  rw [avg_cons, Option.bind_some]
  show (some (testRun none)).bind _ = _
  have z : testRun none = 0 := rfl
  rw [Option.bind_some, z, if_pos (Or.inl ?_)]
  rw [zero_add]
  refine div_nonneg (List.sum_nonneg ?_) (by positivity)
  intro x hx
  obtain ⟨t, ht, rfl⟩ := List.mem_map.1 hx
  have ht' := List.mem_of_mem_take ht
  cases t with
  | none => exact le_rfl
  | some y => exact hp _ ht' y rfl

/-! ### The hypotheses are met -/

example : MeanTime [10, 12] 11 := ⟨by simp, by norm_num⟩

/-- Twelve tenths of the mean of one earlier commit pass; thirteen tenths do not. -/
example : verdict [12, 10] ≠ some .failed ∧ verdict [13, 10] = some .failed := by
  have m : MeanTime [10] 10 := ⟨by simp, by norm_num⟩
  have p : ∀ t ∈ [(10 : ℝ)], 0 < t := by intro t ht; rw [List.mem_singleton] at ht; rw [ht]; norm_num
  refine ⟨C137_diluted_fails 10 12 [10] m p (by norm_num) (by unfold Slower; norm_num) (by norm_num), ?_⟩
  rw [C137_failed 13 10 [10] m p (by norm_num)]
  unfold Slower
  norm_num

end Perf
end Pico
