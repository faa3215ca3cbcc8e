import Verif.Lemmas.Rand
import Mathlib.Algebra.Order.Ring.Rat
import Mathlib.Data.Rat.Floor
import Mathlib.Tactic.NormNum.DivMod

/-! Property C33: the reproducible number sequence. -/

set_option linter.unusedSectionVars false
set_option linter.unusedSimpArgs false
set_option linter.unusedVariables false

namespace Pico
namespace Rand

variable {K : Type _} [Field K] [LinearOrder K] [IsStrictOrderedRing K] [FloorRing K]

/-- C33: for every base of at least two and every sequence number the function returns exactly one value: the digits
of the number, in the base, written behind the point in reverse order.  It lies in `[0, 1)`. -/
theorem C33_value {b : Nat} (hb : 2 ≤ b) (n : Nat) (hn : n < 2 ^ 31) :
    RandomReverse (n : K) b (behindPoint b (Nat.digits b n)) ∧
    (∀ x : K, RandomReverse (n : K) b x → x = behindPoint b (Nat.digits b n)) ∧
    0 ≤ (behindPoint b (Nat.digits b n) : K) ∧ (behindPoint b (Nat.digits b n) : K) < 1 := by
  have fl : ⌊(n : K)⌋ = (n : Int) := Int.floor_natCast n
  obtain ⟨t, hw, ht⟩ := while_rev (K := K) hb n 0 1
  have e : t.r = behindPoint b (Nat.digits b n) := by rw [ht]; norm_num
  refine ⟨⟨?_, Or.inl (by exact_mod_cast (by omega : b ≠ 0)), t, by rw [fl]; exact hw, e.symm⟩, ?_,
    behind_range hb _ (fun d hd => Nat.digits_lt_base (by omega) hd)⟩
  · rw [fl]
    constructor
    · have : (0 : Int) ≤ n := Int.natCast_nonneg n
      linarith [show (-2 ^ 31 : Int) ≤ 0 by norm_num]
    · exact_mod_cast hn
  · rintro x ⟨_, _, t', hw', rfl⟩
    rw [fl] at hw'
    rw [hw'.det hw, e]

/-- C33: different sequence numbers give different values. -/
theorem C33_distinct {b : Nat} (hb : 2 ≤ b) (n m : Nat) (hn : n < 2 ^ 31) (hm : m < 2 ^ 31) (x : K)
    (h1 : RandomReverse (n : K) b x) (h2 : RandomReverse (m : K) b x) : n = m := by
  have a := (C33_value (K := K) hb n hn).2.1 x h1
  have c := (C33_value (K := K) hb m hm).2.1 x h2
  exact digits_inj (K := K) hb n m (by rw [← a, c])

/-- For base one, which C33 excludes, the loop never ends. -/
theorem C33_base_one (n : Nat) (h : 1 ≤ n) : ¬ ∃ x : K, RandomReverse (n : K) 1 x := by
  rintro ⟨x, _, _, t, hw, _⟩
  have fl : ⌊(n : K)⌋ = (n : Int) := Int.floor_natCast n
  rw [fl] at hw
  refine While.diverges (fun s => 1 ≤ s.n) ?_ (by show (1 : Int) ≤ n; exact_mod_cast h) hw
  intro s hs
  refine ⟨by simp [revCond]; exact hs, ?_⟩
  show 1 ≤ ((s.n - s.n.tmod 1).tdiv 1)
  rw [Int.tmod_one, Int.tdiv_one, sub_zero]
  exact hs

/-- Fractional arguments are rounded down. -/
theorem C33_floor (v : K) (b : Int) (x : K) : RandomReverse v b x ↔ RandomReverse ((⌊v⌋ : Int) : K) b x := by
  unfold RandomReverse
  rw [Int.floor_intCast]

/-! ### Concrete cases -/

example : RandomReverse (25 : ℚ) 13 (12/13 + 1/169) := by
  have := (C33_value (K := ℚ) (b := 13) (by norm_num) 25 (by norm_num)).1
  have e : (behindPoint 13 (Nat.digits 13 25) : ℚ) = 12/13 + 1/169 := by
    norm_num [behindPoint]
  rw [e] at this
  exact_mod_cast this
example := C33_base_one (K := ℚ) 5 (by norm_num)

end Rand
end Pico
