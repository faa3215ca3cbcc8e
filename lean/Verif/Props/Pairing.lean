import Verif.Spec.Pairing
import Verif.Lemmas.Grid
import Mathlib.Tactic.Linarith
import Mathlib.Tactic.FieldSimp
import Mathlib.Tactic.Ring
import Mathlib.Data.Rat.Floor

/-! Properties C36, C69 (pairs), C37 (cells), C41 (sorting). -/

set_option linter.unusedSectionVars false
set_option linter.unusedSimpArgs false
set_option linter.unusedVariables false

namespace Pico
namespace Coll

/-! ### C69: like particles -/

theorem occ_append (l m : List (Nat × Nat)) (k : Nat) : occ (l ++ m) k = occ l k + occ m k := List.countP_append ..

theorem occ_step (s m k : Nat) :
    occ ((List.range m).map fun t => (s + 2 * t, s + 2 * t + 1)) k = if s ≤ k ∧ k < s + 2 * m then 1 else 0 := by
  induction m with
  | zero => simp [occ]
  | succ m ih =>
    rw [List.range_succ, List.map_append, occ_append, ih]
    simp only [occ, List.map_cons, List.map_nil, List.countP_cons, List.countP_nil, Bool.or_eq_true, beq_iff_eq]
    split_ifs <;> omega

/-- C69 for like particles: all indices are in range, no particle collides with itself, and every particle takes part
exactly once, except that in an odd population of at least three the first three take part twice and that a
single particle has no partner. -/
theorem C69_like (n : Nat) :
    (∀ p ∈ likePairs n, p.1 < n ∧ p.2 < n ∧ p.1 ≠ p.2) ∧
    ∀ k, k < n → occ (likePairs n) k =
      if n = 1 then 0 else if n % 2 = 1 ∧ k < 3 then 2 else 1 := by
  constructor
  · intro p hp
    unfold likePairs stepTwo at hp
    split at hp
    · obtain ⟨t, ht, rfl⟩ := List.mem_map.mp hp
      rw [List.mem_range] at ht
      dsimp only
      omega
    · rcases List.mem_append.mp hp with h | h
      · split at h
        · simp only [List.mem_cons, List.not_mem_nil, or_false] at h
          rcases h with rfl | rfl | rfl <;> dsimp only <;> omega
        · simp at h
      · split at h
        · obtain ⟨t, ht, rfl⟩ := List.mem_map.mp h
          rw [List.mem_range] at ht
          dsimp only
          omega
        · simp at h
  · intro k hk
    unfold likePairs stepTwo
    by_cases he : n % 2 = 0
    · rw [if_pos he, occ_step]
      split_ifs <;> omega
    · rw [if_neg he, occ_append]
      have three : occ (if 3 ≤ n then [(0, 1), (1, 2), (2, 0)] else []) k = if 3 ≤ n ∧ k < 3 then 2 else 0 := by
        by_cases h : 3 ≤ n
        · rw [if_pos h]
          simp only [occ, List.countP_cons, List.countP_nil, Bool.or_eq_true, beq_iff_eq]
          split_ifs <;> omega
        · rw [if_neg h, if_neg (fun hh => h hh.1)]
          rfl
      have rest : occ (if 5 ≤ n then (List.range ((n - 3 + 1) / 2)).map fun t => (3 + 2 * t, 3 + 2 * t + 1) else []) k =
          if 3 ≤ k then 1 else 0 := by
        by_cases h : 5 ≤ n
        · rw [if_pos h, occ_step]
          split_ifs <;> omega
        · rw [if_neg h, if_neg (by omega)]
          rfl
      rw [three, rest]
      split_ifs <;> omega

/-! ### C36: unlike particles -/

/-- The pairs when nothing is rounded. -/
theorem unequal_exact {small large : Nat} (h0 : 0 < small) :
    unequalPairs id small large =
      ((List.range ((large / small + 1) * (large % small))).map fun f => (f / (large / small + 1), f)) ++
      ((List.range (large / small * (small - large % small))).map fun f =>
        (f / (large / small) + large % small, f + (large / small + 1) * (large % small))) := by
  have s0 : (small : ℚ) ≠ 0 := by exact_mod_cast h0.ne'
  have ml := Nat.mod_lt large h0
  have fl : ⌊(large : ℚ) / small⌋ = ((large / small : Nat) : Int) := Rat.floor_intCast_div_natCast large small
  have dm : (large : ℚ) = small * (large / small : Nat) + (large % small : Nat) := by exact_mod_cast (Nat.div_add_mod large small).symm
  unfold unequalPairs
  simp only [id]
  rw [fl]
  generalize large / small = c at *
  generalize large % small = r at *
  have cr : ((large : ℚ) / small - (c : Int)) * small = (r : Nat) := by
    rw [sub_mul, div_mul_cancel₀ _ s0]
    push_cast
    linear_combination dm
  have e1 : ((c : Int) + 1 : ℚ) * ((large : ℚ) / small - (c : Int)) * small =
      (((c + 1) * (r) : Nat) : ℚ) := by
    rw [mul_assoc, cr]; push_cast; ring
  have e2 : ((c : Int) : ℚ) * (1 - ((large : ℚ) / small - (c : Int))) * small =
      ((c * (small - r) : Nat) : ℚ) := by
    rw [mul_assoc, sub_mul, cr]; push_cast [Nat.cast_sub ml.le]; ring
  rw [e1, e2, cr, Int.floor_natCast, Int.floor_natCast, Int.floor_natCast]
  simp only [Int.toNat_natCast]

theorem count_div (d r e : Nat) (hd : 0 < d) :
    (List.range (d * r)).countP (fun f => f / d == e) = if e < r then d else 0 := by
  induction r with
  | zero => simp
  | succ r ih =>
    rw [Nat.mul_succ, List.range_add, List.countP_append, ih, List.countP_map]
    have : ((fun f => f / d == e) ∘ fun x => d * r + x) = fun x => (d * r + x) / d == e := rfl
    rw [this]
    have c : (List.range d).countP (fun x => (d * r + x) / d == e) = if e = r then d else 0 := by
      by_cases h : e = r
      · rw [if_pos h]
        rw [List.countP_eq_length.mpr]
        · simp
        · intro x hx
          rw [List.mem_range] at hx
          rw [beq_iff_eq, Nat.mul_add_div hd, Nat.div_eq_of_lt hx, h]
          rfl
      · rw [if_neg h, List.countP_eq_zero]
        intro x hx
        rw [List.mem_range] at hx
        rw [beq_iff_eq, Nat.mul_add_div hd, Nat.div_eq_of_lt hx]
        omega
    rw [c]
    split_ifs <;> omega

theorem occR_range (m k : Nat) (g : Nat → Nat) (s : Nat) :
    occR ((List.range m).map fun f => (g f, f + s)) k = if s ≤ k ∧ k < m + s then 1 else 0 := by
  induction m with
  | zero =>
    simp only [List.range_zero, List.map_nil, occR, List.countP_nil]
    split_ifs <;> omega
  | succ m ih =>
    rw [List.range_succ, List.map_append]
    unfold occR at ih ⊢
    rw [List.countP_append, ih]
    simp only [List.map_cons, List.map_nil, List.countP_cons, List.countP_nil, beq_iff_eq]
    split_ifs <;> omega

/-- C36 for unlike particles, populations of different size, without rounding: all indices are in range, every particle
of the larger population takes part exactly once, every one of the smaller population `c` or `c + 1` times, where `c` is
the quotient. -/
theorem C36_unlike_partial {small large : Nat} (h0 : 0 < small) (h : small < large) :
    (∀ p ∈ unequalPairs id small large, p.1 < small ∧ p.2 < large) ∧
    (∀ k, k < large → occR (unequalPairs id small large) k = 1) ∧
    (∀ k, k < small → occL (unequalPairs id small large) k = if k < large % small then large / small + 1 else large / small) := by
  rw [unequal_exact h0]
  have ml := Nat.mod_lt large h0
  have dm := Nat.div_add_mod large small
  have c0 : 0 < large / small := Nat.div_pos h.le h0
  set c := large / small
  set r := large % small
  have tot : (c + 1) * r + c * (small - r) = large := by
    have : c * (small - r) + c * r = c * small := by rw [← Nat.mul_add]; congr 1; omega
    have e : (c + 1) * r = c * r + r := by ring
    have e2 : small * c = c * small := Nat.mul_comm _ _
    omega
  refine ⟨?_, ?_, ?_⟩
  · intro p hp
    rcases List.mem_append.mp hp with hp | hp
    · obtain ⟨f, hf, rfl⟩ := List.mem_map.mp hp
      rw [List.mem_range] at hf
      have := (Nat.div_lt_iff_lt_mul (Nat.succ_pos c)).mpr (by rw [Nat.mul_comm]; exact hf : f < r * (c + 1))
      dsimp only
      refine ⟨by rw [Nat.succ_eq_add_one] at this; omega, by omega⟩
    · obtain ⟨f, hf, rfl⟩ := List.mem_map.mp hp
      rw [List.mem_range] at hf
      have := (Nat.div_lt_iff_lt_mul c0).mpr (by rw [Nat.mul_comm]; exact hf : f < (small - r) * c)
      dsimp only
      omega
  · intro k hk
    have a := occR_range ((c + 1) * r) k (fun f => f / (c + 1)) 0
    have b := occR_range (c * (small - r)) k (fun f => f / c + r) ((c + 1) * r)
    unfold occR at a b ⊢
    simp only [Nat.add_zero] at a
    rw [List.countP_append, a, b]
    split_ifs <;> omega
  · intro k hk
    unfold occL
    rw [List.countP_append, List.countP_map, List.countP_map]
    have a := count_div (c + 1) r k (Nat.succ_pos c)
    have e1 : ((fun p : Nat × Nat => p.1 == k) ∘ fun f => (f / (c + 1), f)) = fun f => f / (c + 1) == k := rfl
    rw [e1, a]
    have e2 : ((fun p : Nat × Nat => p.1 == k) ∘ fun f => (f / c + r, f + (c + 1) * r)) = fun f => f / c + r == k := rfl
    rw [e2]
    by_cases hk2 : k < r
    · rw [if_pos hk2, if_pos hk2, List.countP_eq_zero.mpr]
      intro f _
      rw [beq_iff_eq]
      generalize f / c = x
      omega
    · rw [if_neg hk2, if_neg hk2]
      rw [Nat.zero_add]
      have b := count_div c (small - r) (k - r) c0
      rw [if_pos (by omega)] at b
      refine Eq.trans ?_ b
      congr 1
      funext f
      rw [Bool.eq_iff_iff, beq_iff_eq, beq_iff_eq]
      generalize f / c = x
      omega

/-- C69 for unlike particles of equally many: each one exactly once. -/
theorem C69_unlike_equal (fl : ℚ → ℚ) (n : Nat) :
    (cellPairs fl n n).filterMap (fun p => match p with | .ei e i => some (e, i) | _ => none) = (List.range n).map fun k => (k, k) := by
  have ii : ∀ l : List (Nat × Nat), (l.map fun p => Pair.ii p.1 p.2).filterMap (fun p => match p with | .ei e i => some (e, i) | _ => none) = [] := by
    intro l; induction l with
    | nil => rfl
    | cons a l ih => exact ih
  have ee : ∀ l : List (Nat × Nat), (l.map fun p => Pair.ee p.1 p.2).filterMap (fun p => match p with | .ei e i => some (e, i) | _ => none) = [] := by
    intro l; induction l with
    | nil => rfl
    | cons a l ih => exact ih
  have ei : ∀ l : List Nat, (l.map fun k => Pair.ei k k).filterMap (fun p => match p with | .ei e i => some (e, i) | _ => none) = l.map fun k => (k, k) := by
    intro l; induction l with
    | nil => rfl
    | cons a l ih => exact congrArg (List.cons (a, a)) ih
  unfold cellPairs
  simp only [List.filterMap_append, lt_irrefl, false_and, if_false, List.filterMap_nil, List.append_nil, if_true, ei]
  by_cases h : n % 2 = 0
  · simp only [h, if_true, not_true, if_false, List.filterMap_nil, ii, ee, List.nil_append, List.append_nil, ne_eq]
  · simp only [h, if_true, if_false, not_false_eq_true, List.filterMap_nil, ii, ee, List.nil_append, List.append_nil, ne_eq]

/-- C36 fails once the quotient of the populations is rounded to `float`: whenever it is not exact (and the error is small,
as it is), one particle too few is paired: the last one of the larger population never collides. -/
theorem C36_rounding_fails (fl : ℚ → ℚ) {small large : Nat} (h0 : 0 < small) (h : small < large)
    (hne : fl ((large : ℚ) / small) ≠ (large : ℚ) / small)
    (hfl : ⌊fl ((large : ℚ) / small)⌋ = ((large / small : Nat) : Int)) (hmod : 0 < large % small)
    (hsmall : |fl ((large : ℚ) / small) - (large : ℚ) / small| * (small * (large / small + 1 : Nat)) < 1) :
    (unequalPairs fl small large).length = large - 1 ∧ occR (unequalPairs fl small large) (large - 1) = 0 := by
  have s0 : (small : ℚ) ≠ 0 := by exact_mod_cast h0.ne'
  have sp : (0 : ℚ) < small := by exact_mod_cast h0
  have ml := Nat.mod_lt large h0
  have dm := Nat.div_add_mod large small
  have c0 : 0 < large / small := Nat.div_pos h.le h0
  have dmq : (large : ℚ) = small * (large / small : Nat) + (large % small : Nat) := by exact_mod_cast dm.symm
  set q := fl ((large : ℚ) / small) with hq
  set c := large / small with hc
  set r := large % small with hr
  set e := q - (large : ℚ) / small with he
  have cq : (1 : ℚ) ≤ c := by exact_mod_cast c0
  have e0 : e ≠ 0 := sub_ne_zero.mpr hne
  have qe : (q - ((c : Nat) : Int)) * small = r + e * small := by
    rw [he]
    have : (large : ℚ) / small * small = large := div_mul_cancel₀ _ s0
    push_cast
    linear_combination this + dmq
  have tot : (c + 1) * r + c * (small - r) = large := by
    have : c * (small - r) + c * r = c * small := by rw [← Nat.mul_add]; congr 1; omega
    have e : (c + 1) * r = c * r + r := by ring
    have e2 : small * c = c * small := Nat.mul_comm _ _
    omega
  have large1 : (((c : Nat) : Int) + 1 : ℚ) * (q - ((c : Nat) : Int)) * small = ((((c + 1) * r : Nat) : Int) : ℚ) + (c + 1) * small * e := by
    rw [mul_assoc, qe]; push_cast; ring
  have large2 : (((c : Nat) : Int) : ℚ) * (1 - (q - ((c : Nat) : Int))) * small = ((c * (small - r) : Nat) : Int) - c * small * e := by
    rw [mul_assoc, sub_mul, qe]; push_cast [Nat.cast_sub ml.le]; ring
  have k1 : 1 ≤ (c + 1) * r := Nat.mul_pos (Nat.succ_pos c) hmod
  have k2 : 1 ≤ c * (small - r) := Nat.mul_pos c0 (by omega)
  have cs : (0 : ℚ) < c * small := by positivity
  have floors : (⌊(((c : Nat) : Int) + 1 : ℚ) * (q - ((c : Nat) : Int)) * small⌋.toNat = (c + 1) * r ∧
        ⌊(((c : Nat) : Int) : ℚ) * (1 - (q - ((c : Nat) : Int))) * small⌋.toNat = c * (small - r) - 1) ∨
      (⌊(((c : Nat) : Int) + 1 : ℚ) * (q - ((c : Nat) : Int)) * small⌋.toNat = (c + 1) * r - 1 ∧
        ⌊(((c : Nat) : Int) : ℚ) * (1 - (q - ((c : Nat) : Int))) * small⌋.toNat = c * (small - r)) := by
    rw [large1, large2]
    push_cast at hsmall
    rcases lt_or_gt_of_ne e0 with hneg | hpos
    · right
      rw [abs_of_neg hneg] at hsmall
      have a1 : (c + 1) * small * e < 0 := mul_neg_of_pos_of_neg (by positivity) hneg
      have a2 : c * small * e < 0 := mul_neg_of_pos_of_neg cs hneg
      have f1 : ⌊((((c + 1) * r : Nat) : Int) : ℚ) + (c + 1) * small * e⌋ = (((c + 1) * r : Nat) : Int) - 1 := by
        rw [Int.floor_eq_iff]
        push_cast
        exact ⟨by linarith, by linarith⟩
      have f2 : ⌊((((c * (small - r) : Nat) : Int) : ℚ)) - c * small * e⌋ = ((c * (small - r) : Nat) : Int) := by
        rw [Int.floor_eq_iff]
        exact ⟨by linarith, by nlinarith⟩
      rw [f1, f2]
      omega
    · left
      rw [abs_of_pos hpos] at hsmall
      have a1 : 0 < c * small * e := mul_pos cs hpos
      have a2 : 0 < small * e := mul_pos sp hpos
      have f1 : ⌊((((c + 1) * r : Nat) : Int) : ℚ) + (c + 1) * small * e⌋ = (((c + 1) * r : Nat) : Int) := by
        rw [Int.floor_eq_iff]
        exact ⟨by nlinarith, by nlinarith⟩
      have f2 : ⌊((((c * (small - r) : Nat) : Int) : ℚ)) - c * small * e⌋ = ((c * (small - r) : Nat) : Int) - 1 := by
        rw [Int.floor_eq_iff]
        push_cast
        exact ⟨by nlinarith, by linarith⟩
      rw [f1, f2]
      omega
  have sum : ∀ (l1 l2 : Nat) (g h : Nat → Nat), l1 + l2 = large - 1 →
      (((List.range l1).map fun f => (g f, f)) ++ ((List.range l2).map fun f => (h f, f + l1))).length = large - 1 ∧
      occR (((List.range l1).map fun f => (g f, f)) ++ ((List.range l2).map fun f => (h f, f + l1))) (large - 1) = 0 := by
    intro l1 l2 g h hs
    refine ⟨by simp only [List.length_append, List.length_map, List.length_range]; exact hs, ?_⟩
    have a := occR_range l1 (large - 1) g 0
    have b := occR_range l2 (large - 1) h l1
    unfold occR at a b ⊢
    simp only [Nat.add_zero] at a
    rw [List.countP_append, a, b]
    split_ifs <;> omega
  unfold unequalPairs
  simp only
  rw [← hq, hfl]
  apply sum
  omega

/-- Non-vacuity of `C36_rounding_fails`: three and four particles. -/
example : (unequalPairs float32 3 4).length = 3 ∧ occR (unequalPairs float32 3 4) 3 = 0 :=
  C36_rounding_fails float32 (by decide) (by decide) (by decide +kernel) (by decide +kernel) (by decide) (by decide +kernel)

example : unequalPairs id 3 7 = [(0, 0), (0, 1), (0, 2), (1, 3), (1, 4), (2, 5), (2, 6)] := by decide +kernel
example : likePairs 7 = [(0, 1), (1, 2), (2, 0), (3, 4), (5, 6)] := by decide

/-- In particular a cell with three ions and four electrons leaves the fourth electron without an ion. -/
theorem C36_cell_fails : ∀ i, Pair.ei 3 i ∉ cellPairs float32 3 4 := by
  intro i
  have : cellPairs float32 3 4 = [.ee 0 1, .ee 2 3, .ii 0 1, .ii 1 2, .ii 2 0, .ei 0 0, .ei 1 0, .ei 2 1] := by decide +kernel
  rw [this]
  simp

/-! ### C37: cells -/

section
variable {K : Type _} [Field K] [LinearOrder K] [IsStrictOrderedRing K]

theorem takeWhile_range (P : Nat → Bool) (n j : Nat) :
    j ∈ (List.range n).takeWhile P ↔ j < n ∧ ∀ k, k ≤ j → P k := by
  induction n generalizing P j with
  | zero => simp
  | succ n ih =>
    rw [List.range_succ_eq_map, List.takeWhile_cons]
    by_cases h : P 0
    · rw [if_pos h, List.takeWhile_map]
      cases j with
      | zero =>
        simp only [List.mem_cons, true_or, true_iff]
        exact ⟨Nat.succ_pos n, fun k hk => by rw [Nat.le_zero.mp hk]; exact h⟩
      | succ j =>
        have := ih (P ∘ Nat.succ) j
        rw [List.mem_cons, List.mem_map]
        constructor
        · rintro (h' | ⟨x, hx, e⟩)
          · omega
          · have e : x = j := by simpa using e
            subst e
            obtain ⟨a, b⟩ := this.mp hx
            refine ⟨by omega, fun k hk => ?_⟩
            cases k with
            | zero => exact h
            | succ k => exact b k (by omega)
        · rintro ⟨a, b⟩
          exact .inr ⟨j, this.mpr ⟨by omega, fun k hk => b (k + 1) (by omega)⟩, rfl⟩
    · rw [if_neg h]
      simp only [List.not_mem_nil, false_iff, not_and]
      intro _ hh
      exact h (hh 0 (Nat.zero_le j))

/-- C37, the part that holds: a cell takes part in the collisions exactly if it *and all the cells before it in its row*
have normal temperatures and densities; other rows have no influence. -/
theorem C37_partial (massEl massIon : K) (nr nz : Nat) (els ions : Nat → Nat → List (Part K)) (i j : Nat) :
    (i, j) ∈ visited massEl massIon nr nz els ions ↔
      (i < nr ∧ j < nz) ∧ ∀ k, k ≤ j → normal massEl massIon (els i k) (ions i k) := by
  unfold visited
  rw [List.mem_flatMap]
  constructor
  · rintro ⟨a, ha, h⟩
    obtain ⟨b, hb, e⟩ := List.mem_map.mp h
    obtain ⟨rfl, rfl⟩ := Prod.mk.injEq .. ▸ e
    rw [List.mem_range] at ha
    rw [takeWhile_range] at hb
    exact ⟨⟨ha, hb.1⟩, hb.2⟩
  · rintro ⟨⟨hi, hj⟩, h⟩
    refine ⟨i, List.mem_range.mpr hi, List.mem_map.mpr ⟨j, ?_, rfl⟩⟩
    rw [takeWhile_range]
    exact ⟨hj, h⟩

/-- The checks, for particles of positive weights and masses: some electron and some ion of the cell move. -/
theorem normal_moving {massEl massIon : K} (h1 : 0 < massEl) (h2 : 0 < massIon) {els ions : List (Part K)}
    (w1 : ∀ p ∈ els, 0 < p.weight) (w2 : ∀ p ∈ ions, 0 < p.weight) :
    normal massEl massIon els ions = true ↔ (∃ p ∈ els, ¬ (p.velR = 0 ∧ p.velPhi = 0 ∧ p.velZ = 0)) ∧
      ∃ p ∈ ions, ¬ (p.velR = 0 ∧ p.velPhi = 0 ∧ p.velZ = 0) := by
  have gen : ∀ (f : Part K → K) (l : List (Part K)) (s : K), 0 ≤ s → (∀ p ∈ l, 0 ≤ f p) →
      0 ≤ l.foldl (fun s p => s + f p) s ∧ (l.foldl (fun s p => s + f p) s ≠ 0 ↔ s ≠ 0 ∨ ∃ p ∈ l, f p ≠ 0) := by
    intro f l
    induction l with
    | nil => intro s hs _; simp [hs]
    | cons a l ih =>
      intro s hs hl
      have ha := hl a (List.mem_cons_self ..)
      obtain ⟨i1, i2⟩ := ih (s + f a) (by linarith) (fun p hp => hl p (List.mem_cons_of_mem _ hp))
      refine ⟨i1, ?_⟩
      rw [List.foldl_cons, i2]
      constructor
      · rintro (k | ⟨p, hp, k⟩)
        · by_cases s0 : s = 0
          · exact .inr ⟨a, List.mem_cons_self .., fun k' => k (by rw [s0, k', add_zero])⟩
          · exact .inl s0
        · exact .inr ⟨p, List.mem_cons_of_mem _ hp, k⟩
      · rintro (k | ⟨p, hp, k⟩)
        · have : 0 < s := lt_of_le_of_ne hs (Ne.symm k)
          exact .inl (by linarith)
        · rcases List.mem_cons.mp hp with rfl | hp
          · have : 0 < f p := lt_of_le_of_ne ha (Ne.symm k)
            exact .inl (by linarith)
          · exact .inr ⟨p, hp, k⟩
  have one : ∀ (m : K) (l : List (Part K)), 0 < m → (∀ p ∈ l, 0 < p.weight) →
      ((amountTot l ≠ 0 ∧ energyTot m l ≠ 0) ↔ ∃ p ∈ l, ¬ (p.velR = 0 ∧ p.velPhi = 0 ∧ p.velZ = 0)) := by
    intro m l hm hw
    unfold amountTot energyTot
    have sq : ∀ p : Part K, 0 ≤ p.velR * p.velR + p.velPhi * p.velPhi + p.velZ * p.velZ := fun p => by
      have := mul_self_nonneg p.velR
      have := mul_self_nonneg p.velPhi
      have := mul_self_nonneg p.velZ
      linarith
    rw [(gen (fun p => p.weight) l 0 le_rfl (fun p hp => (hw p hp).le)).2,
      (gen (fun p => p.weight * m * (p.velR * p.velR + p.velPhi * p.velPhi + p.velZ * p.velZ) / 2) l 0 le_rfl (fun p hp => by
        have := hw p hp
        have := sq p
        positivity)).2]
    simp only [ne_eq, not_true_eq_false, false_or]
    have zero : ∀ p ∈ l, (p.weight * m * (p.velR * p.velR + p.velPhi * p.velPhi + p.velZ * p.velZ) / 2 = 0 ↔
        p.velR = 0 ∧ p.velPhi = 0 ∧ p.velZ = 0) := by
      intro p hp
      have hwp := hw p hp
      constructor
      · intro h
        have : p.velR * p.velR + p.velPhi * p.velPhi + p.velZ * p.velZ = 0 := by
          have c : p.weight * m / 2 ≠ 0 := by positivity
          apply mul_left_cancel₀ c
          rw [mul_zero, ← h]; ring
        have a1 := mul_self_nonneg p.velR
        have a2 := mul_self_nonneg p.velPhi
        have a3 := mul_self_nonneg p.velZ
        exact ⟨mul_self_eq_zero.mp (by linarith), mul_self_eq_zero.mp (by linarith), mul_self_eq_zero.mp (by linarith)⟩
      · rintro ⟨a1, a2, a3⟩
        rw [a1, a2, a3]; ring
    constructor
    · rintro ⟨_, p, hp, k⟩
      exact ⟨p, hp, fun k' => k ((zero p hp).mpr k')⟩
    · rintro ⟨p, hp, k⟩
      exact ⟨⟨p, hp, (hw p hp).ne'⟩, p, hp, fun k' => k ((zero p hp).mp k')⟩
  unfold normal
  rw [decide_eq_true_eq, ← one massEl els h1 w1, ← one massIon ions h2 w2]
  tauto

/-- C37 in terms of the particles: for positive weights and masses a cell takes part in the collisions exactly if in it and
in all the cells before it in its row some electron and some ion move. -/
theorem C37_moving_partial {massEl massIon : K} (h1 : 0 < massEl) (h2 : 0 < massIon) (nr nz : Nat)
    (els ions : Nat → Nat → List (Part K)) (w1 : ∀ i j, ∀ p ∈ els i j, 0 < p.weight) (w2 : ∀ i j, ∀ p ∈ ions i j, 0 < p.weight)
    (i j : Nat) : (i, j) ∈ visited massEl massIon nr nz els ions ↔ i < nr ∧ j < nz ∧ ∀ k, k ≤ j →
      (∃ p ∈ els i k, ¬ (p.velR = 0 ∧ p.velPhi = 0 ∧ p.velZ = 0)) ∧ ∃ p ∈ ions i k, ¬ (p.velR = 0 ∧ p.velPhi = 0 ∧ p.velZ = 0) := by
  rw [C37_partial, and_assoc]
  simp only [normal_moving h1 h2 (w1 i _) (w2 i _)]

/-- C37 fails: a cell without ions (or without electrons) keeps all the cells after it in the row from colliding, whatever
they contain. -/
theorem C37_fails (massEl massIon : K) (nr nz : Nat) (els ions : Nat → Nat → List (Part K)) (i j0 j : Nat)
    (h : ions i j0 = [] ∨ els i j0 = []) (hj : j0 ≤ j) : (i, j) ∉ visited massEl massIon nr nz els ions := by
  rw [C37_partial]
  rintro ⟨_, hh⟩
  have := hh j0 hj
  rcases h with h | h <;> simp [normal, h, amountTot] at this

/-- Neither is the loop vacuous: a cell with one moving ion and one moving electron is visited ... -/
example : (0, 0) ∈ visited (1 : ℚ) 1836 1 2 (fun _ _ => [⟨0, 0, 0, 0, 0, 0, 1, 0, 0, 5, 0, 0, 0, 0, 0⟩])
    (fun _ _ => [⟨0, 0, 0, 0, 0, 0, 0, 2, 0, 5, 0, 0, 0, 0, 0⟩]) := by
  rw [C37_partial]
  refine ⟨by decide, fun k _ => by simp [normal, amountTot, energyTot]⟩

example := C37_moving_partial (massEl := (1 : ℚ)) (massIon := 1836) (by norm_num) (by norm_num) 1 2
    (fun _ _ => [⟨0, 0, 0, 0, 0, 0, 0, 0, 1, 5, 0, 0, 0, 0, 0⟩]) (fun _ _ => [⟨0, 0, 0, 0, 0, 0, 0, 2, 0, 5, 0, 0, 0, 0, 0⟩])
    (by simp) (by simp) 0 1

/-- ... and is not if its left neighbour is empty. -/
example : (0, 1) ∉ visited (1 : ℚ) 1836 1 2 (fun _ j => if j = 0 then [] else [⟨0, 0, 0, 0, 0, 0, 1, 0, 0, 5, 0, 0, 0, 0, 0⟩])
    (fun _ _ => [⟨0, 0, 0, 0, 0, 0, 0, 2, 0, 5, 0, 0, 0, 0, 0⟩]) :=
  C37_fails _ _ _ _ _ _ 0 0 1 (.inr rfl) (by decide)
end

/-! ### C41: sorting -/

section
variable {K : Type _} (heap : Nat → Part K)

/-- Maps with given cells. -/
def mk (nr nz : Nat) (c : (Nat → Nat → List Nat) × (Nat → Nat → List Nat)) : Maps :=
  ⟨⟨2, nr, nz, c.1⟩, ⟨2, nr, nz, c.2⟩⟩

theorem shape_mk {nr nz : Nat} {m : Maps} (h : m.Shape nr nz) : m = mk nr nz (m.el.cell, m.ion.cell) := by
  obtain ⟨⟨o, x, y, c⟩, ⟨o', x', y', c'⟩⟩ := m
  obtain ⟨⟨h1, h2, h3⟩, h4, h5, h6⟩ := h
  dsimp only at h1 h2 h3 h4 h5 h6
  subst h1 h2 h3 h4 h5 h6
  rfl

theorem uidx_nat (i : Nat) (h : i + 2 < 2 ^ 32) : Grid.uidx i 2 = i + 2 := by
  rw [Grid.uidx_nonneg _ _ (by omega) (by omega)]
  omega

theorem get_mk_el {nr nz : Nat} (hs : nr + 4 < 2 ^ 31 ∧ nz + 4 < 2 ^ 31) (c) {i j : Nat} (hi : i < nr) (hj : j < nz) :
    (mk nr nz c : Maps).el.get i j = .ok (c.1 (i + 2) (j + 2)) := by
  unfold Grid.get
  change Grid.rd _ (Grid.uidx _ 2) (Grid.uidx _ 2) = _
  rw [uidx_nat i (by omega), uidx_nat j (by omega), Grid.rd_ok _ (by simp only [Grid.xr, mk]; omega) (by simp only [Grid.yr, mk]; omega)]
  rfl

theorem get_mk_ion {nr nz : Nat} (hs : nr + 4 < 2 ^ 31 ∧ nz + 4 < 2 ^ 31) (c) {i j : Nat} (hi : i < nr) (hj : j < nz) :
    (mk nr nz c : Maps).ion.get i j = .ok (c.2 (i + 2) (j + 2)) := by
  unfold Grid.get
  change Grid.rd _ (Grid.uidx _ 2) (Grid.uidx _ 2) = _
  rw [uidx_nat i (by omega), uidx_nat j (by omega), Grid.rd_ok _ (by simp only [Grid.xr, mk]; omega) (by simp only [Grid.yr, mk]; omega)]
  rfl

/-- One cell changed. -/
def put1 {α : Type _} (c : Nat → Nat → α) (i j : Nat) (v : α) : Nat → Nat → α := fun a b => if a = i ∧ b = j then v else c a b

theorem clear_ok {nr nz : Nat} (hs : nr + 4 < 2 ^ 31 ∧ nz + 4 < 2 ^ 31) (c : (Nat → Nat → List Nat) × (Nat → Nat → List Nat)) :
    ∃ d, clear nr nz (mk nr nz c) = .ok (mk nr nz d) ∧ ∀ i j, i < nr → j < nz → d.1 (i + 2) (j + 2) = [] ∧ d.2 (i + 2) (j + 2) = [] := by
  refine ⟨_, loop_map _ (mk nr nz) (fun c p => (put1 c.1 (p.1 + 2) (p.2 + 2) [], put1 c.2 (p.1 + 2) (p.2 + 2) [])) (idx2 0 nr 0 nz) ?_ c, ?_⟩
  · intro p hp c
    rw [mem_idx2] at hp
    unfold Grid.set
    change Grid.wr _ (Grid.uidx _ 2) (Grid.uidx _ 2) _ >>= _ = _
    rw [uidx_nat _ (by omega), uidx_nat _ (by omega), Grid.wr_ok _ _ (by simp only [Grid.xr, mk]; omega) (by simp only [Grid.yr, mk]; omega),
      Res.ok_bind]
    change Grid.wr _ (Grid.uidx _ 2) (Grid.uidx _ 2) _ >>= _ = _
    rw [uidx_nat _ (by omega), uidx_nat _ (by omega), Grid.wr_ok _ _ (by simp only [Grid.xr, mk]; omega) (by simp only [Grid.yr, mk]; omega),
      Res.ok_bind]
    rfl
  · intro i j hi hj
    have mem : (i, j) ∈ idx2 0 nr 0 nz := mem_idx2.mpr ⟨⟨Nat.zero_le _, hi⟩, Nat.zero_le _, hj⟩
    have key : ∀ (l : List (Nat × Nat)) (c : (Nat → Nat → List Nat) × (Nat → Nat → List Nat)),
        ((i, j) ∈ l ∨ (c.1 (i + 2) (j + 2) = [] ∧ c.2 (i + 2) (j + 2) = [])) →
        (l.foldl (fun c p => (put1 c.1 (p.1 + 2) (p.2 + 2) [], put1 c.2 (p.1 + 2) (p.2 + 2) [])) c).1 (i + 2) (j + 2) = [] ∧
        (l.foldl (fun c p => (put1 c.1 (p.1 + 2) (p.2 + 2) [], put1 c.2 (p.1 + 2) (p.2 + 2) [])) c).2 (i + 2) (j + 2) = [] := by
      intro l
      induction l with
      | nil => intro c h; rcases h with h | h; simp at h; exact h
      | cons q l ih =>
        intro c h
        rw [List.foldl_cons]
        apply ih
        by_cases e : i + 2 = q.1 + 2 ∧ j + 2 = q.2 + 2
        · right
          simp [put1, e]
        · rcases h with h | h
          · left
            rcases List.mem_cons.mp h with h | h
            · exact absurd (by rw [← h]; exact ⟨rfl, rfl⟩) e
            · exact h
          · right
            simp only [put1, if_neg e]
            exact h
    exact key _ _ (.inl mem)

theorem toInt_small {n : Nat} (h : n < 2 ^ 31) : toInt n = n := by
  unfold toInt
  have : ((n : Int)) % 2 ^ 32 = n := Int.emod_eq_of_lt (by omega) (by omega)
  simp only [this]
  rw [if_pos (by omega)]

/-- Effect of `sortOne` on the cells. -/
def sortPure (r0 z0 : Nat) (ion : Bool) (c : (Nat → Nat → List Nat) × (Nat → Nat → List Nat)) (p : Nat) :
    (Nat → Nat → List Nat) × (Nat → Nat → List Nat) :=
  let i := (heap p).cellR - r0 + 2
  let k := (heap p).cellZ - z0 + 2
  if ion then (c.1, put1 c.2 i k (c.2 i k ++ [p])) else (put1 c.1 i k (c.1 i k ++ [p]), c.2)

theorem sortOne_ok {r0 z0 nr nz : Nat} (hs : r0 + nr + 4 < 2 ^ 31 ∧ z0 + nz + 4 < 2 ^ 31) (ion : Bool) {p : Nat} (hp : Bound r0 z0 nr nz (heap p)) (c) :
    sortOne heap r0 z0 ion p (mk nr nz c) = .ok (mk nr nz (sortPure heap r0 z0 ion c p)) := by
  obtain ⟨⟨h1, h2⟩, h3, h4⟩ := hp
  unfold sortOne
  rw [toInt_small (by omega), toInt_small (by omega)]
  have e1 : ((heap p).cellR : Int) - r0 = (((heap p).cellR - r0 : Nat) : Int) := by omega
  have e2 : ((heap p).cellZ : Int) - z0 = (((heap p).cellZ - z0 : Nat) : Int) := by omega
  rw [e1, e2]
  unfold sortPure
  cases ion
  · simp only [Bool.false_eq_true, if_false]
    change Grid.upd _ (Grid.uidx _ 2) (Grid.uidx _ 2) _ >>= _ = _
    rw [uidx_nat _ (by omega), uidx_nat _ (by omega), Grid.upd_ok _ _ (by simp only [Grid.xr, mk]; omega) (by simp only [Grid.yr, mk]; omega),
      Res.ok_bind]
    rfl
  · simp only [if_true]
    change Grid.upd _ (Grid.uidx _ 2) (Grid.uidx _ 2) _ >>= _ = _
    rw [uidx_nat _ (by omega), uidx_nat _ (by omega), Grid.upd_ok _ _ (by simp only [Grid.xr, mk]; omega) (by simp only [Grid.yr, mk]; omega),
      Res.ok_bind]
    rfl

theorem sort_one_specie {r0 z0 nr nz : Nat} (ion : Bool) (l : List Nat) (hl : ∀ p ∈ l, Bound r0 z0 nr nz (heap p))
    (c : (Nat → Nat → List Nat) × (Nat → Nat → List Nat)) (i j : Nat) :
    (l.foldl (sortPure heap r0 z0 ion) c).1 (i + 2) (j + 2) =
      c.1 (i + 2) (j + 2) ++ (if ion then [] else l.filter fun p => (heap p).cellR == r0 + i && (heap p).cellZ == z0 + j) ∧
    (l.foldl (sortPure heap r0 z0 ion) c).2 (i + 2) (j + 2) =
      c.2 (i + 2) (j + 2) ++ (if ion then l.filter fun p => (heap p).cellR == r0 + i && (heap p).cellZ == z0 + j else []) := by
  induction l generalizing c with
  | nil => cases ion <;> simp
  | cons p l ih =>
    rw [List.foldl_cons]
    obtain ⟨a, b⟩ := ih (fun q hq => hl q (List.mem_cons_of_mem _ hq)) (sortPure heap r0 z0 ion c p)
    rw [a, b]
    obtain ⟨⟨h1, h2⟩, h3, h4⟩ := hl p List.mem_cons_self
    have iff : (i + 2 = (heap p).cellR - r0 + 2 ∧ j + 2 = (heap p).cellZ - z0 + 2) ↔ ((heap p).cellR = r0 + i ∧ (heap p).cellZ = z0 + j) := by omega
    by_cases e : (heap p).cellR = r0 + i ∧ (heap p).cellZ = z0 + j
    · have e' := iff.mpr e
      have t : ((heap p).cellR == r0 + i && (heap p).cellZ == z0 + j) = true := by simp [e]
      rw [List.filter_cons, if_pos t]
      cases ion <;> simp [sortPure, put1, ← e'.1, ← e'.2]
    · have e' := fun h => e (iff.mp h)
      have t : ¬ ((heap p).cellR == r0 + i && (heap p).cellZ == z0 + j) = true := by simpa using e
      rw [List.filter_cons, if_neg t]
      cases ion <;> simp only [sortPure, put1, Bool.false_eq_true, if_false, if_true, if_neg e', List.append_nil, and_self]

theorem sort_ok {r0 z0 nr nz : Nat} (hs : r0 + nr + 4 < 2 ^ 31 ∧ z0 + nz + 4 < 2 ^ 31) (sp : List Species)
    (hp : ∀ s ∈ sp, ∀ p ∈ s.particles, Bound r0 z0 nr nz (heap p)) (c : (Nat → Nat → List Nat) × (Nat → Nat → List Nat)) :
    ∃ d, sortToCells heap r0 z0 sp (mk nr nz c) = .ok (mk nr nz d) ∧ ∀ i j,
      d.1 (i + 2) (j + 2) = c.1 (i + 2) (j + 2) ++ boundTo heap false sp (r0 + i) (z0 + j) ∧
      d.2 (i + 2) (j + 2) = c.2 (i + 2) (j + 2) ++ boundTo heap true sp (r0 + i) (z0 + j) := by
  induction sp generalizing c with
  | nil => exact ⟨c, rfl, fun i j => by simp [boundTo]⟩
  | cons s sp ih =>
    have one := loop_map (sortOne heap r0 z0 (isIon s.name)) (mk nr nz) (sortPure heap r0 z0 (isIon s.name)) s.particles
      (fun p hpp c => sortOne_ok heap hs _ (hp s List.mem_cons_self p hpp) c) c
    obtain ⟨d, e, h⟩ := ih (fun s hs => hp s (List.mem_cons_of_mem _ hs)) (s.particles.foldl (sortPure heap r0 z0 (isIon s.name)) c)
    refine ⟨d, ?_, fun i j => ?_⟩
    · unfold sortToCells at e ⊢
      rw [loop_cons, one, Res.ok_bind, e]
    · obtain ⟨h1, h2⟩ := h i j
      obtain ⟨k1, k2⟩ := sort_one_specie heap (nr := nr) (nz := nz) (isIon s.name) s.particles (hp s List.mem_cons_self) c i j
      rw [h1, h2, k1, k2, List.append_assoc, List.append_assoc]
      unfold boundTo
      rw [List.filter_cons, List.filter_cons]
      have nm : (s.name == "ions" || s.name == "Ions") = isIon s.name := rfl
      rw [nm]
      cases isIon s.name <;> simp

/-- C41: whatever the lists contained before, after clearing, sorting and shuffling the list of ions of a cell is a
permutation of the particles of the species named `ions` or `Ions` bound to that cell, and the list of electrons one of
the particles of all other species bound to it.  The particles are bound to cells of the domain. -/
theorem C41_partial {r0 z0 nr nz : Nat} (hs : r0 + nr + 4 < 2 ^ 31 ∧ z0 + nz + 4 < 2 ^ 31) (sp : List Species)
    (hp : ∀ s ∈ sp, ∀ p ∈ s.particles, Bound r0 z0 nr nz (heap p)) {m : Maps} (hm : m.Shape nr nz) :
    ∃ m', (clear nr nz m >>= sortToCells heap r0 z0 sp) = .ok m' ∧ ∀ m'', Shuffled nr nz m' m'' → m''.Shape nr nz ∧ ∀ i j, i < nr → j < nz →
      (∃ l, m''.ion.get i j = .ok l ∧ l.Perm (boundTo heap true sp (r0 + i) (z0 + j))) ∧
      (∃ l, m''.el.get i j = .ok l ∧ l.Perm (boundTo heap false sp (r0 + i) (z0 + j))) := by
  rw [shape_mk hm]
  have hs' : nr + 4 < 2 ^ 31 ∧ nz + 4 < 2 ^ 31 := by omega
  obtain ⟨c, e, hc⟩ := clear_ok hs' (m.el.cell, m.ion.cell)
  obtain ⟨d, e', hd⟩ := sort_ok heap hs sp hp c
  refine ⟨mk nr nz d, by rw [e, Res.ok_bind, e'], ?_⟩
  rintro m'' ⟨⟨s1, s2⟩, sh⟩
  rw [Prod.mk.injEq, Prod.mk.injEq] at s1 s2
  refine ⟨⟨s1, s2⟩, ?_⟩
  intro i j hi hj
  obtain ⟨⟨a, b, ha, hb, hab⟩, a', b', ha', hb', hab'⟩ := sh i j hi hj
  rw [get_mk_el hs' d hi hj] at ha
  rw [get_mk_ion hs' d hi hj] at ha'
  injection ha with ha
  injection ha' with ha'
  refine ⟨⟨b', hb', ?_⟩, b, hb, ?_⟩
  · rw [← ha', (hd i j).2, (hc i j hi hj).2, List.nil_append] at hab'
    exact hab'.symm
  · rw [← ha, (hd i j).1, (hc i j hi hj).1, List.nil_append] at hab
    exact hab.symm

/-- The lists are a partition: a particle bound to a cell of the domain is in the list of exactly that cell and of exactly
one kind. -/
theorem C41_partition {r0 z0 nr nz : Nat} (sp : List Species) (hp : ∀ s ∈ sp, ∀ p ∈ s.particles, Bound r0 z0 nr nz (heap p)) (p : Nat) :
    (∃ s ∈ sp, p ∈ s.particles) ↔ ∃ i j ion, i < nr ∧ j < nz ∧ p ∈ boundTo heap ion sp (r0 + i) (z0 + j) ∧
      ∀ i' j', p ∈ boundTo heap true sp (r0 + i') (z0 + j') ∨ p ∈ boundTo heap false sp (r0 + i') (z0 + j') → i' = i ∧ j' = j := by
  unfold boundTo
  constructor
  · rintro ⟨s, hs, hps⟩
    obtain ⟨⟨h1, h2⟩, h3, h4⟩ := hp s hs p hps
    refine ⟨(heap p).cellR - r0, (heap p).cellZ - z0, (s.name == "ions" || s.name == "Ions"), by omega, by omega, ?_, ?_⟩
    · rw [List.mem_filter, List.mem_flatMap]
      refine ⟨⟨s, List.mem_filter.mpr ⟨hs, by simp⟩, hps⟩, ?_⟩
      simp only [Bool.and_eq_true, beq_iff_eq]
      omega
    · intro i' j' h
      have : (heap p).cellR = r0 + i' ∧ (heap p).cellZ = z0 + j' := by
        rcases h with h | h <;> simpa using (List.mem_filter.mp h).2
      omega
  · rintro ⟨i, j, ion, _, _, h, _⟩
    obtain ⟨s, hs, hps⟩ := List.mem_flatMap.mp (List.mem_filter.mp h).1
    exact ⟨s, (List.mem_filter.mp hs).1, hps⟩

/-- C41 fails for the kinds: the particles of an ion species with another name than `ions` or `Ions` are among the
electrons. -/
theorem C41_kind_fails (s : Species) (h1 : s.name ≠ "ions") (h2 : s.name ≠ "Ions") (r z : Nat) :
    boundTo heap false [s] r z = s.particles.filter (fun p => (heap p).cellR == r && (heap p).cellZ == z) ∧ boundTo heap true [s] r z = [] := by
  simp [boundTo, h1, h2]

/-- C41 fails for particles with a wrong cell number (`C35_beam_fails`): beyond the overlay the sorting writes outside of
the array. -/
theorem C41_outside_fails {r0 z0 nr nz : Nat} (hs : r0 + nr + 4 < 2 ^ 31 ∧ z0 + nz + 4 < 2 ^ 31) (ion : Bool) (p : Nat)
    (h : z0 + nz + 2 ≤ (heap p).cellZ) (h' : (heap p).cellZ < 2 ^ 31) {m : Maps} (hm : m.Shape nr nz) :
    sortOne heap r0 z0 ion p m = .ub := by
  rw [shape_mk hm]
  generalize (m.el.cell, m.ion.cell) = c
  unfold sortOne
  rw [toInt_small h']
  have e2 : ((heap p).cellZ : Int) - z0 = (((heap p).cellZ - z0 : Nat) : Int) := by omega
  rw [e2]
  cases ion
  · simp only [Bool.false_eq_true, if_false]
    change Grid.upd _ _ (Grid.uidx _ 2) _ >>= _ = _
    rw [uidx_nat _ (by omega), Grid.upd_ub _ _ (by simp only [Grid.yr, mk]; omega)]
    rfl
  · simp only [if_true]
    change Grid.upd _ _ (Grid.uidx _ 2) _ >>= _ = _
    rw [uidx_nat _ (by omega), Grid.upd_ub _ _ (by simp only [Grid.yr, mk]; omega)]
    rfl

/-- Non-vacuity: a domain away from the origin with two species and leftovers. -/
def exHeap (t : Nat) : Part ℚ :=
  if t = 0 then ⟨0, 0, 0, 0, 0, 0, 0, 2, 0, 5, 0, 4, 9, 0, 0⟩ else if t = 1 then ⟨0, 0, 0, 0, 0, 0, 0, 2, 0, 5, 0, 5, 8, 0, 0⟩
  else ⟨0, 0, 0, 0, 0, 0, 0, 7, 0, 5, 0, 4, 9, 0, 0⟩
def exSpecies : List Species := [⟨"Ions", [0, 1]⟩, ⟨"electrons", [2]⟩]
example := C41_partial exHeap (r0 := 4) (z0 := 8) (nr := 2) (nz := 2) (by decide) exSpecies (by simp [exSpecies, Bound, exHeap])
  (m := mk 2 2 (fun _ _ => [0], fun _ _ => [])) ⟨⟨rfl, rfl, rfl⟩, rfl, rfl, rfl⟩
example : boundTo exHeap false exSpecies 4 9 = [2] ∧ boundTo exHeap true exSpecies 4 9 = [0] ∧ boundTo exHeap true exSpecies 4 8 = [] := by
  decide
end

end Coll
end Pico
