import Verif.Spec.TestRun
import Mathlib.Tactic.Ring
import Mathlib.Tactic.FieldSimp
import Mathlib.Tactic.Linarith
import Mathlib.Tactic.NormNum
import Mathlib.Tactic.LinearCombination

/-! # C136: what the functional test tells -/

set_option linter.unusedSimpArgs false
set_option linter.unusedVariables false
set_option linter.unusedSectionVars false

namespace Pico
namespace TestRun

theorem sum_dev (l : List ℝ) (m : ℝ) :
    (l.map fun x => (x - m) ^ 2).sum = (l.map (· ^ 2)).sum - 2 * m * l.sum + l.length * m ^ 2 := by
  induction l with
  | nil => simp
  | cons a l ih =>
    simp only [List.map_cons, List.sum_cons, List.length_cons, ih]
    push_cast
    ring

theorem nanmean_some {d : List Cell} (h : d.reduceOption ≠ []) : nanmean d = some (average d.reduceOption) := by
  unfold nanmean
  exact if_neg h

theorem nanmean_none {d : List Cell} (h : d.reduceOption = []) : nanmean d = none := by
  unfold nanmean
  exact if_pos h

theorem nanvar_some {d : List Cell} (h : d.reduceOption ≠ []) : nanvar d = some (variance d.reduceOption) := by
  unfold nanvar
  rw [nanmean_some h, Option.map_some]
  congr 1
  show ((d.reduceOption).map fun x => (x - _) ^ 2).sum / ((d.reduceOption).length : ℝ) = _
  rw [sum_dev]
  unfold variance average
  have hn : ((d.reduceOption).length : ℝ) ≠ 0 := by
    rw [Nat.cast_ne_zero]
    exact fun q => h (List.length_eq_zero_iff.1 q)
  field_simp
  ring

theorem nanvar_none {d : List Cell} (h : d.reduceOption = []) : nanvar d = none := by
  unfold nanvar; rw [nanmean_none h]; rfl

theorem fetch_iff {f : File} {c : String} {number : Nat} {d : List Cell} : fetch f c number = some d ↔
    ∃ frames frame, f c = some frames ∧ frames[number]? = some frame ∧ frame.flatten = d := by
  unfold fetch
  constructor
  · intro h
    obtain ⟨frames, h1, h⟩ := Option.bind_eq_some_iff.1 h
    obtain ⟨frame, h2, h3⟩ := Option.bind_eq_some_iff.1 h
    exact ⟨frames, frame, h1, h2, Option.some.inj h3⟩
  · rintro ⟨frames, frame, h1, h2, rfl⟩
    rw [h1, Option.bind_some, h2, Option.bind_some]

theorem numbers_iff {f : File} {c : String} {number : Nat} {l : List ℝ} : Numbers f number c l ↔
    ∃ d, fetch f c number = some d ∧ d.reduceOption = l := by
  constructor
  · rintro ⟨frames, frame, h1, h2, h3⟩
    exact ⟨_, fetch_iff.2 ⟨frames, frame, h1, h2, rfl⟩, h3⟩
  · rintro ⟨d, h, h3⟩
    obtain ⟨frames, frame, h1, h2, rfl⟩ := fetch_iff.1 h
    exact ⟨frames, frame, h1, h2, h3⟩

theorem Numbers.unique {f : File} {c : String} {number : Nat} {l l' : List ℝ} (h : Numbers f number c l)
    (h' : Numbers f number c l') : l = l' := by
  obtain ⟨d, e, r⟩ := numbers_iff.1 h
  obtain ⟨d', e', r'⟩ := numbers_iff.1 h'
  obtain rfl : d = d' := Option.some.inj (e.symm.trans e')
  exact r.symm.trans r'

theorem allclose_iff (r : ℝ) (a b : Cell) : allclose r 0 a b = true ↔ ∃ x y, a = some x ∧ b = some y ∧ Close r x y := by
  cases a with
  | none =>
    constructor
    · intro h; exact absurd h (by simp [allclose])
    · rintro ⟨x, y, h, _⟩; cases h
  | some x =>
    cases b with
    | none =>
      constructor
      · intro h; exact absurd h (by simp [allclose])
      · rintro ⟨x, y, _, h, _⟩; cases h
    | some y =>
      unfold allclose Close
      rw [decide_eq_true_iff, zero_add]
      constructor
      · intro h; exact ⟨x, y, rfl, rfl, h⟩
      · rintro ⟨x', y', h1, h2, h3⟩
        obtain rfl := Option.some.inj h1
        obtain rfl := Option.some.inj h2
        exact h3

/-- Result for one component, from its numbers and the stored values. -/
theorem compare_eq (r : ℝ) {f : File} {known : Known} {number : Nat} {c : String} {l : List ℝ} {m s v : Cell}
    (h : Numbers f number c l) (hk : Stored known c m s v) :
    ∃ b, compare r 0 f known number c = some b ∧ (b = true ↔ l ≠ [] ∧ ∃ s' v', s = some s' ∧ v = some v' ∧
      Close r (Real.sqrt (variance l)) s' ∧ Close r (variance l) v') := by
  obtain ⟨d, e, rfl⟩ := numbers_iff.1 h
  obtain ⟨rest, hk⟩ := hk
  refine ⟨if allclose r 0 (nanstd d) s = true then allclose r 0 (nanvar d) v else allclose r 0 (nanstd d) s, ?_, ?_⟩
  · unfold compare
    rw [e, hk]
    rfl
  · have key : (if allclose r 0 (nanstd d) s = true then allclose r 0 (nanvar d) v else allclose r 0 (nanstd d) s) = true ↔
        allclose r 0 (nanstd d) s = true ∧ allclose r 0 (nanvar d) v = true := by
      by_cases q : allclose r 0 (nanstd d) s = true
      · rw [if_pos q]; exact ⟨fun w => ⟨q, w⟩, fun w => w.2⟩
      · rw [if_neg q]; exact ⟨fun w => absurd w q, fun w => w.1⟩
    rw [key, allclose_iff, allclose_iff]
    by_cases hd : d.reduceOption = []
    · have : nanstd d = none := by unfold nanstd; rw [nanvar_none hd]; rfl
      rw [this]
      constructor
      · rintro ⟨⟨x, y, w, _⟩, _⟩; cases w
      · rintro ⟨w, _⟩; exact absurd hd w
    · have e2 := nanvar_some hd
      have e1 : nanstd d = some (Real.sqrt (variance d.reduceOption)) := by unfold nanstd; rw [e2]; rfl
      rw [e1, e2]
      constructor
      · rintro ⟨⟨x, y, w1, w2, w3⟩, x', y', u1, u2, u3⟩
        obtain rfl := Option.some.inj w1
        obtain rfl := Option.some.inj u1
        exact ⟨hd, y, y', w2, u2, w3, u3⟩
      · rintro ⟨_, s', v', w1, w2, w3, w4⟩
        exact ⟨⟨_, s', rfl, w1, w3⟩, _, v', rfl, w2, w4⟩

theorem compare_some {r : ℝ} {f : File} {known : Known} {number : Nat} {c : String} {b : Bool}
    (h : compare r 0 f known number c = some b) : (∃ l, Numbers f number c l) ∧ ∃ m s v, Stored known c m s v := by
  unfold compare at h
  obtain ⟨d, h1, h⟩ := Option.bind_eq_some_iff.1 h
  obtain ⟨t, h2, h⟩ := Option.bind_eq_some_iff.1 h
  obtain ⟨m, h3, h⟩ := Option.bind_eq_some_iff.1 h
  obtain ⟨s, h4, h⟩ := Option.bind_eq_some_iff.1 h
  obtain ⟨v, h5, h⟩ := Option.bind_eq_some_iff.1 h
  refine ⟨⟨_, numbers_iff.2 ⟨d, h1, rfl⟩⟩, m, s, v, ?_⟩
  match t, h3, h4, h5 with
  | a :: b :: c' :: rest, h3, h4, h5 =>
    obtain rfl : a = m := by simpa using h3
    obtain rfl : b = s := by simpa using h4
    obtain rfl : c' = v := by simpa using h5
    exact ⟨rest, h2⟩
  | [a, b], _, _, h5 => simp at h5
  | [a], _, h4, _ => simp at h4
  | [], h3, _, _ => simp at h3

theorem compareAll_iff (r : ℝ) (f : File) (known : Known) (number : Nat) (cs : List String) (b x : Bool) :
    compareAll r 0 f known number cs b = some x ↔ (∀ c ∈ cs, ∃ y, compare r 0 f known number c = some y) ∧
      (x = true ↔ b = true ∧ ∀ c ∈ cs, compare r 0 f known number c = some true) := by
  induction cs generalizing b with
  | nil =>
    unfold compareAll
    cases b <;> cases x <;> simp
  | cons c cs ih =>
    unfold compareAll
    cases e : compare r 0 f known number c with
    | none =>
      simp [e]
    | some y =>
      rw [Option.bind_some, ih]
      simp only [List.forall_mem_cons, e]
      cases b <;> cases y <;> simp

theorem testExample_iff (r : ℝ) (f : File) (known : Known) (number : Nat) (x : Bool) :
    testExample r f known number = some x ↔ Complete f known number ∧ (x = true ↔ Agrees r f known number) := by
  unfold testExample
  rw [compareAll_iff]
  have h1 : (∀ c ∈ components, ∃ y, compare r 0 f known number c = some y) ↔ Complete f known number := by
    refine forall₂_congr fun c hc => ⟨fun ⟨y, h⟩ => compare_some h, ?_⟩
    rintro ⟨⟨l, hl⟩, m, s, v, hs⟩
    obtain ⟨b, e, _⟩ := compare_eq r hl hs
    exact ⟨b, e⟩
  rw [h1]
  refine and_congr_right fun hc => iff_congr Iff.rfl ?_
  have h2 : (∀ c ∈ components, compare r 0 f known number c = some true) ↔ Agrees r f known number := by
    refine forall₂_congr fun c hcc => ?_
    obtain ⟨⟨l, hl⟩, m, s, v, hs⟩ := hc c hcc
    obtain ⟨b, e, k⟩ := compare_eq r hl hs
    rw [e]
    constructor
    · intro q
      obtain ⟨w, s', v', rfl, rfl, w1, w2⟩ := k.1 (Option.some.inj q)
      exact ⟨l, m, s', v', hl, w, hs, w1, w2⟩
    · rintro ⟨l', m', s', v', hl', w, ⟨rest', q⟩, w1, w2⟩
      obtain rfl := hl.unique hl'
      obtain ⟨rest, q'⟩ := hs
      have := q'.symm.trans q
      simp only [Option.some.injEq, List.cons.injEq] at this
      obtain ⟨rfl, rfl, rfl, _⟩ := this
      rw [k.2 ⟨w, s', v', rfl, rfl, w1, w2⟩]
  rw [h2]
  simp

/-- A try ends with success, failure or an exception. -/
theorem testExample_cases (r : ℝ) (f : File) (known : Known) (number : Nat) :
    (testExample r f known number = some true ↔ Complete f known number ∧ Agrees r f known number) ∧
    (testExample r f known number = some false ↔ Complete f known number ∧ ¬ Agrees r f known number) := by
  rw [testExample_iff, testExample_iff]
  constructor
  · refine and_congr_right fun _ => ?_
    simp
  · refine and_congr_right fun _ => ?_
    simp

theorem Agrees.complete {r : ℝ} {f : File} {known : Known} {number : Nat} (h : Agrees r f known number) :
    Complete f known number := by
  intro c hc
  obtain ⟨l, m, s, v, h1, _, h2, _⟩ := h c hc
  exact ⟨⟨l, h1⟩, m, _, _, h2⟩

theorem tries_iff (r : ℝ) (runs : Nat → File) (known : Known) (k i : Nat) :
    tries r runs known k i = some true ↔ ∃ j, j < k ∧ Agrees r (runs (i + j)) known 4 ∧
      ∀ n, n < j → Complete (runs (i + n)) known 4 := by
  induction k generalizing i with
  | zero =>
    unfold tries
    constructor
    · intro h; cases h
    · rintro ⟨j, h, _⟩; omega
  | succ k ih =>
    unfold tries
    obtain ⟨t1, t2⟩ := testExample_cases r (runs i) known 4
    cases e : testExample r (runs i) known 4 with
    | none =>
      rw [Option.bind_none]
      constructor
      · intro h; cases h
      · rintro ⟨j, _, h1, h2⟩
        have hc : Complete (runs i) known 4 := by
          cases j with
          | zero => exact h1.complete
          | succ j => exact h2 0 (by omega)
        by_cases q : Agrees r (runs i) known 4
        · rw [t1.2 ⟨hc, q⟩] at e; cases e
        · rw [t2.2 ⟨hc, q⟩] at e; cases e
    | some b =>
      rw [Option.bind_some]
      cases b with
      | true =>
        rw [if_pos rfl]
        refine ⟨fun _ => ⟨0, by omega, (t1.1 e).2, fun n hn => by omega⟩, fun _ => rfl⟩
      | false =>
        obtain ⟨hc, hn⟩ := t2.1 e
        rw [if_neg (by decide), ih]
        constructor
        · rintro ⟨j, h0, h1, h2⟩
          refine ⟨j + 1, by omega, by rwa [show i + (j + 1) = i + 1 + j by omega], fun n hn' => ?_⟩
          cases n with
          | zero => exact hc
          | succ n => rw [show i + (n + 1) = i + 1 + n by omega]; exact h2 n (by omega)
        · rintro ⟨j, h0, h1, h2⟩
          cases j with
          | zero => exact absurd h1 hn
          | succ j =>
            refine ⟨j, by omega, by rwa [show i + 1 + j = i + (j + 1) by omega], fun n hn' => ?_⟩
            rw [show i + 1 + n = i + (n + 1) by omega]
            exact h2 (n + 1) (by omega)

theorem exit_zero (x : Option Bool) : exitStatus x = 0 ↔ x = some true := by
  rcases x with _ | (_ | _) <;> simp [exitStatus]

/-- **C136 (partial), the smoke test.**  It succeeds exactly if one of up to four runs agrees with the stored values, in deviation
and variance of all nine components, and the results of all earlier runs were complete.  Missing: the means (and so the fields
themselves), see `C136_fails`. -/
theorem C136_smoke_partial (r : ℝ) (runs : Nat → File) (known : Known) :
    smoke r runs known = 0 ↔ ∃ j, j < 4 ∧ Agrees r (runs j) known 4 ∧ ∀ n, n < j → Complete (runs n) known 4 := by
  unfold smoke
  rw [exit_zero, tries_iff]
  simp only [zero_add]

/-- **C136 (partial), the longer test.**  It succeeds exactly if the run agrees in deviation and variance of all nine components. -/
theorem C136_ext_partial (r : ℝ) (f : File) (known : Known) : ext r f known = 0 ↔ Agrees r f known 11 := by
  unfold ext
  rw [exit_zero, (testExample_cases r f known 11).1]
  exact ⟨fun h => h.2, fun h => ⟨h.complete, h⟩⟩

/-- **C136.**  Results that agree fully are never rejected. -/
theorem C136_accepts (r : ℝ) (f : File) (known : Known) (h : AgreesFully r f known 11) : ext r f known = 0 :=
  (C136_ext_partial r f known).2 h.1

/-- **C136.**  If in each of the four runs the variance of some component is off by more than the tolerance, the test fails. -/
theorem C136_rejects (r : ℝ) (runs : Nat → File) (known : Known)
    (h : ∀ j, j < 4 → ∃ c ∈ nine, ∀ l m s v, Numbers (runs j) 4 c l → Stored known c m s (some v) → ¬ Close r (variance l) v) :
    smoke r runs known = 1 := by
  have h0 : smoke r runs known ≠ 0 := by
    rw [Ne, C136_smoke_partial]
    rintro ⟨j, hj, ha, _⟩
    obtain ⟨c, hc, hx⟩ := h j hj
    obtain ⟨l, m, s, v, h1, _, h2, _, h3⟩ := ha c hc
    exact hx l m _ v h1 h2 h3
  unfold smoke at h0 ⊢
  rcases e : tries r runs known 4 0 with _ | (_ | _)
  · rfl
  · rfl
  · rw [e] at h0; exact absurd rfl h0

/-! ### Collected values -/

theorem mean_replicate {n : Nat} (hn : 0 < n) (x : Cell) : nanmean (List.replicate n x) = x := by
  cases x with
  | none =>
    refine nanmean_none ?_
    induction n with
    | zero => rfl
    | succ n ih =>
      cases n with
      | zero => rfl
      | succ n => rw [List.replicate_succ, List.reduceOption_cons_of_none]; exact ih (by omega)
  | some a =>
    have e : (List.replicate n (some a)).reduceOption = List.replicate n a := by
      clear hn
      induction n with
      | zero => rfl
      | succ n ih => rw [List.replicate_succ, List.reduceOption_cons_of_some, ih, List.replicate_succ]
    have ne : (List.replicate n (some a)).reduceOption ≠ [] := by
      rw [e]
      intro q
      have := congrArg List.length q
      rw [List.length_replicate] at this
      exact absurd this (by simp; omega)
    rw [nanmean_some ne, e]
    unfold average
    rw [List.sum_replicate, List.length_replicate, nsmul_eq_mul]
    have : (n : ℝ) ≠ 0 := by rw [Nat.cast_ne_zero]; omega
    field_simp

/-- **C136.**  The collected values are the mean, the deviation and the variance of a single run, however often they are read. -/
theorem C136_collected (n : Nat) (hn : 0 < n) (f : File) (number : Nat) (c : String) (l : List ℝ) (h : Numbers f number c l)
    (hl : l ≠ []) :
    collect n f number c = some [some (average l), some (Real.sqrt (variance l)), some (variance l)] := by
  obtain ⟨d, e, rfl⟩ := numbers_iff.1 h
  unfold collect
  rw [e, Option.bind_some, mean_replicate hn, mean_replicate hn, mean_replicate hn, nanmean_some hl]
  unfold nanstd
  rw [nanvar_some hl]
  rfl

/-- **C136.**  A run passes the test against the values collected from it. -/
theorem C136_same (n : Nat) (hn : 0 < n) (r : ℝ) (hr : 0 ≤ r) (f : File) (number : Nat)
    (h : ∀ c ∈ nine, ∃ l, Numbers f number c l ∧ l ≠ []) : AgreesFully r f (collect n f number) number := by
  have z : ∀ x : ℝ, Close r x x := fun x => by
    unfold Close
    rw [sub_self, abs_zero]
    positivity
  refine ⟨fun c hc => ?_, fun c hc => ?_⟩
  · obtain ⟨l, h1, h2⟩ := h c hc
    exact ⟨l, _, _, _, h1, h2, ⟨[], C136_collected n hn f number c l h1 h2⟩, z _, z _⟩
  · obtain ⟨l, h1, h2⟩ := h c hc
    exact ⟨l, _, _, _, h1, ⟨[], C136_collected n hn f number c l h1 h2⟩, z _⟩

/-! ### What is not seen -/

theorem variance_twin {l l' : List ℝ} {e d : ℝ} (he : e = 1 ∨ e = -1) (h : l'.Perm (l.map fun x => e * x + d)) :
    variance l' = variance l := by
  have hn : l'.length = l.length := by rw [h.length_eq, List.length_map]
  have e2 : e ^ 2 = 1 := by rcases he with rfl | rfl <;> norm_num
  have s1 : l'.sum = e * l.sum + l.length * d := by
    rw [h.sum_eq]
    clear h hn
    induction l with
    | nil => simp
    | cons a l ih => rw [List.map_cons, List.sum_cons, ih, List.sum_cons, List.length_cons]; push_cast; ring
  have s2 : (l'.map (· ^ 2)).sum = (l.map (· ^ 2)).sum + 2 * e * d * l.sum + l.length * d ^ 2 := by
    rw [(h.map _).sum_eq]
    clear h hn s1
    induction l with
    | nil => simp
    | cons a l ih =>
      simp only [List.map_cons, List.sum_cons, List.length_cons, ih]
      push_cast
      linear_combination a ^ 2 * e2
  unfold variance average
  rw [s1, s2, hn]
  by_cases h0 : l = []
  · subst h0; simp
  · have : (l.length : ℝ) ≠ 0 := by
      rw [Nat.cast_ne_zero]; exact fun q => h0 (List.length_eq_zero_iff.1 q)
    field_simp
    linear_combination -(l.sum ^ 2) * e2

theorem agrees_twin (r : ℝ) {f g : File} (known : Known) {number : Nat} (h : Twin f g number) :
    Agrees r f known number ↔ Agrees r g known number := by
  refine forall₂_congr fun c hc => ?_
  obtain ⟨l, l', e, d, h1, h2, he, hp⟩ := h c hc
  have hv := variance_twin he hp
  have hn : l = [] ↔ l' = [] := by
    constructor
    · rintro rfl; exact List.perm_nil.1 (by simpa using hp)
    · rintro rfl
      have := List.nil_perm.1 hp
      exact List.map_eq_nil_iff.1 this
  constructor
  · rintro ⟨k, m, s, v, w1, w2, w3, w4, w5⟩
    obtain rfl := w1.unique h1
    exact ⟨l', m, s, v, h2, fun q => w2 (hn.2 q), w3, by rw [hv]; exact w4, by rw [hv]; exact w5⟩
  · rintro ⟨k, m, s, v, w1, w2, w3, w4, w5⟩
    obtain rfl := w1.unique h2
    exact ⟨l, m, s, v, h1, fun q => w2 (hn.1 q), w3, by rw [← hv]; exact w4, by rw [← hv]; exact w5⟩

theorem complete_twin {f g : File} (known : Known) {number : Nat} (h : Twin f g number) :
    Complete f known number ↔ Complete g known number := by
  refine forall₂_congr fun c hc => and_congr_left fun _ => ?_
  obtain ⟨l, l', e, d, h1, h2, _⟩ := h c hc
  exact ⟨fun _ => ⟨l', h2⟩, fun _ => ⟨l, h1⟩⟩

/-- Where C136 fails: the means are computed, but the comparison is forgotten.  Runs whose fields differ by any offsets, by the
sign, in the order of the cells or in cells that are not numbers get the same verdict. -/
theorem C136_fails (r : ℝ) (f g : File) (known : Known) (h : Twin f g 11) : ext r f known = 0 ↔ ext r g known = 0 := by
  rw [C136_ext_partial, C136_ext_partial, agrees_twin r known h]

/-- Where C136 fails: the same for the smoke test. -/
theorem C136_smoke_fails (r : ℝ) (runs runs' : Nat → File) (known : Known) (h : ∀ j, j < 4 → Twin (runs j) (runs' j) 4) :
    smoke r runs known = 0 ↔ smoke r runs' known = 0 := by
  rw [C136_smoke_partial, C136_smoke_partial]
  refine exists_congr fun j => and_congr_right fun hj => ?_
  rw [agrees_twin r known (h j hj)]
  refine and_congr_right fun _ => forall₂_congr fun n hn => ?_
  exact complete_twin known (h n (by omega))

/-- The file with `d` added to all numbers. -/
def shifted (d : ℝ) (f : File) : File := fun c => (f c).map fun frames => frames.map fun frame =>
  frame.map fun row => row.map fun x => x.map (· + d)

theorem reduce_map (g : ℝ → ℝ) (l : List Cell) : (l.map fun x => x.map g).reduceOption = l.reduceOption.map g := by
  induction l with
  | nil => rfl
  | cons a l ih =>
    cases a with
    | none => rw [List.map_cons, Option.map_none, List.reduceOption_cons_of_none, List.reduceOption_cons_of_none, ih]
    | some x =>
      rw [List.map_cons, Option.map_some, List.reduceOption_cons_of_some, List.reduceOption_cons_of_some, List.map_cons, ih]

theorem shifted_numbers (d : ℝ) {f : File} {number : Nat} {c : String} {l : List ℝ} (h : Numbers f number c l) :
    Numbers (shifted d f) number c (l.map (· + d)) := by
  obtain ⟨frames, frame, h1, h2, rfl⟩ := h
  refine ⟨_, frame.map fun row => row.map fun x => x.map (· + d), by unfold shifted; rw [h1]; rfl, ?_, ?_⟩
  · rw [List.getElem?_map, h2]; rfl
  · rw [← reduce_map, List.map_flatten]

/-- Where C136 fails: a run that passes still passes when all values of all fields are wrong by the same amount, however large, which
shifts their means by that amount. -/
theorem C136_offset_fails (r : ℝ) (f : File) (known : Known) (h : ext r f known = 0) (d : ℝ) :
    ext r (shifted d f) known = 0 ∧
    ∀ c ∈ nine, ∃ l l', Numbers f 11 c l ∧ Numbers (shifted d f) 11 c l' ∧ average l' = average l + d := by
  have ha := (C136_ext_partial r f known).1 h
  have hx : ∀ c ∈ nine, ∃ l, Numbers f 11 c l ∧ l ≠ [] := fun c hc => by
    obtain ⟨l, m, s, v, h1, h2, _⟩ := ha c hc
    exact ⟨l, h1, h2⟩
  constructor
  · refine (C136_fails r f (shifted d f) known fun c hc => ?_).1 h
    obtain ⟨l, h1, _⟩ := hx c hc
    refine ⟨l, _, 1, d, h1, shifted_numbers d h1, Or.inl rfl, ?_⟩
    simp only [one_mul]
    exact List.Perm.refl _
  · intro c hc
    obtain ⟨l, h1, h2⟩ := hx c hc
    refine ⟨l, _, h1, shifted_numbers d h1, ?_⟩
    unfold average
    have : (l.length : ℝ) ≠ 0 := by
      rw [Nat.cast_ne_zero]; exact fun q => h2 (List.length_eq_zero_iff.1 q)
    have s : (l.map (· + d)).sum = l.sum + l.length * d := by
      clear h1 h2 this
      induction l with
      | nil => simp
      | cons a l ih => rw [List.map_cons, List.sum_cons, ih, List.sum_cons, List.length_cons]; push_cast; ring
    rw [s, List.length_map]
    field_simp

/-! ### The hypotheses are met -/

/-- A file with twelve frames of two by two cells, one of them not a number. -/
def exFile : File := fun _ => some (List.replicate 12 [[some 1, some 2], [none, some 6]])

theorem exFile_numbers (c : String) : Numbers exFile 11 c [1, 2, 6] := ⟨_, _, rfl, rfl, rfl⟩

example : variance [1, 2, 6] = 14 / 3 := by norm_num [variance, average]

/-- It passes against the values collected from it, and so does the same with all fields a thousand higher. -/
example : ext (15 / 100) exFile (collect 100000 exFile 11) = 0 ∧ ext (15 / 100) (shifted 1000 exFile) (collect 100000 exFile 11) = 0 := by
  have h := C136_accepts (15 / 100) exFile (collect 100000 exFile 11)
    (C136_same 100000 (by norm_num) (15 / 100) (by norm_num) exFile 11 fun c _ => ⟨_, exFile_numbers c, by simp⟩)
  exact ⟨h, (C136_offset_fails _ _ _ h 1000).1⟩

end TestRun
end Pico
