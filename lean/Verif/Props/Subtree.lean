import Verif.Spec.Subtree
import Verif.Lemmas.Config

/-!
# C138: the metadata tool shows the part it is asked for
-/

set_option linter.unusedSimpArgs false
set_option linter.unusedVariables false
set_option linter.unusedSectionVars false

namespace Pico
namespace Subtree

open Config

variable {K : Type}

theorem replaced_plain (k t : List Char) (h : ∀ c ∈ k, c ∉ ['[', ']', '"', '\\', '\n', '\r']) :
    replaced (k ++ t) = k ++ replaced t := by
  induction k with
  | nil => rfl
  | cons c k ih =>
    have hc := h c (by simp)
    simp only [List.mem_cons, List.not_mem_nil, or_false, not_or] at hc
    simp only [List.cons_append, replaced, if_neg hc.1, if_neg hc.2.1]
    rw [ih fun c hc => h c (by simp [hc])]

theorem literal_plain (k t : List Char) (h : ∀ c ∈ k, c ∉ ['[', ']', '"', '\\', '\n', '\r']) :
    literal (k ++ '"' :: t) = some (k, t) := by
  induction k with
  | nil => simp [literal]
  | cons c k ih =>
    have hc := h c (by simp)
    simp only [List.mem_cons, List.not_mem_nil, or_false, not_or] at hc
    simp only [List.cons_append, literal, if_neg hc.2.2.1]
    rw [if_neg (by tauto), ih fun c hc => h c (by simp [hc])]
    rfl

theorem replaced_asked (k : String) (p : List String) (h : Plain k) :
    replaced (asked (k :: p)) = '[' :: '"' :: (k.toList ++ '"' :: ']' :: replaced (asked p)) := by
  have e : asked (k :: p) = '[' :: (k.toList ++ ']' :: asked p) := by simp [asked]
  rw [e, replaced, if_pos rfl, replaced_plain _ _ h]
  simp [replaced]

theorem chain_asked (p : List String) (h : ∀ k ∈ p, Plain k) :
    ∀ n, p.length ≤ n → chain n (replaced (asked p)) = some p := by
  induction p with
  | nil =>
    intro n _
    simp [asked, replaced, chain]
  | cons k p ih =>
    intro n hn
    obtain ⟨m, rfl⟩ : ∃ m, n = m + 1 := ⟨n - 1, by simp at hn; omega⟩
    rw [replaced_asked k p (h k (by simp))]
    simp only [chain]
    rw [literal_plain _ _ (h k (by simp))]
    simp only
    rw [ih (fun k hk => h k (by simp [hk])) m (by simp at hn; omega)]
    simp

theorem length_asked (p : List String) (h : ∀ k ∈ p, Plain k) : p.length ≤ (replaced (asked p)).length := by
  induction p with
  | nil => simp
  | cons k p ih =>
    rw [replaced_asked k p (h k (by simp))]
    have := ih fun k hk => h k (by simp [hk])
    simp
    omega

/-- What is asked for is followed key by key. -/
theorem shown_asked (v : Json K) (p : List String) (h : ∀ k ∈ p, Plain k) :
    shown { subtree := asked p } v = walk v p := by
  have e : evaluate v (asked p) = walk v p := by
    unfold evaluate
    rw [chain_asked p h _ (length_asked p h)]
  unfold shown
  simp only [Bool.false_eq_true, if_false]
  cases p with
  | nil => simp [asked, walk]
  | cons k p =>
    have : (asked (k :: p)).isEmpty = false := by simp [asked]
    rw [this]
    simp only [Bool.false_eq_true, if_false]
    rw [e]
    cases walk v (k :: p) <;> rfl

theorem walk_append (v w : Json K) (p q : List String) (h : v.at p = some w) : walk v (p ++ q) = walk w q := by
  induction p generalizing v with
  | nil =>
    rw [at_nil] at h
    cases h
    rfl
  | cons k p ih =>
    obtain ⟨l, x, rfl, hx, h⟩ := at_cons h
    simp only [List.cons_append, walk, index, hx]
    exact ih x h

/-- A part that is in the record is shown, whatever its path. -/
theorem C138_shown (v w : Json K) (p : List String) (h : ∀ k ∈ p, Plain k) (hw : v.at p = some w) :
    shown { subtree := asked p } v = .value w := by
  rw [shown_asked v p h, ← List.append_nil p, walk_append v w p [] hw]
  rfl

/-- A part is refused with a message exactly if its path meets an object that lacks the key. -/
theorem C138_refused (v : Json K) (p : List String) (h : ∀ k ∈ p, Plain k) :
    shown { subtree := asked p } v = .refused ↔
      ∃ q k r l, p = q ++ k :: r ∧ v.at q = some (.obj l) ∧ (Json.obj l).at [k] = none := by
  rw [shown_asked v p h]
  constructor
  · clear h
    induction p generalizing v with
    | nil => simp [walk]
    | cons k p ih =>
      intro e
      cases v with
      | obj l =>
        cases hl : look l k with
        | none => exact ⟨[], k, p, l, rfl, at_nil _, by rw [at_one, hl]⟩
        | some x =>
          simp only [walk, index, hl] at e
          obtain ⟨q, k', r, l', rfl, hq, hk⟩ := ih x e
          refine ⟨k :: q, k', r, l', rfl, ?_, hk⟩
          rw [at_obj, hl]
          exact hq
      | _ => simp [walk, index] at e
  · rintro ⟨q, k, r, l, rfl, hq, hk⟩
    rw [walk_append v _ q _ hq]
    rw [at_one] at hk
    simp [walk, index, hk]

/-- Everything that is shown for a path is what the record has there. -/
theorem C138_sound (v w : Json K) (p : List String) (h : ∀ k ∈ p, Plain k)
    (hw : shown { subtree := asked p } v = .value w) : v.at p = some w := by
  rw [shown_asked v p h] at hw
  clear h
  induction p generalizing v with
  | nil =>
    rw [at_nil]
    simpa [walk] using hw
  | cons k p ih =>
    cases v with
    | obj l =>
      rw [at_obj]
      cases hl : look l k with
      | none => simp [walk, index, hl] at hw
      | some x =>
        simp only [walk, index, hl] at hw
        exact ih x hw
    | _ => simp [walk, index] at hw

/-- The full claim fails for everything inside a list (species, beams, probes): asking for it by its place ends with a trace of the
interpreter, whatever the record is. -/
theorem C138_lists_fails (v : Json K) (p r : List String) (k : String) (l : List (Json K)) (h : ∀ x ∈ p ++ k :: r, Plain x)
    (hl : v.at p = some (.arr l)) : shown { subtree := asked (p ++ k :: r) } v = .crash := by
  rw [shown_asked v _ h, walk_append v _ p _ hl]
  rfl

/-- `--bo` is the same as `--subtree=[build_options]`, also together with another `--subtree`. -/
theorem C138_bo (v : Json K) (t : List Char) :
    shown { bo := true, subtree := t } v = shown { subtree := asked ["build_options"] } v := by
  rw [shown_asked v _ (by intro k hk; rw [List.mem_singleton] at hk; subst hk; unfold Plain; decide +kernel)]
  simp only [shown, walk, Bool.false_eq_true, if_false, if_true, List.isEmpty_nil]
  cases index v "build_options" <;> rfl

/-- `-c` is the same as `--subtree=[comment]`, whatever the other options. -/
theorem C138_comment (v : Json K) (b : Bool) (t : List Char) :
    shown { comment := true, bo := b, subtree := t } v = shown { subtree := asked ["comment"] } v := by
  rw [shown_asked v _ (by intro k hk; rw [List.mem_singleton] at hk; subst hk; unfold Plain; decide +kernel)]
  simp only [shown, walk, Bool.false_eq_true, if_false, if_true, List.isEmpty_nil]

/-- Without options the whole record is shown. -/
theorem C138_whole (v : Json K) : shown {} v = .value v := rfl

/-- The text that is asked for is run as a program if it is no path: every text that does not begin with a bracket is. -/
theorem C138_program_fails (v : Json K) (c : Char) (t : List Char) (hc : c ≠ '[') :
    ∃ u, shown { subtree := c :: t } v = .program u := by
  have e : chain (replaced (c :: t)).length (replaced (c :: t)) = none := by
    by_cases h : c = ']'
    · subst h
      simp [replaced, chain]
    · simp only [replaced, if_neg hc, if_neg h, List.length_cons]
      unfold chain
      split <;> simp_all
  refine ⟨replaced (c :: t), ?_⟩
  simp only [shown, Bool.false_eq_true, if_false, List.isEmpty_cons, evaluate, e]

/-! A record with a list. -/

def exRecord : Json ℚ :=
  .obj [("beams", .arr [.obj []]), ("build_options", .obj [("debug", .bool false)]), ("geometry", .obj [("size", .obj [("x", .num 2)])])]

example : shown { subtree := "[geometry][size][x]".toList } exRecord = .value (.num 2) :=
  C138_shown exRecord (.num 2) ["geometry", "size", "x"] (by unfold Plain; decide +kernel) rfl

example : shown { subtree := "[geometry][grid][x]".toList } exRecord = .refused :=
  (C138_refused exRecord ["geometry", "grid", "x"] (by unfold Plain; decide +kernel)).2
    ⟨["geometry"], "grid", ["x"], _, rfl, rfl, rfl⟩

example : shown { subtree := "[beams][0]".toList } exRecord = .crash :=
  C138_lists_fails exRecord ["beams"] [] "0" _ (by unfold Plain; decide +kernel) rfl

end Subtree
end Pico
