import Verif.Model.Mpi
import Mathlib.Data.List.Infix

/-! Invariants of the message exchange. -/

set_option linter.unusedSimpArgs false
set_option linter.unusedVariables false

namespace Pico
namespace Mpi

variable {M : Type _}

/-- Messages that a list of operations sends to `l`. -/
def sendsTo (l : Nat) : List (Op M) → List M
  | [] => []
  | .send d m :: r => if d = l then m :: sendsTo l r else sendsTo l r
  | .recv _ :: r => sendsTo l r

/-- Number of receives from `k` in a list of operations. -/
def recvsFrom (k : Nat) : List (Op M) → Nat
  | [] => 0
  | .send _ _ :: r => recvsFrom k r
  | .recv s :: r => if s = k then recvsFrom k r + 1 else recvsFrom k r

theorem sendsTo_append (l : Nat) (a b : List (Op M)) :
    sendsTo l (a ++ b) = sendsTo l a ++ sendsTo l b := by
  induction a with
  | nil => rfl
  | cons x a ih =>
    cases x with
    | send d m =>
      simp only [List.cons_append, sendsTo]
      split
      · rw [ih]; rfl
      · exact ih
    | recv s => simpa only [List.cons_append, sendsTo] using ih

theorem recvsFrom_append (k : Nat) (a b : List (Op M)) :
    recvsFrom k (a ++ b) = recvsFrom k a + recvsFrom k b := by
  induction a with
  | nil => simp [recvsFrom]
  | cons x a ih =>
    cases x with
    | send d m => simpa only [List.cons_append, recvsFrom] using ih
    | recv s =>
      simp only [List.cons_append, recvsFrom]
      split <;> omega

theorem sendsTo_map_send (l d : Nat) (ms : List M) :
    sendsTo l (ms.map (Op.send d)) = if d = l then ms else [] := by
  induction ms with
  | nil => simp [sendsTo]
  | cons m ms ih =>
    simp only [List.map_cons, sendsTo, ih]
    split <;> rfl

theorem sendsTo_map_recv (l s : Nat) (ms : List M) :
    sendsTo l (ms.map (fun _ => (Op.recv s : Op M))) = [] := by
  induction ms with
  | nil => rfl
  | cons m ms ih => simpa only [List.map_cons, sendsTo] using ih

theorem recvsFrom_map_send (k d : Nat) (ms : List M) :
    recvsFrom k (ms.map (Op.send d)) = 0 := by
  induction ms with
  | nil => rfl
  | cons m ms ih => simpa only [List.map_cons, recvsFrom] using ih

theorem recvsFrom_map_recv (k s : Nat) (ms : List M) :
    recvsFrom k (ms.map (fun _ => (Op.recv s : Op M))) = if s = k then ms.length else 0 := by
  induction ms with
  | nil => simp [recvsFrom]
  | cons m ms ih =>
    simp only [List.map_cons, recvsFrom, ih, List.length_cons]
    split <;> rfl

/-- If all sends to `l` stand in front, a suffix either starts with one or has none. -/
theorem suffix_front (l : Nat) (ms : List M) (R rest pre : List (Op M)) (hR : sendsTo l R = [])
    (h : pre ++ rest = ms.map (Op.send l) ++ R) :
    sendsTo l rest = [] ∨ ∃ m r, rest = Op.send l m :: r := by
  induction ms generalizing pre with
  | nil =>
    left
    have := congrArg (sendsTo l) h
    rw [sendsTo_append] at this
    simp only [List.map_nil, List.nil_append, hR] at this
    exact (List.append_eq_nil_iff.mp this).2
  | cons m ms ih =>
    cases pre with
    | nil =>
      right
      exact ⟨m, ms.map (Op.send l) ++ R, h⟩
    | cons x pre =>
      have := List.cons.inj h
      exact ih pre this.2

theorem set1_same {α : Type _} (f : Nat → α) (k : Nat) (v : α) : set1 f k v k = v := if_pos rfl
theorem set1_ne {α : Type _} (f : Nat → α) {k a : Nat} (v : α) (h : a ≠ k) :
    set1 f k v a = f a := if_neg h
theorem set2_same {α : Type _} (f : Nat → Nat → α) (k l : Nat) (v : α) : set2 f k l v k l = v :=
  if_pos ⟨rfl, rfl⟩
theorem set2_ne {α : Type _} (f : Nat → Nat → α) {k l a b : Nat} (v : α) (h : ¬ (a = k ∧ b = l)) :
    set2 f k l v a b = f a b := if_neg h

/-- The invariant of the exchange. -/
structure Inv (cap : Nat) (P : Nat → List (Op M)) (s : State M) : Prop where
  suffix : ∀ k, ∃ pre, pre ++ s.rest k = P k
  flow : ∀ k l, s.got l k ++ s.chan k l ++ sendsTo l (s.rest k) = sendsTo l (P k)
  count : ∀ k l, (s.got l k).length + recvsFrom k (s.rest l) = recvsFrom k (P l)
  room : ∀ k l, (s.chan k l).length ≤ cap

theorem inv_init (cap n : Nat) (plus minus : Nat → List M) :
    Inv cap (prog n plus minus) (init n plus minus) :=
  ⟨fun k => ⟨[], rfl⟩, fun k l => rfl, fun k l => by simp [init], fun k l => Nat.zero_le _⟩

theorem inv_step {cap : Nat} {P : Nat → List (Op M)} {s s' : State M} (I : Inv cap P s)
    (h : Step cap s s') : Inv cap P s' := by
  cases h with
  | send k l msg r hk hc =>
    refine ⟨?_, ?_, ?_, ?_⟩
    · intro a
      obtain ⟨pre, hp⟩ := I.suffix a
      by_cases e : a = k
      · subst e
        exact ⟨pre ++ [.send l msg], by
          dsimp only
          rw [set1_same, List.append_assoc, List.singleton_append, ← hk, hp]⟩
      · exact ⟨pre, by dsimp only; rw [set1_ne _ _ e, hp]⟩
    · intro a b
      have hf := I.flow a b
      dsimp only
      by_cases e : a = k
      · subst e
        rw [set1_same]
        by_cases e' : b = l
        · subst e'
          rw [set2_same, ← hf, hk]
          simp [sendsTo]
        · rw [set2_ne _ _ (by tauto), ← hf, hk]
          simp only [sendsTo]
          rw [if_neg (fun x => e' x.symm)]
      · rw [set1_ne _ _ e, set2_ne _ _ (by tauto), hf]
    · intro a b
      have hcn := I.count a b
      dsimp only
      by_cases e : b = k
      · subst e
        rw [set1_same, ← hcn, hk]
        rfl
      · rw [set1_ne _ _ e, hcn]
    · intro a b
      dsimp only
      by_cases e : a = k ∧ b = l
      · obtain ⟨rfl, rfl⟩ := e
        rw [set2_same, List.length_append]
        simp only [List.length_singleton]
        omega
      · rw [set2_ne _ _ e]; exact I.room a b
  | recv k l msg ch r hl hc =>
    refine ⟨?_, ?_, ?_, ?_⟩
    · intro a
      obtain ⟨pre, hp⟩ := I.suffix a
      by_cases e : a = l
      · subst e
        exact ⟨pre ++ [.recv k], by
          dsimp only
          rw [set1_same, List.append_assoc, List.singleton_append, ← hl, hp]⟩
      · exact ⟨pre, by dsimp only; rw [set1_ne _ _ e, hp]⟩
    · intro a b
      have hf := I.flow a b
      dsimp only
      have hr : sendsTo b (set1 s.rest l r a) = sendsTo b (s.rest a) := by
        by_cases e : a = l
        · subst e; rw [set1_same, hl]; rfl
        · rw [set1_ne _ _ e]
      rw [hr]
      by_cases e : a = k ∧ b = l
      · obtain ⟨rfl, rfl⟩ := e
        rw [set2_same, set2_same, ← hf, hc]
        simp
      · rw [set2_ne _ _ e, set2_ne _ _ (by tauto), hf]
    · intro a b
      have hcn := I.count a b
      dsimp only
      by_cases e : b = l
      · subst e
        rw [set1_same]
        rw [hl] at hcn
        simp only [recvsFrom] at hcn
        by_cases e' : a = k
        · subst e'
          rw [set2_same, List.length_append]
          rw [if_pos rfl] at hcn
          simp only [List.length_singleton]
          omega
        · rw [set2_ne _ _ (by tauto)]
          rw [if_neg (fun x => e' x.symm)] at hcn
          exact hcn
      · rw [set1_ne _ _ e, set2_ne _ _ (by tauto), hcn]
    · intro a b
      dsimp only
      by_cases e : a = k ∧ b = l
      · obtain ⟨rfl, rfl⟩ := e
        have := I.room a b
        rw [hc] at this
        rw [set2_same]
        simp only [List.length_cons] at this
        omega
      · rw [set2_ne _ _ e]; exact I.room a b
  | rdv k l msg r r' hne hk hl hc =>
    refine ⟨?_, ?_, ?_, I.room⟩
    · intro a
      obtain ⟨pre, hp⟩ := I.suffix a
      by_cases e : a = l
      · subst e
        exact ⟨pre ++ [.recv k], by
          dsimp only
          rw [set1_same, List.append_assoc, List.singleton_append, ← hl, hp]⟩
      · by_cases e' : a = k
        · subst e'
          exact ⟨pre ++ [.send l msg], by
            dsimp only
            rw [set1_ne _ _ e, set1_same, List.append_assoc, List.singleton_append, ← hk, hp]⟩
        · exact ⟨pre, by dsimp only; rw [set1_ne _ _ e, set1_ne _ _ e', hp]⟩
    · intro a b
      have hf := I.flow a b
      dsimp only
      by_cases e : a = l
      · subst e
        rw [set1_same, set2_ne _ _ (by tauto), ← hf, hl]
        rfl
      · rw [set1_ne _ _ e]
        by_cases e' : a = k
        · subst e'
          rw [set1_same]
          by_cases eb : b = l
          · subst eb
            rw [set2_same, ← hf, hk, hc]
            simp [sendsTo]
          · rw [set2_ne _ _ (by tauto), ← hf, hk]
            simp only [sendsTo]
            rw [if_neg (fun x => eb x.symm)]
        · rw [set1_ne _ _ e', set2_ne _ _ (by tauto), hf]
    · intro a b
      have hcn := I.count a b
      dsimp only
      by_cases e : b = l
      · subst e
        rw [set1_same]
        rw [hl] at hcn
        simp only [recvsFrom] at hcn
        by_cases e' : a = k
        · subst e'
          rw [set2_same, List.length_append]
          rw [if_pos rfl] at hcn
          simp only [List.length_singleton]
          omega
        · rw [set2_ne _ _ (by tauto)]
          rw [if_neg (fun x => e' x.symm)] at hcn
          exact hcn
      · rw [set1_ne _ _ e, set2_ne _ _ (by tauto)]
        by_cases e' : b = k
        · subst e'
          rw [set1_same, ← hcn, hk]
          rfl
        · rw [set1_ne _ _ e', hcn]

theorem inv_reach {cap n : Nat} {plus minus : Nat → List M} {s : State M}
    (h : Reach cap n plus minus s) : Inv cap (prog n plus minus) s := by
  induction h with
  | start => exact inv_init cap n plus minus
  | step _ hs ih => exact inv_step ih hs

/-! ### The programs -/

section
variable (n : Nat) (plus minus : Nat → List M)

theorem prog_sends_up (k : Nat) (hk : k + 1 < n) :
    sendsTo (k + 1) (prog n plus minus k) = plus k := by
  unfold prog
  rw [if_pos hk, sendsTo_append, sendsTo_append, sendsTo_map_send, sendsTo_map_recv, if_pos rfl]
  split
  · rw [sendsTo_append, sendsTo_map_send, sendsTo_map_recv, if_neg (by omega)]; simp
  · simp [sendsTo]

theorem prog_sends_down (k : Nat) (hk : k + 1 < n) :
    sendsTo k (prog n plus minus (k + 1)) = minus (k + 1) := by
  unfold prog
  rw [sendsTo_append, if_pos (by omega : 0 < k + 1 ∧ k + 1 < n), Nat.add_sub_cancel,
    sendsTo_append, sendsTo_map_send,
    sendsTo_map_recv, if_pos rfl]
  split
  · rw [sendsTo_append, sendsTo_map_send, sendsTo_map_recv, if_neg (by omega)]; simp
  · simp [sendsTo]

theorem prog_recvs_up (k : Nat) (hk : k + 1 < n) :
    recvsFrom (k + 1) (prog n plus minus k) = (plus k).length := by
  unfold prog
  rw [if_pos hk, recvsFrom_append, recvsFrom_append, recvsFrom_map_send, recvsFrom_map_recv,
    if_pos rfl]
  split
  · rw [recvsFrom_append, recvsFrom_map_send, recvsFrom_map_recv, if_neg (by omega)]; simp
  · simp [recvsFrom]

theorem prog_recvs_down (k : Nat) (hk : k + 1 < n) :
    recvsFrom k (prog n plus minus (k + 1)) = (minus (k + 1)).length := by
  unfold prog
  rw [recvsFrom_append, if_pos (by omega : 0 < k + 1 ∧ k + 1 < n), Nat.add_sub_cancel,
    recvsFrom_append, recvsFrom_map_send, recvsFrom_map_recv, if_pos rfl]
  split
  · rw [recvsFrom_append, recvsFrom_map_send, recvsFrom_map_recv, if_neg (by omega)]; simp
  · simp [recvsFrom]

theorem prog_outside (k : Nat) (hk : n ≤ k) : prog n plus minus k = [] := by
  unfold prog
  rw [if_neg (by omega), if_neg (by omega)]
  rfl

theorem prog_mem_send (k l : Nat) (m : M) (h : Op.send l m ∈ prog n plus minus k) :
    (l = k + 1 ∧ k + 1 < n) ∨ (l + 1 = k ∧ k < n) := by
  unfold prog at h
  rcases List.mem_append.mp h with h | h
  · split at h
    · rename_i hk
      rcases List.mem_append.mp h with h | h
      · obtain ⟨x, _, e⟩ := List.mem_map.mp h
        injection e with e1 e2
        exact Or.inl ⟨e1.symm, hk⟩
      · obtain ⟨x, _, e⟩ := List.mem_map.mp h
        exact nomatch e
    · simp at h
  · split at h
    · rename_i hk
      rcases List.mem_append.mp h with h | h
      · obtain ⟨x, _, e⟩ := List.mem_map.mp h
        injection e with e1 e2
        exact Or.inr ⟨by omega, hk.2⟩
      · obtain ⟨x, _, e⟩ := List.mem_map.mp h
        exact nomatch e
    · simp at h

theorem prog_mem_recv (k l : Nat) (h : Op.recv l ∈ prog n plus minus k) :
    (l = k + 1 ∧ k + 1 < n) ∨ (l + 1 = k ∧ k < n) := by
  unfold prog at h
  rcases List.mem_append.mp h with h | h
  · split at h
    · rename_i hk
      rcases List.mem_append.mp h with h | h
      · obtain ⟨x, _, e⟩ := List.mem_map.mp h
        exact nomatch e
      · obtain ⟨x, _, e⟩ := List.mem_map.mp h
        injection e with e1
        exact Or.inl ⟨e1.symm, hk⟩
    · simp at h
  · split at h
    · rename_i hk
      rcases List.mem_append.mp h with h | h
      · obtain ⟨x, _, e⟩ := List.mem_map.mp h
        exact nomatch e
      · obtain ⟨x, _, e⟩ := List.mem_map.mp h
        injection e with e1
        exact Or.inr ⟨by omega, hk.2⟩
    · simp at h

/-- The sends to the next process stand in front. -/
theorem prog_front_up (k : Nat) (hk : k + 1 < n) : ∃ R, sendsTo (k + 1) R = [] ∧
    prog n plus minus k = (plus k).map (.send (k + 1)) ++ R := by
  unfold prog
  rw [if_pos hk, List.append_assoc]
  refine ⟨_, ?_, rfl⟩
  rw [sendsTo_append, sendsTo_map_recv]
  split
  · rw [sendsTo_append, sendsTo_map_send, sendsTo_map_recv, if_neg (by omega)]; rfl
  · rfl

/-- The last process starts with its sends. -/
theorem prog_front_last (k : Nat) (hk : n = k + 2) : ∃ R, sendsTo k R = [] ∧
    prog n plus minus (k + 1) = (minus (k + 1)).map (.send k) ++ R := by
  unfold prog
  rw [if_neg (by omega), if_pos (by omega), Nat.add_sub_cancel, List.nil_append]
  exact ⟨_, sendsTo_map_recv _ _ _, rfl⟩

end

end Mpi
end Pico
