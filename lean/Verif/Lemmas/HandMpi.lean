import Verif.Model.HandMpi
import Verif.Lemmas.Mpi
import Mathlib.Data.List.Basic

/-! The exchange of particles as an instance of the exchange of messages. -/

set_option linter.unusedSimpArgs false
set_option linter.unusedVariables false

namespace Pico
namespace Mpi

variable {M : Type _}

/-- The particles among the messages. -/
def items : List (Msg M) → List M
  | [] => []
  | .count _ :: r => items r
  | .item m :: r => m :: items r

theorem items_append (a b : List (Msg M)) : items (a ++ b) = items a ++ items b := by
  induction a with
  | nil => rfl
  | cons x a ih => cases x <;> simp [items, ih]

theorem items_map (l : List M) : items (l.map Msg.item) = l := by
  induction l with
  | nil => rfl
  | cons x a ih => simp [items, ih]

/-- Operations with the number of receives filled in. -/
def expandOp (len : Nat → Nat → Nat) (l : Nat) : HOp M → List (Op (Msg M))
  | .send d m => [.send d m]
  | .recvCount k => .recv k :: List.replicate (len k l) (.recv k)
  | .recvItem k => [.recv k]

def expand (len : Nat → Nat → Nat) (l : Nat) (ops : List (HOp M)) : List (Op (Msg M)) := ops.flatMap (expandOp len l)

theorem expand_cons (len : Nat → Nat → Nat) (l : Nat) (x : HOp M) (r : List (HOp M)) :
    expand len l (x :: r) = expandOp len l x ++ expand len l r := rfl

theorem expand_append (len : Nat → Nat → Nat) (l : Nat) (a b : List (HOp M)) :
    expand len l (a ++ b) = expand len l a ++ expand len l b := by simp [expand]

theorem expand_items (len : Nat → Nat → Nat) (l k c : Nat) :
    expand len l (List.replicate c (HOp.recvItem k : HOp M)) = List.replicate c (.recv k) := by
  induction c with
  | zero => rfl
  | succ c ih => rw [List.replicate_succ, expand_cons, ih, List.replicate_succ]; rfl

theorem sendsTo_replicate (l k c : Nat) : sendsTo l (List.replicate c (Op.recv k : Op M)) = [] := by
  induction c with
  | zero => rfl
  | succ c ih => rw [List.replicate_succ]; exact ih

theorem recvsFrom_replicate (l k c : Nat) : recvsFrom l (List.replicate c (Op.recv k : Op M)) = if k = l then c else 0 := by
  induction c with
  | zero => simp [recvsFrom]
  | succ c ih =>
    rw [List.replicate_succ]
    simp only [recvsFrom, ih]
    split <;> rfl

/-- The queue from process `k` to its neighbour `l`. -/
def queue (plus minus : Nat → List M) (k l : Nat) : List M := if l = k + 1 then plus k else minus k

def qlen (plus minus : Nat → List M) (k l : Nat) : Nat := (queue plus minus k l).length

/-- Neighbours. -/
def Adj (n k l : Nat) : Prop := (l = k + 1 ∧ l < n) ∨ (k = l + 1 ∧ k < n)

/-- The program with the numbers filled in. -/
def sprog (n : Nat) (plus minus : Nat → List M) (k : Nat) : List (Op (Msg M)) :=
  expand (qlen plus minus) k (hprog n plus minus k)

def msgs (l : List M) : List (Msg M) := .count l.length :: l.map .item

theorem expand_packet (len : Nat → Nat → Nat) (k d : Nat) (l : List M) :
    expand len k (packet d l) = (msgs l).map (Op.send d) := by
  unfold packet msgs
  rw [expand_cons, List.map_cons]
  show [_] ++ _ = _
  rw [List.singleton_append]
  congr 1
  induction l with
  | nil => rfl
  | cons a l ih => rw [List.map_cons, expand_cons, ih]; rfl

section
variable (n : Nat) (plus minus : Nat → List M)

theorem sprog_eq (k : Nat) : sprog n plus minus k =
    (if k + 1 < n then (msgs (plus k)).map (Op.send (k + 1)) else []) ++
    (if 0 < k ∧ k < n then (msgs (minus k)).map (Op.send (k - 1)) else []) ++
    ((if 0 < k ∧ k < n then List.replicate ((plus (k - 1)).length + 1) (Op.recv (k - 1)) else []) ++
    (if k + 1 < n then List.replicate ((minus (k + 1)).length + 1) (Op.recv (k + 1)) else [])) := by
  unfold sprog hprog
  rw [expand_append, expand_append, expand_append, List.append_assoc]
  congr 1
  · congr 1
    · split
      · exact expand_packet _ _ _ _
      · rfl
    · split
      · exact expand_packet _ _ _ _
      · rfl
  · congr 1
    · split
      · next h =>
        show (Op.recv (k - 1) :: List.replicate _ _) ++ [] = _
        rw [List.append_nil, List.replicate_succ]
        unfold qlen queue
        rw [if_pos (by omega)]
      · rfl
    · split
      · next h =>
        show (Op.recv (k + 1) :: List.replicate _ _) ++ [] = _
        rw [List.append_nil, List.replicate_succ]
        unfold qlen queue
        rw [if_neg (by omega)]
      · rfl

theorem sprog_sends {k l : Nat} (h : Adj n k l) : sendsTo l (sprog n plus minus k) = msgs (queue plus minus k l) := by
  rw [sprog_eq]
  simp only [sendsTo_append]
  have r0 : ∀ (p : Prop) [Decidable p] (c d : Nat), sendsTo l (if p then List.replicate c (.recv d) else []) = ([] : List (Msg M)) := by
    intro p _ c d
    split
    · exact sendsTo_replicate _ _ _
    · rfl
  rw [r0, r0, List.append_nil, List.append_nil]
  rcases h with ⟨rfl, h⟩ | ⟨rfl, h⟩
  · rw [if_pos h, sendsTo_map_send, if_pos rfl]
    unfold queue
    rw [if_pos rfl]
    split
    · rw [sendsTo_map_send, if_neg (by omega), List.append_nil]
    · simp [sendsTo]
  · have e : sendsTo l (if l + 1 + 1 < n then (msgs (plus (l + 1))).map (Op.send (l + 1 + 1)) else []) = [] := by
      split
      · rw [sendsTo_map_send, if_neg (by omega)]
      · rfl
    rw [e, List.nil_append, if_pos (by omega : 0 < l + 1 ∧ l + 1 < n), sendsTo_map_send, Nat.add_sub_cancel, if_pos rfl]
    unfold queue
    rw [if_neg (by omega)]

theorem sprog_recvs {k l : Nat} (h : Adj n k l) : recvsFrom k (sprog n plus minus l) = (queue plus minus k l).length + 1 := by
  rw [sprog_eq]
  simp only [recvsFrom_append]
  have s0 : ∀ (p : Prop) [Decidable p] (c : List (Msg M)) (d : Nat), recvsFrom k (if p then c.map (Op.send d) else []) = 0 := by
    intro p _ c d
    split
    · exact recvsFrom_map_send _ _ _
    · rfl
  rw [s0, s0, Nat.zero_add]
  rcases h with ⟨rfl, h⟩ | ⟨rfl, h⟩
  · rw [if_pos (by omega : 0 < k + 1 ∧ k + 1 < n), recvsFrom_replicate, if_pos (by omega)]
    unfold queue
    rw [if_pos rfl, Nat.add_sub_cancel]
    split
    · rw [recvsFrom_replicate, if_neg (by omega)]
    · simp [recvsFrom]
  · have e : recvsFrom (l + 1) (if 0 < l ∧ l < n then List.replicate ((plus (l - 1)).length + 1) (Op.recv (l - 1) : Op (Msg M)) else []) = 0 := by
      split
      · rw [recvsFrom_replicate, if_neg (by omega)]
      · rfl
    rw [e, Nat.zero_add, if_pos h, recvsFrom_replicate, if_pos rfl]
    unfold queue
    rw [if_neg (by omega)]

theorem sprog_mem_send {k l : Nat} {m : Msg M} (h : Op.send l m ∈ sprog n plus minus k) : Adj n k l := by
  rw [sprog_eq] at h
  simp only [List.mem_append] at h
  rcases h with (h | h) | h | h
  · split at h
    · next c =>
      obtain ⟨x, _, e⟩ := List.mem_map.mp h
      injection e with e1 e2
      exact Or.inl ⟨e1.symm, by omega⟩
    · exact absurd h (by simp)
  · split at h
    · next c =>
      obtain ⟨x, _, e⟩ := List.mem_map.mp h
      injection e with e1 e2
      exact Or.inr ⟨by omega, c.2⟩
    · exact absurd h (by simp)
  · split at h
    · have := List.eq_of_mem_replicate h; exact absurd this (by simp)
    · exact absurd h (by simp)
  · split at h
    · have := List.eq_of_mem_replicate h; exact absurd this (by simp)
    · exact absurd h (by simp)

theorem sprog_mem_recv {k l : Nat} (h : Op.recv k ∈ sprog n plus minus l) : Adj n k l := by
  rw [sprog_eq] at h
  simp only [List.mem_append] at h
  rcases h with (h | h) | h | h
  · split at h
    · obtain ⟨x, _, e⟩ := List.mem_map.mp h; exact absurd e (by simp)
    · exact absurd h (by simp)
  · split at h
    · obtain ⟨x, _, e⟩ := List.mem_map.mp h; exact absurd e (by simp)
    · exact absurd h (by simp)
  · split at h
    · next c =>
      have := List.eq_of_mem_replicate h
      injection this with e
      exact Or.inl ⟨by omega, c.2⟩
    · exact absurd h (by simp)
  · split at h
    · next c =>
      have := List.eq_of_mem_replicate h
      injection this with e
      exact Or.inr ⟨by omega, by omega⟩
    · exact absurd h (by simp)

theorem sprog_outside (k : Nat) (hk : n ≤ k) : sprog n plus minus k = [] := by
  rw [sprog_eq, if_neg (by omega), if_neg (by omega), if_neg (by omega), if_neg (by omega)]
  rfl

end

/-- Number of receives of a number from `k`. -/
def counts (k : Nat) : List (HOp M) → Nat
  | [] => 0
  | .send _ _ :: r => counts k r
  | .recvItem _ :: r => counts k r
  | .recvCount s :: r => if s = k then counts k r + 1 else counts k r

theorem counts_append (k : Nat) (a b : List (HOp M)) : counts k (a ++ b) = counts k a + counts k b := by
  induction a with
  | nil => simp [counts]
  | cons x a ih =>
    cases x with
    | send d m => simpa only [List.cons_append, counts] using ih
    | recvItem d => simpa only [List.cons_append, counts] using ih
    | recvCount s =>
      simp only [List.cons_append, counts]
      split <;> omega

theorem counts_items (k d c : Nat) : counts k (List.replicate c (HOp.recvItem d : HOp M)) = 0 := by
  induction c with
  | zero => rfl
  | succ c ih => rw [List.replicate_succ]; exact ih

theorem counts_packet (k d : Nat) (l : List M) : counts k (packet d l) = 0 := by
  unfold packet
  show counts k (l.map _) = 0
  induction l with
  | nil => rfl
  | cons a l ih => exact ih

theorem hprog_counts (n : Nat) (plus minus : Nat → List M) (k l : Nat) : counts k (hprog n plus minus l) ≤ 1 := by
  unfold hprog
  rw [counts_append, counts_append, counts_append]
  have s0 : ∀ (p : Prop) [Decidable p] (c : List M) (d : Nat), counts k (if p then packet d c else []) = 0 := by
    intro p _ c d
    split
    · exact counts_packet _ _ _
    · rfl
  rw [s0, s0]
  by_cases h1 : 0 < l ∧ l < n
  · by_cases h2 : l + 1 < n
    · rw [if_pos h1, if_pos h2]
      simp only [counts]
      split <;> split <;> omega
    · rw [if_pos h1, if_neg h2]
      simp only [counts]
      split <;> omega
  · by_cases h2 : l + 1 < n
    · rw [if_neg h1, if_pos h2]
      simp only [counts]
      split <;> omega
    · rw [if_neg h1, if_neg h2]
      simp [counts]

theorem hprog_no_items (n : Nat) (plus minus : Nat → List M) (k l : Nat) : HOp.recvItem k ∉ hprog n plus minus l := by
  unfold hprog packet
  simp only [List.mem_append]
  rintro (((h | h) | h) | h) <;> split at h <;> simp at h

/-- Simulation by the machine with known numbers. -/
structure Sim (cap n : Nat) (plus minus : Nat → List M) (s : HState M) (t : State (Msg M)) : Prop where
  rest : ∀ l, t.rest l = expand (qlen plus minus) l (s.rest l)
  chan : t.chan = s.chan
  got : ∀ l k, s.got l k = items (t.got l k)
  inv : Inv cap (sprog n plus minus) t
  once : ∀ k l, counts k (s.rest l) ≤ 1
  fresh : ∀ k l, 0 < counts k (s.rest l) → t.got l k = []
  item : ∀ k l, HOp.recvItem k ∈ s.rest l → t.got l k ≠ []

theorem sim_init (cap n : Nat) (plus minus : Nat → List M) :
    Sim cap n plus minus (hinit n plus minus) ⟨sprog n plus minus, fun _ _ => [], fun _ _ => []⟩ :=
  ⟨fun l => rfl, rfl, fun l k => rfl,
    ⟨fun k => ⟨[], rfl⟩, fun k l => rfl, fun k l => by simp, fun k l => Nat.zero_le _⟩,
    fun k l => hprog_counts n plus minus k l, fun k l _ => rfl, fun k l h => absurd h (hprog_no_items n plus minus k l)⟩

theorem counts_pos_mem (k : Nat) (l : List (HOp M)) (h : HOp.recvCount k ∈ l) : 0 < counts k l := by
  induction l with
  | nil => exact absurd h (by simp)
  | cons x l ih =>
    rcases List.mem_cons.mp h with h | h
    · subst h; simp [counts]
    · have := ih h
      cases x with
      | send d m => exact this
      | recvItem d => exact this
      | recvCount s => simp only [counts]; split <;> omega

/-- A receive that is waiting has a neighbour as its source. -/
theorem sim_adj {cap n : Nat} {plus minus : Nat → List M} {s : HState M} {t : State (Msg M)} (S : Sim cap n plus minus s t)
    {k l : Nat} (h : Op.recv k ∈ t.rest l) : Adj n k l := by
  obtain ⟨pre, hp⟩ := S.inv.suffix l
  apply sprog_mem_recv n plus minus
  rw [← hp]
  exact List.mem_append_right _ h

theorem sim_count {cap n : Nat} {plus minus : Nat → List M} {s : HState M} {t : State (Msg M)} (S : Sim cap n plus minus s t)
    {k l c : Nat} {r : List (HOp M)} {ch : List (Msg M)} (h : s.rest l = .recvCount k :: r)
    (hf : ch.head? = some (.count c)) (hfl : ∃ x, t.chan k l ++ sendsTo l (t.rest k) = ch ++ x) :
    c = qlen plus minus k l ∧ t.got l k = [] ∧ t.rest l = .recv k :: (List.replicate c (.recv k) ++ expand (qlen plus minus) l r) := by
  have hr := S.rest l
  rw [h, expand_cons] at hr
  have adj : Adj n k l := sim_adj S (by rw [hr]; simp [expandOp])
  have g0 : t.got l k = [] := S.fresh k l (by rw [h]; simp [counts])
  have fl := S.inv.flow k l
  rw [g0, List.nil_append, sprog_sends n plus minus adj] at fl
  obtain ⟨x, hx⟩ := hfl
  rw [hx] at fl
  have e := congrArg List.head? fl
  cases ch with
  | nil => simp at hf
  | cons a ch =>
    simp only [List.head?_cons, Option.some.injEq] at hf
    subst hf
    simp only [List.cons_append, List.head?_cons, msgs, Option.some.injEq] at e
    injection e with e
    have e' : c = qlen plus minus k l := e
    refine ⟨e', g0, ?_⟩
    rw [hr]
    simp [expandOp, ← e']

theorem sim_step {cap n : Nat} {plus minus : Nat → List M} {s s' : HState M} {t : State (Msg M)} (S : Sim cap n plus minus s t)
    (h : HStep cap s s') : ∃ t', Step cap t t' ∧ Sim cap n plus minus s' t' := by
  cases h with
  | send k l msg r hk hc =>
    have hr : t.rest k = .send l msg :: expand (qlen plus minus) k r := by rw [S.rest k, hk]; rfl
    have st := Step.send (cap := cap) t k l msg _ hr (by rw [S.chan]; exact hc)
    refine ⟨_, st, ⟨?_, ?_, S.got, inv_step S.inv st, ?_, ?_, ?_⟩⟩
    · intro a
      dsimp only
      by_cases e : a = k
      · subst e; rw [set1_same, set1_same]
      · rw [set1_ne _ _ e, set1_ne _ _ e, S.rest a]
    · dsimp only; rw [S.chan]
    · intro a b
      have := S.once a b
      by_cases e : b = k
      · subst e; rw [hk] at this; dsimp only; rw [set1_same]; exact this
      · dsimp only; rw [set1_ne _ _ e]; exact this
    · intro a b
      have := S.fresh a b
      by_cases e : b = k
      · subst e; rw [hk] at this; dsimp only; rw [set1_same]; exact this
      · dsimp only; rw [set1_ne _ _ e]; exact this
    · intro a b
      have := S.item a b
      by_cases e : b = k
      · subst e; rw [hk] at this; dsimp only; rw [set1_same]; exact fun x => this (List.mem_cons_of_mem _ x)
      · dsimp only; rw [set1_ne _ _ e]; exact this
  | recvCount k l c ch r hl hch =>
    obtain ⟨e1, g0, hr⟩ := sim_count S hl (ch := .count c :: ch) rfl
      ⟨sendsTo l (t.rest k), by rw [S.chan, hch]⟩
    have st := Step.recv (cap := cap) t k l (.count c) ch _ hr (by rw [S.chan]; exact hch)
    refine ⟨_, st, ⟨?_, ?_, ?_, inv_step S.inv st, ?_, ?_, ?_⟩⟩
    · intro a
      dsimp only
      by_cases e : a = l
      · subst e; rw [set1_same, set1_same, expand_append, expand_items]
      · rw [set1_ne _ _ e, set1_ne _ _ e, S.rest a]
    · dsimp only; rw [S.chan]
    · intro a b
      dsimp only
      by_cases e : a = l ∧ b = k
      · obtain ⟨rfl, rfl⟩ := e; rw [set2_same, items_append, S.got, g0]; rfl
      · rw [set2_ne _ _ e]; exact S.got a b
    · intro a b
      have := S.once a b
      dsimp only
      by_cases e : b = l
      · subst e
        rw [hl] at this
        rw [set1_same, counts_append, counts_items, Nat.zero_add]
        simp only [counts] at this
        split at this <;> omega
      · rw [set1_ne _ _ e]; exact this
    · intro a b
      have f := S.fresh a b
      have o := S.once a b
      dsimp only
      by_cases e : b = l
      · subst e
        rw [set1_same, counts_append, counts_items, Nat.zero_add]
        rw [hl] at f o
        simp only [counts] at f o
        intro h0
        by_cases e' : k = a
        · subst e'
          rw [if_pos rfl] at o
          omega
        · rw [if_neg e'] at f
          rw [set2_ne _ _ (by rintro ⟨_, rfl⟩; exact e' rfl)]
          exact f h0
      · rw [set1_ne _ _ e, set2_ne _ _ (by tauto)]; exact f
    · intro a b
      have i := S.item a b
      dsimp only
      by_cases e : b = l
      · subst e
        rw [set1_same]
        by_cases e' : k = a
        · subst e'
          intro _
          rw [set2_same]
          simp
        · rw [set2_ne _ _ (by rintro ⟨_, rfl⟩; exact e' rfl)]
          intro h0
          apply i
          rw [hl]
          rcases List.mem_append.mp h0 with h0 | h0
          · have := List.eq_of_mem_replicate h0
            injection this with this
            exact absurd this.symm e'
          · exact List.mem_cons_of_mem _ h0
      · rw [set1_ne _ _ e, set2_ne _ _ (by tauto)]; exact i
  | recvItem k l m ch r hl hch =>
    have hr : t.rest l = .recv k :: expand (qlen plus minus) l r := by rw [S.rest l, hl]; rfl
    have st := Step.recv (cap := cap) t k l (.item m) ch _ hr (by rw [S.chan]; exact hch)
    refine ⟨_, st, ⟨?_, ?_, ?_, inv_step S.inv st, ?_, ?_, ?_⟩⟩
    · intro a
      dsimp only
      by_cases e : a = l
      · subst e; rw [set1_same, set1_same]
      · rw [set1_ne _ _ e, set1_ne _ _ e, S.rest a]
    · dsimp only; rw [S.chan]
    · intro a b
      dsimp only
      by_cases e : a = l ∧ b = k
      · obtain ⟨rfl, rfl⟩ := e; rw [set2_same, set2_same, items_append, S.got]; rfl
      · rw [set2_ne _ _ e, set2_ne _ _ e]; exact S.got a b
    · intro a b
      have := S.once a b
      dsimp only
      by_cases e : b = l
      · subst e; rw [hl] at this; rw [set1_same]; exact this
      · rw [set1_ne _ _ e]; exact this
    · intro a b
      have f := S.fresh a b
      dsimp only
      by_cases e : b = l
      · subst e
        rw [set1_same]
        rw [hl] at f
        intro h0
        have g := f h0
        by_cases e' : a = k
        · subst e'
          exact absurd g (S.item a b (by rw [hl]; simp))
        · rw [set2_ne _ _ (by tauto)]; exact g
      · rw [set1_ne _ _ e, set2_ne _ _ (by tauto)]; exact f
    · intro a b
      have i := S.item a b
      dsimp only
      by_cases e : b = l
      · subst e
        rw [set1_same]
        intro h0
        by_cases e' : a = k
        · subst e'; rw [set2_same]; simp
        · rw [set2_ne _ _ (by tauto)]
          exact i (by rw [hl]; exact List.mem_cons_of_mem _ h0)
      · rw [set1_ne _ _ e, set2_ne _ _ (by tauto)]; exact i
  | rdvCount k l c r r' hne hk hl hch =>
    have hrk : t.rest k = .send l (.count c) :: expand (qlen plus minus) k r := by rw [S.rest k, hk]; rfl
    obtain ⟨e1, g0, hr⟩ := sim_count S hl (ch := [.count c]) rfl
      ⟨sendsTo l (expand (qlen plus minus) k r), by rw [S.chan, hch, hrk]; simp [sendsTo]⟩
    have st := Step.rdv (cap := cap) t k l (.count c) _ _ hne hrk hr (by rw [S.chan]; exact hch)
    refine ⟨_, st, ⟨?_, S.chan, ?_, inv_step S.inv st, ?_, ?_, ?_⟩⟩
    · intro a
      dsimp only
      by_cases e : a = l
      · subst e; rw [set1_same, set1_same, expand_append, expand_items]
      · rw [set1_ne _ _ e, set1_ne _ _ e]
        by_cases e' : a = k
        · subst e'; rw [set1_same, set1_same]
        · rw [set1_ne _ _ e', set1_ne _ _ e', S.rest a]
    · intro a b
      dsimp only
      by_cases e : a = l ∧ b = k
      · obtain ⟨rfl, rfl⟩ := e; rw [set2_same, items_append, S.got, g0]; rfl
      · rw [set2_ne _ _ e]; exact S.got a b
    · intro a b
      have := S.once a b
      dsimp only
      by_cases e : b = l
      · subst e
        rw [hl] at this
        rw [set1_same, counts_append, counts_items, Nat.zero_add]
        simp only [counts] at this
        split at this <;> omega
      · rw [set1_ne _ _ e]
        by_cases e' : b = k
        · subst e'; rw [hk] at this; rw [set1_same]; exact this
        · rw [set1_ne _ _ e']; exact this
    · intro a b
      have f := S.fresh a b
      have o := S.once a b
      dsimp only
      by_cases e : b = l
      · subst e
        rw [set1_same, counts_append, counts_items, Nat.zero_add]
        rw [hl] at f o
        simp only [counts] at f o
        intro h0
        by_cases e' : k = a
        · subst e'
          rw [if_pos rfl] at o
          omega
        · rw [if_neg e'] at f
          rw [set2_ne _ _ (by rintro ⟨_, rfl⟩; exact e' rfl)]
          exact f h0
      · rw [set1_ne _ _ e, set2_ne _ _ (by tauto)]
        by_cases e' : b = k
        · subst e'; rw [hk] at f; rw [set1_same]; exact f
        · rw [set1_ne _ _ e']; exact f
    · intro a b
      have i := S.item a b
      dsimp only
      by_cases e : b = l
      · subst e
        rw [set1_same]
        by_cases e' : k = a
        · subst e'
          intro _
          rw [set2_same]
          simp
        · rw [set2_ne _ _ (by rintro ⟨_, rfl⟩; exact e' rfl)]
          intro h0
          apply i
          rw [hl]
          rcases List.mem_append.mp h0 with h0 | h0
          · have := List.eq_of_mem_replicate h0
            injection this with this
            exact absurd this.symm e'
          · exact List.mem_cons_of_mem _ h0
      · rw [set1_ne _ _ e, set2_ne _ _ (by tauto)]
        by_cases e' : b = k
        · subst e'; rw [hk] at i; rw [set1_same]; exact fun x => i (List.mem_cons_of_mem _ x)
        · rw [set1_ne _ _ e']; exact i
  | rdvItem k l m r r' hne hk hl hch =>
    have hrk : t.rest k = .send l (.item m) :: expand (qlen plus minus) k r := by rw [S.rest k, hk]; rfl
    have hr : t.rest l = .recv k :: expand (qlen plus minus) l r' := by rw [S.rest l, hl]; rfl
    have st := Step.rdv (cap := cap) t k l (.item m) _ _ hne hrk hr (by rw [S.chan]; exact hch)
    refine ⟨_, st, ⟨?_, S.chan, ?_, inv_step S.inv st, ?_, ?_, ?_⟩⟩
    · intro a
      dsimp only
      by_cases e : a = l
      · subst e; rw [set1_same, set1_same]
      · rw [set1_ne _ _ e, set1_ne _ _ e]
        by_cases e' : a = k
        · subst e'; rw [set1_same, set1_same]
        · rw [set1_ne _ _ e', set1_ne _ _ e', S.rest a]
    · intro a b
      dsimp only
      by_cases e : a = l ∧ b = k
      · obtain ⟨rfl, rfl⟩ := e; rw [set2_same, set2_same, items_append, S.got]; rfl
      · rw [set2_ne _ _ e, set2_ne _ _ e]; exact S.got a b
    · intro a b
      have := S.once a b
      dsimp only
      by_cases e : b = l
      · subst e; rw [hl] at this; rw [set1_same]; exact this
      · rw [set1_ne _ _ e]
        by_cases e' : b = k
        · subst e'; rw [hk] at this; rw [set1_same]; exact this
        · rw [set1_ne _ _ e']; exact this
    · intro a b
      have f := S.fresh a b
      dsimp only
      by_cases e : b = l
      · subst e
        rw [set1_same]
        rw [hl] at f
        intro h0
        have g := f h0
        by_cases e' : a = k
        · subst e'
          exact absurd g (S.item a b (by rw [hl]; simp))
        · rw [set2_ne _ _ (by tauto)]; exact g
      · rw [set1_ne _ _ e, set2_ne _ _ (by tauto)]
        by_cases e' : b = k
        · subst e'; rw [hk] at f; rw [set1_same]; exact f
        · rw [set1_ne _ _ e']; exact f
    · intro a b
      have i := S.item a b
      dsimp only
      by_cases e : b = l
      · subst e
        rw [set1_same]
        intro h0
        by_cases e' : a = k
        · subst e'; rw [set2_same]; simp
        · rw [set2_ne _ _ (by tauto)]
          exact i (by rw [hl]; exact List.mem_cons_of_mem _ h0)
      · rw [set1_ne _ _ e, set2_ne _ _ (by tauto)]
        by_cases e' : b = k
        · subst e'; rw [hk] at i; rw [set1_same]; exact fun x => i (List.mem_cons_of_mem _ x)
        · rw [set1_ne _ _ e']; exact i

theorem sim_run {cap n m : Nat} {plus minus : Nat → List M} {s : HState M} (h : HRun cap n plus minus m s) :
    ∃ t, Sim cap n plus minus s t := by
  induction h with
  | start => exact ⟨_, sim_init cap n plus minus⟩
  | step _ hs ih =>
    obtain ⟨t, S⟩ := ih
    obtain ⟨t', _, S'⟩ := sim_step S hs
    exact ⟨t', S'⟩

end Mpi
end Pico
