import Verif.Lemmas.Corner
import Mathlib.Algebra.BigOperators.Group.List.Basic
import Mathlib.Algebra.BigOperators.Group.List.Lemmas

/-! The exchanges of an overlay pass as events that add to a cell the copy of it that another domain holds.  What the cells of
the domains hold after all of them, in whatever order. -/

set_option linter.unusedSimpArgs false
set_option linter.unusedVariables false
set_option linter.unusedSectionVars false

namespace Pico
namespace SMB

variable {T : Type _}

/-- Events `E` that add to the cell `x` the cell `p e x`, if there is one. -/
def addFrom [Add T] [Zero T] {E L : Type _} (p : E → L → Option L) (m : L → T) (e : E) : L → T :=
  fun x => m x + (p e x).elim 0 m

/-- If the cell that an event adds to `x` has not been touched by earlier events, all events add the initial values. -/
theorem foldl_addFrom [AddCommMonoid T] {E L : Type _} (p : E → L → Option L) (x : L) (l : List E)
    (h : l.Pairwise fun e f => ∀ y, p f x = some y → p e y = none) (m : L → T) :
    (l.foldl (addFrom p) m) x = m x + (l.map fun e => (p e x).elim 0 m).sum := by
  induction l generalizing m with
  | nil => simp
  | cons e l ih =>
    obtain ⟨h1, h2⟩ := List.pairwise_cons.mp h
    rw [List.foldl_cons, ih h2, List.map_cons, List.sum_cons, addFrom, add_assoc]
    congr 2
    refine congrArg List.sum (List.map_congr_left fun f hf => ?_)
    cases hy : p f x with
    | none => rfl
    | some y =>
      show addFrom p m e y = m y
      rw [addFrom, h1 f hf y hy]
      exact add_zero _

/-- Exchange with the domain above, to the right, or diagonally. -/
inductive Ev where
  | x (a b : Nat)
  | y (a b : Nat)
  | d (a b : Nat)
  deriving DecidableEq

/-- The other copy of a cell in an exchange. -/
def partner (os : Nat) (xs ys : Nat → Nat) (n : Nat) : Ev → DLoc → Option DLoc
  | .x a b, (i, j, r, c) =>
    if j = b ∧ os ≤ c ∧ c < ys b + os then
      if i = a ∧ xs a ≤ r ∧ r < xs a + 2*os then some (a+1, b, r - xs a, c)
      else if i = a + 1 ∧ r < 2*os then some (a, b, xs a + r, c)
      else none
    else none
  | .y a b, (i, j, r, c) =>
    if i = a ∧ os ≤ r ∧ r < xs a + os then
      if j = b ∧ ys b ≤ c ∧ c < ys b + 2*os then some (a, b+1, r, c - ys b)
      else if j = b + 1 ∧ c < 2*os then some (a, b, r, ys b + c)
      else none
    else none
  | .d a b, (i, j, r, c) =>
    if i = a ∧ j = b ∧
        ((n ≤ r ∧ r < n + os ∧ n ≤ c ∧ c < n + os) ∨
         (n + os ≤ r ∧ r < n + 2*os ∧ n + os ≤ c ∧ c < n + 2*os)) then
      some (a+1, b+1, r - n, c - n)
    else if i = a + 1 ∧ j = b + 1 ∧
        ((r < os ∧ c < os) ∨ (os ≤ r ∧ r < 2*os ∧ os ≤ c ∧ c < 2*os)) then
      some (a, b, n + r, n + c)
    else none

/-- The events of one visit. -/
def evAt (nr nz : Nat) (p : Nat × Nat) : List Ev :=
  (if p.1 + 1 < nr then [.x p.1 p.2] else []) ++ ((if p.2 + 1 < nz then [.y p.1 p.2] else []) ++
    if p.1 + 1 < nr ∧ p.2 + 1 < nz then [.d p.1 p.2] else [])

section
variable [AddCommMonoid T]

theorem stX_addFrom (os : Nat) (xs ys : Nat → Nat) (n a b : Nat) (m : DLoc → T) :
    stX os xs ys a b m = addFrom (partner os xs ys n) m (.x a b) := by
  funext x
  obtain ⟨i, j, r, c⟩ := x
  rw [stX_app, addFrom, partner]
  split_ifs with h1 h2 h3
  · obtain ⟨rfl, _⟩ := h1
    obtain ⟨rfl, _⟩ := h2
    rfl
  · obtain ⟨rfl, _⟩ := h1
    obtain ⟨rfl, _⟩ := h3
    exact add_comm _ _
  · exact (add_zero _).symm
  · exact (add_zero _).symm

theorem stY_addFrom (os : Nat) (xs ys : Nat → Nat) (n a b : Nat) (m : DLoc → T) :
    stY os xs ys a b m = addFrom (partner os xs ys n) m (.y a b) := by
  funext x
  obtain ⟨i, j, r, c⟩ := x
  rw [stY_app, addFrom, partner]
  split_ifs with h1 h2 h3
  · obtain ⟨rfl, _⟩ := h1
    obtain ⟨rfl, _⟩ := h2
    rfl
  · obtain ⟨rfl, _⟩ := h1
    obtain ⟨rfl, _⟩ := h3
    exact add_comm _ _
  · exact (add_zero _).symm
  · exact (add_zero _).symm

theorem stXY_addFrom (os : Nat) (xs ys : Nat → Nat) (n a b : Nat) (m : DLoc → T) :
    stXY os n a b m = addFrom (partner os xs ys n) m (.d a b) := by
  funext x
  obtain ⟨i, j, r, c⟩ := x
  rw [stXY_app, addFrom, partner]
  split_ifs with h1 h2
  · rfl
  · exact add_comm _ _
  · exact (add_zero _).symm

theorem stAt_events (os : Nat) (xs ys : Nat → Nat) (nr nz : Nat) (m : DLoc → T) (p : Nat × Nat) :
    stAt os xs ys nr nz m p = (evAt nr nz p).foldl (addFrom (partner os xs ys (xs 0))) m := by
  unfold stAt evAt
  rw [List.foldl_append, List.foldl_append]
  dsimp only
  rw [show (if p.1 + 1 < nr then stX os xs ys p.1 p.2 m else m) =
      List.foldl (addFrom (partner os xs ys (xs 0))) m (if p.1 + 1 < nr then [.x p.1 p.2] else []) by
    split_ifs
    · rw [List.foldl_cons, List.foldl_nil, stX_addFrom os xs ys (xs 0)]
    · rfl]
  generalize List.foldl (addFrom (partner os xs ys (xs 0))) m (if p.1 + 1 < nr then [Ev.x p.1 p.2] else []) = m1
  rw [show (if p.2 + 1 < nz then stY os xs ys p.1 p.2 m1 else m1) =
      List.foldl (addFrom (partner os xs ys (xs 0))) m1 (if p.2 + 1 < nz then [.y p.1 p.2] else []) by
    split_ifs
    · rw [List.foldl_cons, List.foldl_nil, stY_addFrom os xs ys (xs 0)]
    · rfl]
  generalize List.foldl (addFrom (partner os xs ys (xs 0))) m1 (if p.2 + 1 < nz then [Ev.y p.1 p.2] else []) = m2
  split_ifs
  · rw [List.foldl_cons, List.foldl_nil, stXY_addFrom os xs ys (xs 0)]
  · rfl

theorem foldl_events (os : Nat) (xs ys : Nat → Nat) (nr nz : Nat) (l : List (Nat × Nat)) (m : DLoc → T) :
    l.foldl (stAt os xs ys nr nz) m = (l.flatMap (evAt nr nz)).foldl (addFrom (partner os xs ys (xs 0))) m := by
  induction l generalizing m with
  | nil => rfl
  | cons p l ih => rw [List.foldl_cons, ih, List.flatMap_cons, List.foldl_append, stAt_events]

theorem sum_events (nr nz : Nat) (g : Ev → T) (l : List (Nat × Nat)) :
    ((l.flatMap (evAt nr nz)).map g).sum =
      (l.map fun p => if p.1 + 1 < nr then g (.x p.1 p.2) else 0).sum +
      (l.map fun p => if p.2 + 1 < nz then g (.y p.1 p.2) else 0).sum +
      (l.map fun p => if p.1 + 1 < nr ∧ p.2 + 1 < nz then g (.d p.1 p.2) else 0).sum := by
  induction l with
  | nil => simp
  | cons p l ih =>
    rw [List.flatMap_cons, List.map_append, List.sum_append, ih, List.map_cons, List.sum_cons, List.map_cons, List.sum_cons,
      List.map_cons, List.sum_cons]
    have : ((evAt nr nz p).map g).sum = (if p.1 + 1 < nr then g (.x p.1 p.2) else 0) +
        ((if p.2 + 1 < nz then g (.y p.1 p.2) else 0) + if p.1 + 1 < nr ∧ p.2 + 1 < nz then g (.d p.1 p.2) else 0) := by
      unfold evAt
      rw [List.map_append, List.sum_append, List.map_append, List.sum_append]
      congr 1
      · split_ifs <;> simp
      · congr 1 <;> split_ifs <;> simp
    rw [this]
    ac_rfl

theorem sum_one {α : Type _} [DecidableEq α] (l : List α) (nd : l.Nodup) (q : α) (v : T) :
    (l.map fun p => if p = q then v else 0).sum = if q ∈ l then v else 0 := by
  induction l with
  | nil => simp
  | cons a l ih =>
    obtain ⟨n1, n2⟩ := List.nodup_cons.mp nd
    rw [List.map_cons, List.sum_cons, ih n2]
    by_cases h : a = q
    · subst h
      rw [if_pos rfl, if_neg n1, if_pos List.mem_cons_self, add_zero]
    · rw [if_neg h, zero_add]
      by_cases k : q ∈ l
      · rw [if_pos k, if_pos (List.mem_cons_of_mem _ k)]
      · rw [if_neg k, if_neg (fun hq => (List.mem_cons.mp hq).elim (fun e => h e.symm) k)]

theorem nodup_events (nr nz : Nat) (l : List (Nat × Nat)) (nd : l.Nodup) : (l.flatMap (evAt nr nz)).Nodup := by
  rw [List.nodup_flatMap]
  constructor
  · intro p _
    unfold evAt
    split_ifs <;> simp
  · refine nd.imp ?_
    rintro ⟨a, b⟩ ⟨a', b'⟩ hne
    rw [Function.onFun, List.disjoint_left]
    intro e h1 h2
    unfold evAt at h1 h2
    apply hne
    simp only [List.mem_append, List.mem_ite_nil_right, List.mem_singleton] at h1 h2
    rcases h1 with ⟨_, rfl⟩ | ⟨_, rfl⟩ | ⟨_, rfl⟩ <;> rcases h2 with ⟨_, h⟩ | ⟨_, h⟩ | ⟨_, h⟩ <;> simp_all

set_option maxHeartbeats 2000000 in
/-- A copy of a logical cell takes part in no other exchange. -/
theorem partner_alone (os : Nat) (xs ys : Nat → Nat) (nr nz n : Nat) (hn : ∀ i j, i + 1 < nr → j + 1 < nz → xs i = n ∧ ys j = n)
    (hxs : ∀ i, i < nr → os ≤ xs i) (hys : ∀ j, j < nz → os ≤ ys j)
    {i j r c : Nat} (hi : i < nr) (hj : j < nz) (h1 : os ≤ r ∧ r < xs i + os) (h2 : os ≤ c ∧ c < ys j + os)
    {e f : Ev} (hne : e ≠ f) (he : ∃ p ∈ sweep nr nz, e ∈ evAt nr nz p) (hf : ∃ p ∈ sweep nr nz, f ∈ evAt nr nz p)
    {y : DLoc} (hy : partner os xs ys n f (i, j, r, c) = some y) : partner os xs ys n e y = none := by
  obtain ⟨⟨a, b⟩, ha, he⟩ := he
  obtain ⟨⟨a', b'⟩, ha', hf⟩ := hf
  rw [mem_sweep] at ha ha'
  dsimp only at ha ha'
  unfold evAt at he hf
  simp only [List.mem_append, List.mem_ite_nil_right, List.mem_singleton] at he hf
  have X : ∀ u v : Nat, u = v → xs u = xs v := fun u v h => by rw [h]
  have Y : ∀ u v : Nat, u = v → ys u = ys v := fun u v h => by rw [h]
  have x1 := X i a'
  have x2 := X i (a' + 1)
  have x3 := X a' a
  have x4 := X (a' + 1) a
  have x5 := X a' (a + 1)
  have y1 := Y j b'
  have y2 := Y j (b' + 1)
  have y3 := Y b' b
  have y4 := Y (b' + 1) b
  have y5 := Y b' (b + 1)
  have z1 := hxs a ha.1
  have z2 := hxs a' ha'.1
  have w1 := hys b ha.2
  have w2 := hys b' ha'.2
  have n1 := hn a b
  have n2 := hn a' b'
  clear X Y hxs hys hn
  rcases hf with ⟨f1, rfl⟩ | ⟨f1, rfl⟩ | ⟨f1, rfl⟩ <;> dsimp only [partner] at hy <;> split_ifs at hy <;>
    (obtain rfl := Option.some.inj hy) <;>
    rcases he with ⟨e1, rfl⟩ | ⟨e1, rfl⟩ | ⟨e1, rfl⟩ <;> dsimp only [partner] <;>
    simp only [ne_eq, Ev.x.injEq, Ev.y.injEq, Ev.d.injEq] at hne <;> split_ifs <;> (first | rfl | (exfalso; omega))

end
end SMB
end Pico
