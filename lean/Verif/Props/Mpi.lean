import Verif.Lemmas.Mpi
import Verif.Props.Grid
import Mathlib.Algebra.Group.Basic

/-! # C12 — exchange of overlay columns between processes -/

set_option linter.unusedSimpArgs false
set_option linter.unusedVariables false

namespace Pico
namespace Mpi

variable {M : Type _}

/-- Every process packs the same number `m` of items (one per domain row, and every process
has the same number of domain rows). -/
def Uniform (n m : Nat) (plus minus : Nat → List M) : Prop :=
  ∀ k, k < n → (plus k).length = m ∧ (minus k).length = m

theorem suffix_mem {α : Type _} {pre r l : List α} {x : α} (h : pre ++ x :: r = l) : x ∈ l := by
  rw [← h]; simp

/-- A process that is about to send has room if the library buffers one round of items. -/
theorem send_room {cap n m : Nat} {plus minus : Nat → List M} (U : Uniform n m plus minus)
    (hc : m ≤ cap) {s : State M} (I : Inv cap (prog n plus minus) s) {k l : Nat} {msg : M}
    {r : List (Op M)} (h : s.rest k = .send l msg :: r) : (s.chan k l).length < cap := by
  obtain ⟨pre, hp⟩ := I.suffix k
  rw [h] at hp
  have hf := congrArg List.length (I.flow k l)
  rw [h] at hf
  have hm : (sendsTo l (prog n plus minus k)).length = m := by
    rcases prog_mem_send n plus minus k l msg (suffix_mem hp) with ⟨rfl, hk⟩ | ⟨rfl, hk⟩
    · rw [prog_sends_up n plus minus k hk]; exact (U k (by omega)).1
    · rw [prog_sends_down n plus minus l hk]; exact (U (l + 1) hk).2
  rw [hm] at hf
  simp only [sendsTo, if_pos rfl, List.length_append, List.length_cons, if_true] at hf
  omega

/-- **Progress**: if the library buffers at least one round of items per neighbour (as many
messages as there are domain rows), then in no reachable state are all unfinished processes
blocked.  What is missing from the property is the assumption on buffering, see
`C12_deadlock`. -/
theorem C12_progress_partial {cap n m : Nat} {plus minus : Nat → List M}
    (U : Uniform n m plus minus) (hc : m ≤ cap) {s : State M} (hr : Reach cap n plus minus s) :
    Final s ∨ ∃ s', Step cap s s' := by
  have I := inv_reach hr
  by_cases hF : Final s
  · exact Or.inl hF
  right
  -- the highest unfinished process
  have hex : ∃ r, r < n ∧ s.rest r ≠ [] ∧ ∀ q, r < q → s.rest q = [] := by
    have hout : ∀ q, n ≤ q → s.rest q = [] := by
      intro q hq
      obtain ⟨pre, hp⟩ := I.suffix q
      rw [prog_outside n plus minus q hq] at hp
      exact (List.append_eq_nil_iff.mp hp).2
    have : ∀ d, (∀ q, d ≤ q → s.rest q = []) → ∃ r, r < n ∧ s.rest r ≠ [] ∧ ∀ q, r < q → s.rest q = [] := by
      intro d
      induction d with
      | zero => intro h; exact absurd (fun k => h k (Nat.zero_le _)) hF
      | succ d ih =>
        intro h
        by_cases he : s.rest d = []
        · refine ih (fun q hq => ?_)
          by_cases e : q = d
          · rw [e]; exact he
          · exact h q (by omega)
        · refine ⟨d, ?_, he, fun q hq => h q hq⟩
          by_contra hd
          exact he (hout d (by omega))
    exact this n hout
  obtain ⟨r, hrn, hne, htop⟩ := hex
  have key : ∀ k l msg r', s.rest k = .send l msg :: r' → ∃ s', Step cap s s' :=
    fun k l msg r' h => ⟨_, Step.send s k l msg r' h (send_room U hc I h)⟩
  cases hrest : s.rest r with
  | nil => exact absurd hrest hne
  | cons op r' =>
    cases op with
    | send l msg => exact key r l msg r' hrest
    | recv src =>
      cases hch : s.chan src r with
      | cons msg ch => exact ⟨_, Step.recv s src r msg ch r' hrest hch⟩
      | nil =>
        obtain ⟨pre, hp⟩ := I.suffix r
        rw [hrest] at hp
        have hmem := prog_mem_recv n plus minus r src (suffix_mem hp)
        have hcnt := I.count src r
        rw [hrest] at hcnt
        simp only [recvsFrom, if_pos rfl, if_true] at hcnt
        have hfl := congrArg List.length (I.flow src r)
        rw [hch] at hfl
        simp only [List.append_nil, List.length_append] at hfl
        rcases hmem with ⟨rfl, hk⟩ | ⟨rfl, hk⟩
        · exfalso
          rw [htop (r + 1) (by omega), prog_sends_down n plus minus r hk] at hfl
          rw [prog_recvs_up n plus minus r hk] at hcnt
          have h1 := (U r hrn).1
          have h2 := (U (r + 1) hk).2
          simp only [sendsTo, List.length_nil] at hfl
          omega
        · rw [prog_sends_up n plus minus src hk] at hfl
          rw [prog_recvs_down n plus minus src hk] at hcnt
          have h1 := (U (src + 1) hrn).2
          have h2 := (U src (by omega)).1
          obtain ⟨R, hR, hfr⟩ := prog_front_up n plus minus src hk
          obtain ⟨pre', hp'⟩ := I.suffix src
          rw [hfr] at hp'
          rcases suffix_front (src + 1) (plus src) R (s.rest src) pre' hR hp' with h | ⟨m', r'', h⟩
          · rw [h] at hfl
            simp only [List.length_nil] at hfl
            omega
          · exact key src (src + 1) m' r'' h

/-- Operations that remain to be executed. -/
def remaining (n : Nat) (s : State M) : Nat := ((List.range n).map fun k => (s.rest k).length).sum

theorem sum_set1 (f : Nat → List (Op M)) (k : Nat) (v : List (Op M)) (h : v.length < (f k).length)
    (n : Nat) (hk : k < n) :
    ((List.range n).map fun a => (set1 f k v a).length).sum <
      ((List.range n).map fun a => (f a).length).sum := by
  induction n with
  | zero => omega
  | succ n ih =>
    rw [List.range_succ, List.map_append, List.map_append, List.sum_append, List.sum_append]
    simp only [List.map_cons, List.map_nil, List.sum_cons, List.sum_nil, Nat.add_zero]
    by_cases e : k = n
    · subst e
      rw [set1_same]
      have : ((List.range k).map fun a => (set1 f k v a).length)
          = ((List.range k).map fun a => (f a).length) := by
        apply List.map_congr_left
        intro a ha
        rw [set1_ne f v (by have := List.mem_range.mp ha; omega)]
      rw [this]
      omega
    · have := ih (by omega)
      rw [set1_ne f v (fun x => e x.symm)]
      omega

/-- **Termination**: every step strictly decreases the number of remaining operations, so no
schedule runs forever. -/
theorem C12_terminates {cap n : Nat} {plus minus : Nat → List M} {s s' : State M}
    (hr : Reach cap n plus minus s) (h : Step cap s s') : remaining n s' < remaining n s := by
  have I := inv_reach hr
  have hlt : ∀ k, s.rest k ≠ [] → k < n := by
    intro k hk
    by_contra hn
    obtain ⟨pre, hp⟩ := I.suffix k
    rw [prog_outside n plus minus k (by omega)] at hp
    exact hk (List.append_eq_nil_iff.mp hp).2
  cases h with
  | send k l msg r hk hc =>
    exact sum_set1 s.rest k r (by rw [hk]; simp) n (hlt k (by rw [hk]; simp))
  | recv k l msg ch r hl hc =>
    exact sum_set1 s.rest l r (by rw [hl]; simp) n (hlt l (by rw [hl]; simp))
  | rdv k l msg r r' hne hk hl hc =>
    refine Nat.lt_trans (sum_set1 (set1 s.rest k r) l r' ?_ n (hlt l (by rw [hl]; simp)))
      (sum_set1 s.rest k r (by rw [hk]; simp) n (hlt k (by rw [hk]; simp)))
    rw [set1_ne _ _ (fun e => hne e.symm), hl]
    simp

/-- **Delivery**: for every amount of buffering and every schedule, when all processes reach the
barrier each holds exactly the items its neighbours packed for it, in order. -/
theorem C12_delivery {cap n m : Nat} {plus minus : Nat → List M} (U : Uniform n m plus minus)
    {s : State M} (hr : Reach cap n plus minus s) (hF : Final s) (k : Nat) (hk : k + 1 < n) :
    s.got (k + 1) k = plus k ∧ s.got k (k + 1) = minus (k + 1) := by
  have I := inv_reach hr
  have up := I.flow k (k + 1)
  have dn := I.flow (k + 1) k
  have cu := I.count (k + 1) k
  have cd := I.count k (k + 1)
  rw [hF k, prog_sends_up n plus minus k hk] at up
  rw [hF (k + 1), prog_sends_down n plus minus k hk] at dn
  rw [hF k, prog_recvs_up n plus minus k hk] at cu
  rw [hF (k + 1), prog_recvs_down n plus minus k hk] at cd
  have u1 := U k (by omega)
  have u2 := U (k + 1) hk
  have lu := congrArg List.length up
  have ld := congrArg List.length dn
  simp only [sendsTo, recvsFrom, List.append_nil, List.length_append, Nat.add_zero] at *
  have e1 : s.chan k (k + 1) = [] := List.eq_nil_of_length_eq_zero (by omega)
  have e2 : s.chan (k + 1) k = [] := List.eq_nil_of_length_eq_zero (by omega)
  rw [e1, List.append_nil] at up
  rw [e2, List.append_nil] at dn
  exact ⟨up, dn⟩

/-- **Deadlock**: with two or more processes, if the library buffers fewer than one round of items
(in particular for rendezvous sends, `cap = 0`), *no* schedule finishes the exchange: the last two
processes wait for each other.  So the property is false of the code in general. -/
theorem C12_deadlock {cap n m : Nat} {plus minus : Nat → List M} (U : Uniform n m plus minus)
    (hn : 2 ≤ n) (hc : cap < m) {s : State M} (hr : Reach cap n plus minus s) : ¬ Final s := by
  obtain ⟨a, rfl⟩ : ∃ a, n = a + 2 := ⟨n - 2, by omega⟩
  have J : s.got a (a + 1) = [] ∧ s.got (a + 1) a = [] := by
    induction hr with
    | start => exact ⟨rfl, rfl⟩
    | @step s s' hr hs ih =>
      obtain ⟨ja, jb⟩ := ih
      have I := inv_reach hr
      have ua := (U a (by omega)).1
      have ub := (U (a + 1) (by omega)).2
      -- neither of the two is ever at a receive from the other
      have na : ∀ r, s.rest a ≠ .recv (a + 1) :: r := by
        intro r e
        obtain ⟨R, hR, hfr⟩ := prog_front_up (a + 2) plus minus a (by omega)
        obtain ⟨pre, hp⟩ := I.suffix a
        rw [hfr] at hp
        rcases suffix_front (a + 1) (plus a) R (s.rest a) pre hR hp with h | ⟨m', r', h⟩
        · have hf := congrArg List.length (I.flow a (a + 1))
          rw [h, jb, prog_sends_up (a + 2) plus minus a (by omega)] at hf
          have := I.room a (a + 1)
          simp only [List.nil_append, List.append_nil] at hf
          omega
        · rw [h] at e
          exact nomatch (List.cons.inj e).1
      have nb : ∀ r, s.rest (a + 1) ≠ .recv a :: r := by
        intro r e
        obtain ⟨R, hR, hfr⟩ := prog_front_last (a + 2) plus minus a rfl
        obtain ⟨pre, hp⟩ := I.suffix (a + 1)
        rw [hfr] at hp
        rcases suffix_front a (minus (a + 1)) R (s.rest (a + 1)) pre hR hp with h | ⟨m', r', h⟩
        · have hf := congrArg List.length (I.flow (a + 1) a)
          rw [h, ja, prog_sends_down (a + 2) plus minus a (by omega)] at hf
          have := I.room (a + 1) a
          simp only [List.nil_append, List.append_nil] at hf
          omega
        · rw [h] at e
          exact nomatch (List.cons.inj e).1
      cases hs with
      | send k l msg r hk hc => exact ⟨ja, jb⟩
      | recv k l msg ch r hl hch =>
        refine ⟨?_, ?_⟩
        · dsimp only
          rw [set2_ne _ _ (by rintro ⟨rfl, rfl⟩; exact na r hl)]
          exact ja
        · dsimp only
          rw [set2_ne _ _ (by rintro ⟨rfl, rfl⟩; exact nb r hl)]
          exact jb
      | rdv k l msg r r' hne hk hl hch =>
        refine ⟨?_, ?_⟩
        · dsimp only
          rw [set2_ne _ _ (by rintro ⟨rfl, rfl⟩; exact na r' hl)]
          exact ja
        · dsimp only
          rw [set2_ne _ _ (by rintro ⟨rfl, rfl⟩; exact nb r' hl)]
          exact jb
  intro hF
  have I := inv_reach hr
  have cu := I.count (a + 1) a
  rw [hF a, J.1, prog_recvs_up (a + 2) plus minus a (by omega)] at cu
  have ua := (U a (by omega)).1
  simp only [recvsFrom, List.length_nil] at cu
  omega

-- non-trivial instances: three processes, two domain rows each
example : Uniform 3 2 (fun k => [10 * k, 10 * k + 1]) (fun k => [10 * k + 5, 10 * k + 6]) :=
  fun _ _ => ⟨rfl, rfl⟩
-- the exchange does reach the barrier when buffered: two processes, one item each
example : ∃ s, Reach 1 2 (fun k => [10 * k]) (fun k => [10 * k + 5]) s ∧ Final s := by
  have s0 : Reach 1 2 (fun k => [10 * k]) (fun k => [10 * k + 5]) _ := Reach.start
  have s1 := s0.step (Step.send _ 0 1 0 _ rfl (by decide))
  have s2 := s1.step (Step.send _ 1 0 15 _ rfl (by decide))
  have s3 := s2.step (Step.recv _ 1 0 15 [] _ rfl rfl)
  have s4 := s3.step (Step.recv _ 0 1 0 [] _ rfl rfl)
  refine ⟨_, s4, ?_⟩
  intro k
  match k with
  | 0 => rfl
  | 1 => rfl
  | k + 2 =>
    show prog 2 (fun k => [10 * k]) (fun k => [10 * k + 5]) (k + 2) = []
    exact prog_outside 2 _ _ _ (by omega)

/-! ## What the exchange does to the columns -/

variable {T : Type _}

/-- Fold of single-cell increments at pairwise different cells. -/
theorem foldl_incs [Add T] (tgt : Nat × Nat → Nat × Nat) (v : Nat × Nat → T) (l : List (Nat × Nat))
    (nd : l.Nodup) (inj : ∀ p ∈ l, ∀ q ∈ l, tgt p = tgt q → p = q) (c : Nat → Nat → T) :
    (∀ p ∈ l, l.foldl (fun c p => fun a b => if a = (tgt p).1 ∧ b = (tgt p).2
        then c (tgt p).1 (tgt p).2 + v p else c a b) c (tgt p).1 (tgt p).2
          = c (tgt p).1 (tgt p).2 + v p) ∧
    (∀ a b, (∀ p ∈ l, tgt p ≠ (a, b)) → l.foldl (fun c p => fun a b =>
        if a = (tgt p).1 ∧ b = (tgt p).2
        then c (tgt p).1 (tgt p).2 + v p else c a b) c a b = c a b) := by
  induction l generalizing c with
  | nil => exact ⟨fun p hp => by simp at hp, fun a b _ => rfl⟩
  | cons q l ih =>
    have hn := List.nodup_cons.mp nd
    have ih' := ih hn.2 (fun p hp q hq => inj p (List.mem_cons_of_mem _ hp) q (List.mem_cons_of_mem _ hq))
      (fun a b => if a = (tgt q).1 ∧ b = (tgt q).2 then c (tgt q).1 (tgt q).2 + v q else c a b)
    refine ⟨?_, ?_⟩
    · intro p hp
      rw [List.foldl_cons]
      by_cases e : p = q
      · subst e
        rw [ih'.2 _ _ ?_]
        · exact if_pos ⟨rfl, rfl⟩
        · intro r hr h
          have : r = p := inj r (List.mem_cons_of_mem _ hr) p List.mem_cons_self h
          exact hn.1 (this ▸ hr)
      · have hp' : p ∈ l := by
          rcases List.mem_cons.mp hp with h | h
          · exact absurd h e
          · exact h
        rw [ih'.1 p hp', if_neg]
        rintro ⟨h1, h2⟩
        exact e (inj p hp q List.mem_cons_self (Prod.ext h1 h2))
    · intro a b hno
      rw [List.foldl_cons, ih'.2 a b (fun p hp => hno p (List.mem_cons_of_mem _ hp)), if_neg]
      rintro ⟨h1, h2⟩
      exact hno q List.mem_cons_self (Prod.ext h1.symm h2.symm)

theorem loop_incs [Add T] (g : Grid T) (f1 f2 : Nat × Nat → Int) (v : Nat × Nat → T)
    (l : List (Nat × Nat)) (nd : l.Nodup) (wf : g.WF) (hin : ∀ p ∈ l, g.Inside (f1 p) (f2 p))
    (inj : ∀ p ∈ l, ∀ q ∈ l, f1 p = f1 q → f2 p = f2 q → p = q) :
    ∃ g', loop (fun p h => h.inc (f1 p) (f2 p) (v p)) l g = .ok g' ∧ g.SameShape g' ∧
      (∀ p ∈ l, ∀ old, g.get (f1 p) (f2 p) = .ok old → g'.get (f1 p) (f2 p) = .ok (old + v p)) ∧
      (∀ x y : Int, IsInt x → IsInt y → (∀ p ∈ l, ¬ (f1 p = x ∧ f2 p = y)) →
        g'.get x y = g.get x y) := by
  let tgt : Nat × Nat → Nat × Nat := fun p => ((f1 p + g.os).toNat, (f2 p + g.os).toNat)
  have hb : ∀ p ∈ l, ∀ c, (g.withCell c).inc (f1 p) (f2 p) (v p) = .ok (g.withCell
      (fun a b => if a = (tgt p).1 ∧ b = (tgt p).2 then c (tgt p).1 (tgt p).2 + v p else c a b)) := by
    intro p hp c
    obtain ⟨⟨h1, h2⟩, h3, h4⟩ := hin p hp
    obtain ⟨w1, w2⟩ := wf
    unfold Grid.xr at w1
    unfold Grid.yr at w2
    unfold Grid.inc
    rw [Grid.withCell_os, Grid.uidx_nonneg _ _ (by omega) (by omega),
      Grid.uidx_nonneg _ _ (by omega) (by omega), Grid.upd_ok]
    · rfl
    · rw [Grid.withCell_xr]; unfold Grid.xr; omega
    · rw [Grid.withCell_yr]; unfold Grid.yr; omega
  have hinj : ∀ p ∈ l, ∀ q ∈ l, tgt p = tgt q → p = q := by
    intro p hp q hq h
    have h1 := (Prod.mk.inj h).1
    have h2 := (Prod.mk.inj h).2
    obtain ⟨⟨a1, a2⟩, a3, a4⟩ := hin p hp
    obtain ⟨⟨b1, b2⟩, b3, b4⟩ := hin q hq
    exact inj p hp q hq (by omega) (by omega)
  have hfold := foldl_incs tgt v l nd hinj g.cell
  refine ⟨_, Grid.loop_cells g _ _ l hb, ⟨rfl, rfl, rfl⟩, ?_, ?_⟩
  · intro p hp old ho
    rw [Grid.get_inside g wf (hin p hp)] at ho
    injection ho with ho
    rw [← ho]
    have hw : ∀ c, (g.withCell c).get (f1 p) (f2 p) = .ok (c (f1 p + g.os).toNat (f2 p + g.os).toNat) :=
      fun c => Grid.get_inside (g.withCell c) wf (hin p hp)
    rw [hw]
    exact congrArg Res.ok (hfold.1 p hp)
  · intro x y ix iy hno
    refine Grid.get_withCell_eq g wf _ ix iy ?_
    intro hxy
    refine hfold.2 _ _ ?_
    intro p hp h
    have h1 := (Prod.mk.inj h).1
    have h2 := (Prod.mk.inj h).2
    obtain ⟨⟨a1, a2⟩, a3, a4⟩ := hin p hp
    obtain ⟨⟨b1, b2⟩, b3, b4⟩ := hxy
    exact hno p hp ⟨by omega, by omega⟩

/-- **Both sides hold the same sum.**  `L` is the last domain of one process, `R` the first domain
of the next one (overlay width 2, equal number of rows): column `y_size + y` of `L` and column `y`
of `R` are the same physical column.  Adding the items packed *before* the exchange makes all
shared columns `-2 ≤ y < 2`, including the overlay rows, equal to the sum of both contributions in
both grids, and changes nothing else. -/
theorem C12_columns [AddCommMagma T] (L R : Grid T) (wl : L.WF) (wr : R.WF) (hl : L.os = 2)
    (hr : R.os = 2) (hx : R.xs = L.xs) (itemP itemM : Nat → Nat → T)
    (hP : ∀ q a, q < 4 → a < L.xr → packPlus L q a = .ok (itemP q a))
    (hM : ∀ q a, q < 4 → a < R.xr → packMinus R q a = .ok (itemM q a)) :
    ∃ L' R', addPlus L itemM = .ok L' ∧ addMinus R itemP = .ok R' ∧ L.SameShape L' ∧ R.SameShape R' ∧
      (∀ (x y : Int) (a b : T), -2 ≤ x → x < L.xs + 2 → -2 ≤ y → y < 2 →
        L.get x (L.ys + y) = .ok a → R.get x y = .ok b →
        L'.get x (L.ys + y) = .ok (a + b) ∧ R'.get x y = .ok (a + b)) ∧
      (∀ x y : Int, IsInt x → IsInt y → (y < L.ys - 2) → L'.get x y = L.get x y) ∧
      (∀ x y : Int, IsInt x → IsInt y → 2 ≤ y → R'.get x y = R.get x y) := by
  have hxr : R.xr = L.xr := by unfold Grid.xr; rw [hx, hl, hr]
  have hL := loop_incs L (fun p => (p.1 : Int) - L.os) (fun p => (L.ys : Int) + L.os - 1 - (p.2 : Int))
    (fun p => itemM (3 - p.2) p.1) (idx2 0 L.xr 0 4) (nodup_idx2 _ _ _ _) wl
    (by
      intro p hp
      have := mem_idx2.mp hp
      unfold Grid.xr at this
      unfold Grid.Inside
      rw [hl] at *
      omega)
    (by
      intro p hp q hq h1 h2
      exact Prod.ext (by omega) (by omega))
  have hR := loop_incs R (fun p => (p.1 : Int) - R.os) (fun p => (p.2 : Int) - R.os)
    (fun p => itemP p.2 p.1) (idx2 0 R.xr 0 4) (nodup_idx2 _ _ _ _) wr
    (by
      intro p hp
      have := mem_idx2.mp hp
      unfold Grid.xr at this
      unfold Grid.Inside
      rw [hr] at *
      omega)
    (by
      intro p hp q hq h1 h2
      exact Prod.ext (by omega) (by omega))
  obtain ⟨L', l1, l2, l3, l4⟩ := hL
  obtain ⟨R', r1, r2, r3, r4⟩ := hR
  refine ⟨L', R', l1, r1, l2, r2, ?_, ?_, ?_⟩
  · intro x y a b hx1 hx2 hy1 hy2 ha hb
    have xr1 : L.xr = L.xs + 4 := by unfold Grid.xr; rw [hl]
    have p1 : ((x + 2).toNat, (1 - y).toNat) ∈ idx2 0 L.xr 0 4 := by
      rw [mem_idx2]; dsimp only; omega
    have p2 : ((x + 2).toNat, (y + 2).toNat) ∈ idx2 0 R.xr 0 4 := by
      rw [mem_idx2]; dsimp only; omega
    have e1 := l3 _ p1
    have e2 := r3 _ p2
    dsimp only at e1 e2
    rw [show (((x + 2).toNat : Int) - L.os) = x by rw [hl]; omega,
      show ((L.ys : Int) + L.os - 1 - ((1 - y).toNat : Int)) = L.ys + y by rw [hl]; omega] at e1
    rw [show (((x + 2).toNat : Int) - R.os) = x by rw [hr]; omega,
      show (((y + 2).toNat : Int) - R.os) = y by rw [hr]; omega] at e2
    have q1 := hM (y + 2).toNat (x + 2).toNat (by omega) (by omega)
    have q2 := hP (y + 2).toNat (x + 2).toNat (by omega) (by omega)
    unfold packMinus at q1
    unfold packPlus at q2
    rw [show (((x + 2).toNat : Int) - R.os) = x by rw [hr]; omega,
      show (((y + 2).toNat : Int) - R.os) = y by rw [hr]; omega, hb] at q1
    rw [show (((x + 2).toNat : Int) - L.os) = x by rw [hl]; omega,
      show ((L.ys : Int) + L.os - 4 + ((y + 2).toNat : Int)) = L.ys + y by rw [hl]; omega, ha] at q2
    injection q1 with q1
    injection q2 with q2
    rw [e1 a ha, e2 b hb, show 3 - (1 - y).toNat = (y + 2).toNat by omega, ← q1, ← q2, add_comm b a]
    exact ⟨rfl, rfl⟩
  · intro x y ix iy hy
    refine l4 x y ix iy ?_
    rintro p hp ⟨h1, h2⟩
    have := mem_idx2.mp hp
    rw [hl] at h2
    omega
  · intro x y ix iy hy
    refine r4 x y ix iy ?_
    rintro p hp ⟨h1, h2⟩
    have := mem_idx2.mp hp
    rw [hr] at h2
    omega

-- non-trivial instance: two 1 × 3 grids with overlay 2
example : let L : Grid Nat := ⟨2, 1, 3, fun i j => 10 * i + j⟩
    let R : Grid Nat := ⟨2, 1, 3, fun i j => 100 * (10 * i + j)⟩
    L.WF ∧ (packPlus L 1 2 = .ok 24) ∧ (packMinus R 1 2 = .ok 2100) ∧
    (addPlus L (fun q a => 100 * (10 * a + q)) >>= fun g => g.get 0 2) = .ok 2124 ∧
    (addMinus R (fun q a => 10 * a + (q + 3)) >>= fun g => g.get 0 (-1)) = .ok 2124 := by
  refine ⟨by simp [Grid.WF, Grid.xr, Grid.yr], ?_, ?_, ?_, ?_⟩ <;> decide

/-- For an overlay width of 1 the packed columns are not the shared ones: the exchange adds
column `1 - 4 + y_size` (not shared, and for narrow grids not even allocated) — the code
hard-wires the overlay width 2. -/
theorem C12_width_one : packPlus (⟨1, 1, 1, fun _ _ => (0 : Nat)⟩ : Grid Nat) 0 0 = .ub := by decide

end Mpi
end Pico
