import Verif.Lemmas.HandMpi
import Verif.Lemmas.CollectorM
import Verif.Props.Mpi
import Verif.Props.Collector

/-! # C87 — hand-over of particles between processes -/

set_option linter.unusedSimpArgs false
set_option linter.unusedVariables false

namespace Pico
namespace Mpi

variable {M : Type _}

/-! ## The exchange -/

/-- Runs of the machine with known numbers. -/
inductive SRun (cap : Nat) (P : Nat → List (Op M)) : Nat → State M → Prop where
  | start : SRun cap P 0 ⟨P, fun _ _ => [], fun _ _ => []⟩
  | step {m : Nat} {s s' : State M} : SRun cap P m s → Step cap s s' → SRun cap P (m + 1) s'

theorem sim_run' {cap n m : Nat} {plus minus : Nat → List M} {s : HState M} (h : HRun cap n plus minus m s) :
    ∃ t, Sim cap n plus minus s t ∧ SRun cap (sprog n plus minus) m t := by
  induction h with
  | start => exact ⟨_, sim_init cap n plus minus, SRun.start⟩
  | step _ hs ih =>
    obtain ⟨t, S, R⟩ := ih
    obtain ⟨t', st, S'⟩ := sim_step S hs
    exact ⟨t', S', R.step st⟩

theorem sim_final {cap n : Nat} {plus minus : Nat → List M} {s : HState M} {t : State (Msg M)} (S : Sim cap n plus minus s t)
    (hF : HFinal s) (k : Nat) : t.rest k = [] := by rw [S.rest k, hF k]; rfl

/-- **Delivery**: for every amount of buffering and every schedule, when all processes have finished the exchange, each has
received exactly the particles its neighbours queued for it, in order. -/
theorem C87_delivery {cap n m : Nat} {plus minus : Nat → List M} {s : HState M} (hr : HRun cap n plus minus m s) (hF : HFinal s)
    (k : Nat) (hk : k + 1 < n) : s.got (k + 1) k = plus k ∧ s.got k (k + 1) = minus (k + 1) := by
  obtain ⟨t, S⟩ := sim_run hr
  have key : ∀ a b, Adj n a b → s.got b a = queue plus minus a b := by
    intro a b h
    have f := S.inv.flow a b
    have c := S.inv.count a b
    rw [sim_final S hF a, sprog_sends n plus minus h] at f
    rw [sim_final S hF b, sprog_recvs n plus minus h] at c
    simp only [sendsTo, recvsFrom, List.append_nil, Nat.add_zero] at f c
    have l := congrArg List.length f
    simp only [msgs, List.length_append, List.length_cons, List.length_map] at l
    have e : t.chan a b = [] := List.eq_nil_of_length_eq_zero (by omega)
    rw [e, List.append_nil] at f
    rw [S.got, f]
    exact items_map _
  refine ⟨?_, ?_⟩
  · rw [key k (k + 1) (Or.inl ⟨rfl, hk⟩)]; exact if_pos rfl
  · rw [key (k + 1) k (Or.inr ⟨rfl, hk⟩)]; exact if_neg (by omega)

theorem sum_rest_step {cap n : Nat} {P : Nat → List (Op M)} (hout : ∀ k, n ≤ k → P k = []) {s s' : State M} (I : Inv cap P s)
    (h : Step cap s s') : remaining n s' < remaining n s := by
  have hlt : ∀ k, s.rest k ≠ [] → k < n := by
    intro k hk
    by_contra hn
    obtain ⟨pre, hp⟩ := I.suffix k
    rw [hout k (by omega)] at hp
    exact hk (List.append_eq_nil_iff.mp hp).2
  cases h with
  | send k l msg r hk hc =>
    exact sum_set1 s.rest k r (by rw [hk]; simp) n (hlt k (by rw [hk]; simp))
  | recv k l msg ch r hl hc =>
    exact sum_set1 s.rest l r (by rw [hl]; simp) n (hlt l (by rw [hl]; simp))
  | rdv k l msg r r' hne hk hl hc =>
    refine Nat.lt_trans (sum_set1 (set1 s.rest k r) l r' ?_ n (hlt l (by rw [hl]; simp)))
      (sum_set1 s.rest k r (by rw [hk]; simp) n (hlt k (by rw [hk]; simp)))
    rw [set1_ne _ _ (fun e => hne e.symm), hl]
    simp

theorem srun_inv {cap m : Nat} {P : Nat → List (Op M)} {t : State M} (h : SRun cap P m t) : Inv cap P t := by
  induction h with
  | start => exact ⟨fun k => ⟨[], rfl⟩, fun k l => rfl, fun k l => by simp, fun k l => Nat.zero_le _⟩
  | step _ st ih => exact inv_step ih st

/-- **Termination**: no schedule goes on forever; the number of steps is bounded. -/
theorem C87_terminates (cap n : Nat) (plus minus : Nat → List M) :
    ∃ N, ∀ m s, HRun cap n plus minus m s → m ≤ N := by
  refine ⟨remaining n (⟨sprog n plus minus, fun _ _ => [], fun _ _ => []⟩ : State (Msg M)), ?_⟩
  intro m s h
  obtain ⟨t, _, R⟩ := sim_run' h
  have : ∀ m t, SRun cap (sprog n plus minus) m t →
      m + remaining n t ≤ remaining n (⟨sprog n plus minus, fun _ _ => [], fun _ _ => []⟩ : State (Msg M)) := by
    intro m t R
    induction R with
    | start => omega
    | step R st ih =>
      have := sum_rest_step (fun k hk => sprog_outside n plus minus k hk) (srun_inv R) st
      omega
  have := this m t R
  omega

theorem sprog_front_up (n : Nat) (plus minus : Nat → List M) (k : Nat) (hk : k + 1 < n) :
    ∃ R, sendsTo (k + 1) R = [] ∧ sprog n plus minus k = (msgs (plus k)).map (Op.send (k + 1)) ++ R := by
  refine ⟨(if 0 < k ∧ k < n then (msgs (minus k)).map (Op.send (k - 1)) else []) ++
    ((if 0 < k ∧ k < n then List.replicate ((plus (k - 1)).length + 1) (Op.recv (k - 1)) else []) ++
    (if k + 1 < n then List.replicate ((minus (k + 1)).length + 1) (Op.recv (k + 1)) else [])), ?_, ?_⟩
  · rw [sendsTo_append, sendsTo_append]
    have r0 : ∀ (p : Prop) [Decidable p] (c d : Nat), sendsTo (k + 1) (if p then List.replicate c (Op.recv d) else []) = ([] : List (Msg M)) := by
      intro p _ c d
      split
      · exact sendsTo_replicate _ _ _
      · rfl
    rw [r0, r0, List.append_nil, List.append_nil]
    split
    · rw [sendsTo_map_send, if_neg (by omega)]
    · rfl
  · rw [sprog_eq, if_pos hk, List.append_assoc]

theorem sprog_front_last (n : Nat) (plus minus : Nat → List M) (k : Nat) (hk : k + 2 = n) :
    ∃ R, sendsTo k R = [] ∧ sprog n plus minus (k + 1) = (msgs (minus (k + 1))).map (Op.send k) ++ R := by
  refine ⟨List.replicate ((plus k).length + 1) (Op.recv k), sendsTo_replicate _ _ _, ?_⟩
  rw [sprog_eq, if_neg (by omega : ¬ k + 1 + 1 < n), if_pos (by omega : 0 < k + 1 ∧ k + 1 < n),
    if_neg (by omega : ¬ k + 1 + 1 < n), if_pos (by omega : 0 < k + 1 ∧ k + 1 < n)]
  simp

/-- The next operation of the machine with known numbers is a send only if the process is at a send. -/
theorem expand_send {len : Nat → Nat → Nat} {l d : Nat} {m : Msg M} {ops : List (HOp M)} {r : List (Op (Msg M))}
    (h : expand len l ops = .send d m :: r) : ∃ r', ops = .send d m :: r' := by
  cases ops with
  | nil => exact absurd h (by simp [expand])
  | cons x ops =>
    cases x with
    | send d' m' =>
      rw [expand_cons] at h
      have := (List.cons.inj h).1
      injection this with e1 e2
      subst e1; subst e2
      exact ⟨ops, rfl⟩
    | recvCount k => rw [expand_cons] at h; exact absurd (List.cons.inj h).1 (by simp)
    | recvItem k => rw [expand_cons] at h; exact absurd (List.cons.inj h).1 (by simp)

/-- **Progress**: if the library buffers one packet per neighbour (the number and all the particles), then in no reachable
state are all unfinished processes blocked.  What is missing from the property is the assumption on buffering, see
`C87_deadlock`. -/
theorem C87_progress_partial {cap n m : Nat} {plus minus : Nat → List M}
    (hc : ∀ k, k < n → (plus k).length + 1 ≤ cap ∧ (minus k).length + 1 ≤ cap)
    {s : HState M} (hr : HRun cap n plus minus m s) : HFinal s ∨ ∃ s', HStep cap s s' := by
  obtain ⟨t, S⟩ := sim_run hr
  have I := S.inv
  by_cases hF : HFinal s
  · exact Or.inl hF
  right
  have hout : ∀ q, n ≤ q → s.rest q = [] := by
    intro q hq
    obtain ⟨pre, hp⟩ := I.suffix q
    rw [sprog_outside n plus minus q hq] at hp
    have := (List.append_eq_nil_iff.mp hp).2
    rw [S.rest q] at this
    cases hs : s.rest q with
    | nil => rfl
    | cons x r =>
      rw [hs, expand_cons] at this
      have := (List.append_eq_nil_iff.mp this).1
      cases x <;> simp [expandOp] at this
  have hex : ∃ r, r < n ∧ s.rest r ≠ [] ∧ ∀ q, r < q → s.rest q = [] := by
    have : ∀ d, (∀ q, d ≤ q → s.rest q = []) → ∃ r, r < n ∧ s.rest r ≠ [] ∧ ∀ q, r < q → s.rest q = [] := by
      intro d
      induction d with
      | zero => intro h; exact absurd (fun k => h k (Nat.zero_le _)) hF
      | succ d ih =>
        intro h
        by_cases he : s.rest d = []
        · refine ih (fun q hq => ?_)
          by_cases e : q = d
          · rw [e]; exact he
          · exact h q (by omega)
        · refine ⟨d, ?_, he, fun q hq => h q hq⟩
          by_contra hd
          exact he (hout d (by omega))
    exact this n hout
  obtain ⟨r, hrn, hne, htop⟩ := hex
  have hql : ∀ a b, Adj n a b → (queue plus minus a b).length + 1 ≤ cap := by
    intro a b h
    unfold queue
    rcases h with ⟨rfl, h⟩ | ⟨rfl, h⟩
    · rw [if_pos rfl]; exact (hc a (by omega)).1
    · rw [if_neg (by omega)]; exact (hc _ h).2
  have key : ∀ k l msg r', s.rest k = .send l msg :: r' → ∃ s', HStep cap s s' := by
    intro k l msg r' h
    refine ⟨_, HStep.send s k l msg r' h ?_⟩
    have hr' : t.rest k = .send l msg :: expand (qlen plus minus) k r' := by rw [S.rest k, h]; rfl
    obtain ⟨pre, hp⟩ := I.suffix k
    have adj : Adj n k l := sprog_mem_send n plus minus (m := msg) (by rw [← hp, hr']; simp)
    have f := congrArg List.length (I.flow k l)
    rw [hr', sprog_sends n plus minus adj, S.chan] at f
    have := hql k l adj
    simp only [sendsTo, if_true, msgs, List.length_append, List.length_cons, List.length_map] at f
    omega
  -- a process waiting for its neighbour on an empty channel: the neighbour is at a send
  have wait : ∀ src rr, t.rest r = .recv src :: rr → s.chan src r = [] → ∃ s', HStep cap s s' := by
    intro src rr hrest hch
    have adj : Adj n src r := sim_adj S (by rw [hrest]; simp)
    have hcnt := I.count src r
    rw [hrest, sprog_recvs n plus minus adj] at hcnt
    simp only [recvsFrom, if_true] at hcnt
    have hfl := congrArg List.length (I.flow src r)
    rw [S.chan, hch, sprog_sends n plus minus adj] at hfl
    simp only [List.append_nil, List.length_append, msgs, List.length_cons, List.length_map] at hfl
    rcases adj with ⟨rfl, h⟩ | ⟨rfl, h⟩
    · obtain ⟨R, hR, hfr⟩ := sprog_front_up n plus minus src h
      obtain ⟨pre', hp'⟩ := I.suffix src
      rw [hfr] at hp'
      rcases suffix_front (src + 1) (msgs (plus src)) R (t.rest src) pre' hR hp' with h' | ⟨m', r'', h'⟩
      · rw [h'] at hfl
        simp only [List.length_nil] at hfl
        omega
      · rw [S.rest src] at h'
        obtain ⟨r3, e⟩ := expand_send h'
        exact key src (src + 1) m' r3 e
    · exfalso
      have : t.rest (r + 1) = [] := by rw [S.rest, htop (r + 1) (by omega)]; rfl
      rw [this] at hfl
      simp only [sendsTo, List.length_nil] at hfl
      omega
  cases hrest : s.rest r with
  | nil => exact absurd hrest hne
  | cons op r' =>
    cases op with
    | send l msg => exact key r l msg r' hrest
    | recvCount src =>
      have ht : t.rest r = .recv src :: (List.replicate (qlen plus minus src r) (.recv src) ++ expand (qlen plus minus) r r') := by
        rw [S.rest r, hrest, expand_cons]; rfl
      cases hch : s.chan src r with
      | nil => exact wait src _ ht hch
      | cons msg ch =>
        have adj : Adj n src r := sim_adj S (by rw [ht]; simp)
        have g0 := S.fresh src r (by rw [hrest]; simp [counts])
        have f := I.flow src r
        rw [g0, S.chan, hch, sprog_sends n plus minus adj] at f
        have e : msg = .count _ := (List.cons.inj f).1
        subst e
        exact ⟨_, HStep.recvCount s src r _ ch r' hrest hch⟩
    | recvItem src =>
      have ht : t.rest r = .recv src :: expand (qlen plus minus) r r' := by
        rw [S.rest r, hrest, expand_cons]; rfl
      cases hch : s.chan src r with
      | nil => exact wait src _ ht hch
      | cons msg ch =>
        have adj : Adj n src r := sim_adj S (by rw [ht]; simp)
        have g0 := S.item src r (by rw [hrest]; simp)
        have f := I.flow src r
        rw [S.chan, hch, sprog_sends n plus minus adj] at f
        cases hg : t.got r src with
        | nil => exact absurd hg g0
        | cons x g =>
          rw [hg] at f
          have f2 := (List.cons.inj f).2
          have : msg ∈ (queue plus minus src r).map Msg.item := by rw [← f2]; simp
          obtain ⟨m, _, rfl⟩ := List.mem_map.mp this
          exact ⟨_, HStep.recvItem s src r m ch r' hrest hch⟩

/-- With that much buffering the exchange can always be continued to its end. -/
theorem C87_finishes_partial {cap n : Nat} {plus minus : Nat → List M}
    (hc : ∀ k, k < n → (plus k).length + 1 ≤ cap ∧ (minus k).length + 1 ≤ cap) :
    ∃ m s, HRun cap n plus minus m s ∧ HFinal s := by
  obtain ⟨N, hN⟩ := C87_terminates cap n plus minus
  by_contra hno
  have : ∀ m, ∃ s, HRun cap n plus minus m s := by
    intro m
    induction m with
    | zero => exact ⟨_, HRun.start⟩
    | succ m ih =>
      obtain ⟨s, hs⟩ := ih
      rcases C87_progress_partial hc hs with hF | ⟨s', st⟩
      · exact absurd ⟨m, s, hs, hF⟩ hno
      · exact ⟨s', hs.step st⟩
  obtain ⟨s, hs⟩ := this (N + 1)
  have := hN _ _ hs
  omega

/-- **Deadlock**: with two or more processes, if the library cannot buffer the packets of the last two processes to each
other (in particular for rendezvous sends, `cap = 0`, even when no particle changes the process), *no* schedule finishes the
exchange. -/
theorem C87_deadlock {cap n m : Nat} {plus minus : Nat → List M} (hn : 2 ≤ n)
    (h1 : cap < (plus (n - 2)).length + 1) (h2 : cap < (minus (n - 1)).length + 1)
    {s : HState M} (hr : HRun cap n plus minus m s) : ¬ HFinal s := by
  obtain ⟨a, rfl⟩ : ∃ a, n = a + 2 := ⟨n - 2, by omega⟩
  rw [Nat.add_sub_cancel] at h1
  rw [show a + 2 - 1 = a + 1 from rfl] at h2
  obtain ⟨t, S, R⟩ := sim_run' hr
  have up : Adj (a + 2) a (a + 1) := Or.inl ⟨rfl, by omega⟩
  have dn : Adj (a + 2) (a + 1) a := Or.inr ⟨rfl, by omega⟩
  have eu : queue plus minus a (a + 1) = plus a := if_pos rfl
  have ed : queue plus minus (a + 1) a = minus (a + 1) := if_neg (by omega)
  have J : ∀ m t, SRun cap (sprog (a + 2) plus minus) m t → t.got a (a + 1) = [] ∧ t.got (a + 1) a = [] := by
    intro m t R
    induction R with
    | start => exact ⟨rfl, rfl⟩
    | @step m s s' R hs ih =>
      obtain ⟨ja, jb⟩ := ih
      have I := srun_inv R
      have na : ∀ r, s.rest a ≠ .recv (a + 1) :: r := by
        intro r e
        obtain ⟨R, hR, hfr⟩ := sprog_front_up (a + 2) plus minus a (by omega)
        obtain ⟨pre, hp⟩ := I.suffix a
        rw [hfr] at hp
        rcases suffix_front (a + 1) (msgs (plus a)) R (s.rest a) pre hR hp with h | ⟨m', r', h⟩
        · have hf := congrArg List.length (I.flow a (a + 1))
          rw [h, jb, sprog_sends (a + 2) plus minus up, eu] at hf
          have := I.room a (a + 1)
          simp only [List.nil_append, List.append_nil, msgs, List.length_cons, List.length_map] at hf
          omega
        · rw [h] at e
          exact nomatch (List.cons.inj e).1
      have nb : ∀ r, s.rest (a + 1) ≠ .recv a :: r := by
        intro r e
        obtain ⟨R, hR, hfr⟩ := sprog_front_last (a + 2) plus minus a rfl
        obtain ⟨pre, hp⟩ := I.suffix (a + 1)
        rw [hfr] at hp
        rcases suffix_front a (msgs (minus (a + 1))) R (s.rest (a + 1)) pre hR hp with h | ⟨m', r', h⟩
        · have hf := congrArg List.length (I.flow (a + 1) a)
          rw [h, ja, sprog_sends (a + 2) plus minus dn, ed] at hf
          have := I.room (a + 1) a
          simp only [List.nil_append, List.append_nil, msgs, List.length_cons, List.length_map] at hf
          omega
        · rw [h] at e
          exact nomatch (List.cons.inj e).1
      cases hs with
      | send k l msg r hk hc => exact ⟨ja, jb⟩
      | recv k l msg ch r hl hch =>
        refine ⟨?_, ?_⟩
        · dsimp only
          rw [set2_ne _ _ (by rintro ⟨rfl, rfl⟩; exact na r hl)]
          exact ja
        · dsimp only
          rw [set2_ne _ _ (by rintro ⟨rfl, rfl⟩; exact nb r hl)]
          exact jb
      | rdv k l msg r r' hne hk hl hch =>
        refine ⟨?_, ?_⟩
        · dsimp only
          rw [set2_ne _ _ (by rintro ⟨rfl, rfl⟩; exact na r' hl)]
          exact ja
        · dsimp only
          rw [set2_ne _ _ (by rintro ⟨rfl, rfl⟩; exact nb r' hl)]
          exact jb
  intro hF
  have cu := S.inv.count (a + 1) a
  rw [sim_final S hF a, (J m t R).1, sprog_recvs (a + 2) plus minus dn] at cu
  simp only [recvsFrom, List.length_nil] at cu
  omega

end Mpi

namespace SMB

/-! ## All processes together -/

theorem ownsM_iff {g : Geo} {A B : Nat} (E : EvenM g A B) (i j : Nat) (hi : i < g.domR)
    (hj : j < g.domZ) (o : Prt) : (domDims g i j).Owns o ↔ ownM g A B o = some (i, j) := by
  rw [dimsM_even E i j (by omega) (by omega)]
  unfold CellDims.Owns
  dsimp only
  have hA := E.A_pos
  have hB := E.B_pos
  have m1 := Nat.mul_le_mul_left A (show i + 1 ≤ g.domR by omega)
  have m2 := Nat.mul_le_mul_left B (show j + 1 ≤ g.domZ by omega)
  rw [← E.nr] at m1
  rw [← E.nz] at m2
  constructor
  · rintro ⟨⟨h1, h2⟩, h3, h4⟩
    have e : ownM g A B o = some (o.r.toNat / A, (o.z.toNat - g.offZ) / B) := if_pos (by omega)
    rw [e]
    congr 2
    · apply Nat.div_eq_of_lt_le
      · rw [Nat.mul_comm]; omega
      · rw [Nat.mul_comm]; omega
    · apply Nat.div_eq_of_lt_le
      · rw [Nat.mul_comm]; omega
      · rw [Nat.mul_comm]; omega
  · intro h
    unfold ownM at h
    split at h
    · rename_i hc
      obtain ⟨e1, e2⟩ := Prod.mk.inj (Option.some.inj h)
      have a1 := Nat.div_mul_le_self o.r.toNat A
      have a2 := Nat.lt_div_mul_add (a := o.r.toNat) hA
      have b1 := Nat.div_mul_le_self (o.z.toNat - g.offZ) B
      have b2 := Nat.lt_div_mul_add (a := o.z.toNat - g.offZ) hB
      rw [e1, Nat.mul_comm] at a1 a2
      rw [e2, Nat.mul_comm] at b1 b2
      rw [Nat.mul_succ, Nat.mul_succ]
      omega
    · exact absurd h (by simp)

/-- The division of the area among processes and domains is even. -/
structure EvenWorld (base : Geo) (procs : Nat) : Prop where
  nr_pos : 0 < base.nr
  nz_pos : 0 < base.nz
  domR : base.domR ∣ base.nr
  domZ : base.domZ ∣ base.nz
  procs : procs ∣ base.domZ
  offR : base.offR = 0

/-- Cells of one process along z. -/
def width (base : Geo) (procs : Nat) : Nat := base.nz / procs

theorem EvenWorld.even {base : Geo} {procs : Nat} (W : EvenWorld base procs) (k : Nat) :
    ∃ A B, EvenM (procGeo base procs k) A B ∧ 0 < base.domR ∧ 0 < base.domZ / procs ∧ 0 < procs := by
  obtain ⟨A, hA⟩ := W.domR
  obtain ⟨B, hB⟩ := W.domZ
  obtain ⟨c, hc⟩ := W.procs
  have h1 := W.nr_pos
  have h2 := W.nz_pos
  have hr : 0 < base.domR := Nat.pos_of_ne_zero (by intro e; rw [e, Nat.zero_mul] at hA; omega)
  have hz : 0 < base.domZ := Nat.pos_of_ne_zero (by intro e; rw [e, Nat.zero_mul] at hB; omega)
  have hp : 0 < procs := Nat.pos_of_ne_zero (by intro e; rw [e, Nat.zero_mul] at hc; omega)
  have hc0 : 0 < c := Nat.pos_of_ne_zero (by intro e; rw [e, Nat.mul_zero] at hc; omega)
  refine ⟨A, B, ⟨?_, ?_, ?_, ?_, W.offR⟩, hr, ?_, hp⟩
  · show base.nr = A * base.domR
    rw [hA, Nat.mul_comm]
  · show base.nz / procs = B * (base.domZ / procs)
    rw [hB, hc, Nat.mul_assoc, Nat.mul_div_cancel_left _ hp, Nat.mul_div_cancel_left _ hp, Nat.mul_comm]
  · exact Nat.pos_of_ne_zero (by rintro rfl; omega)
  · exact Nat.pos_of_ne_zero (by rintro rfl; omega)
  · rw [hc, Nat.mul_div_cancel_left _ hp]; exact hc0

/-- How far particles may have moved: a particle inside the area's half planes `r ≥ 0`, `z ≥ 0` is at most in the next slab
(the last process has none behind it), and if it is in the slab of another process it is not beyond the outer radius. -/
def Near (base : Geo) (procs k : Nat) (o : Prt) : Prop :=
  0 ≤ o.r → 0 ≤ o.z →
    (width base procs * k : Nat) ≤ o.z + width base procs ∧
    (k + 1 < procs → o.z < (width base procs * (k + 2) : Nat)) ∧
    (o.z < (width base procs * k : Nat) → o.r < base.nr) ∧
    (k + 1 < procs → (width base procs * (k + 1) : Nat) ≤ o.z → o.r < base.nr)

instance (base : Geo) (procs k : Nat) (o : Prt) : Decidable (Near base procs k o) := by unfold Near; infer_instance

/-- Where the particles of `procs` processes start: every process has the same species with distinct numbers, every particle
carries the number of its species. -/
structure World (base : Geo) (procs : Nat) (sid : Prt → Nat) (ids : List Nat) (D : Nat → Doms) : Prop where
  nodup : ids.Nodup
  species : ∀ k i j, k < procs → (D k i j).map Sp.id = ids
  number : ∀ k i j id, k < procs → i < base.domR → j < base.domZ / procs → ∀ o ∈ parts (D k) i j id, sid o = id

theorem near_plus {base : Geo} {procs k : Nat} {A B : Nat} (hk : k + 1 < procs)
    (E : EvenM (procGeo base procs (k + 1)) A B) {o : Prt} (N : Near base procs k o)
    (h : isPlus (procGeo base procs k) o = true) : ∃ p, ownM (procGeo base procs (k + 1)) A B o = some p := by
  unfold isPlus procGeo at h
  dsimp only at h
  rw [decide_eq_true_iff] at h
  obtain ⟨h1, h2⟩ := h
  obtain ⟨n1, n2, n3, n4⟩ := N h1 (le_trans (Int.natCast_nonneg _) h2)
  unfold width at *
  have n2 := n2 hk
  have e1 : base.nz / procs * (k + 1) = base.nz / procs * k + base.nz / procs := Nat.mul_succ _ _
  have e2 : base.nz / procs * (k + 2) = base.nz / procs * (k + 1) + base.nz / procs := Nat.mul_succ _ _
  have n4 := n4 hk (by omega)
  refine ⟨_, if_pos ?_⟩
  show (0 ≤ o.r ∧ o.r < base.nr) ∧ ((base.nz / procs * (k + 1) : Nat) : Int) ≤ o.z ∧
    o.z < (base.nz / procs * (k + 1) + base.nz / procs : Nat)
  omega

theorem near_minus {base : Geo} {procs k : Nat} {A B : Nat}
    (E : EvenM (procGeo base procs k) A B) {o : Prt} (N : Near base procs (k + 1) o)
    (h : isMinus (procGeo base procs (k + 1)) o = true) : ∃ p, ownM (procGeo base procs k) A B o = some p := by
  unfold isMinus procGeo at h
  dsimp only at h
  rw [decide_eq_true_iff] at h
  obtain ⟨h1, h2, h3⟩ := h
  obtain ⟨n1, n2, n3, n4⟩ := N h1 h2
  unfold width at *
  have n3 := n3 h3
  have e1 : base.nz / procs * (k + 1) = base.nz / procs * k + base.nz / procs := Nat.mul_succ _ _
  refine ⟨_, if_pos ?_⟩
  show (0 ≤ o.r ∧ o.r < base.nr) ∧ ((base.nz / procs * k : Nat) : Int) ≤ o.z ∧
    o.z < (base.nz / procs * k + base.nz / procs : Nat)
  omega

theorem flatMap_near {α : Type _} (G : Nat → List α) (k : Nat) (h : ∀ q, q + 1 < k ∨ k + 1 < q → G q = []) (n : Nat) :
    (List.range n).flatMap G = (if 0 < k ∧ k ≤ n then G (k - 1) else []) ++ (if k < n then G k else []) ++
      (if k + 1 < n then G (k + 1) else []) := by
  induction n with
  | zero =>
    rw [if_neg (by omega), if_neg (by omega), if_neg (by omega)]
    rfl
  | succ n ih =>
    rw [List.range_succ, List.flatMap_append, ih]
    simp only [List.flatMap_cons, List.flatMap_nil, List.append_nil]
    by_cases c1 : n + 1 < k
    · rw [h n (Or.inl c1)]
      simp only [if_neg (show ¬ (0 < k ∧ k ≤ n) by omega), if_neg (show ¬ (0 < k ∧ k ≤ n + 1) by omega),
        if_neg (show ¬ k < n by omega), if_neg (show ¬ k < n + 1 by omega), if_neg (show ¬ k + 1 < n by omega),
        if_neg (show ¬ k + 1 < n + 1 by omega), List.append_nil]
    by_cases c2 : n + 1 = k
    · subst c2
      simp only [if_neg (show ¬ (0 < n + 1 ∧ n + 1 ≤ n) by omega), if_pos (show (0 < n + 1 ∧ n + 1 ≤ n + 1) by omega),
        if_neg (show ¬ n + 1 < n by omega), if_neg (show ¬ n + 1 < n + 1 by omega), if_neg (show ¬ n + 1 + 1 < n by omega),
        if_neg (show ¬ n + 1 + 1 < n + 1 by omega), List.append_nil, List.nil_append, Nat.add_sub_cancel]
    have e1 : (if 0 < k ∧ k ≤ n then G (k - 1) else []) = (if 0 < k ∧ k ≤ n + 1 then G (k - 1) else []) := by
      by_cases c : 0 < k
      · rw [if_pos ⟨c, by omega⟩, if_pos ⟨c, by omega⟩]
      · rw [if_neg (by omega), if_neg (by omega)]
    rw [e1]
    by_cases c3 : n = k
    · subst c3
      simp only [if_neg (show ¬ n < n by omega), if_pos (show n < n + 1 by omega), if_neg (show ¬ n + 1 < n by omega),
        if_neg (show ¬ n + 1 < n + 1 by omega), List.append_nil]
    by_cases c4 : n = k + 1
    · subst c4
      simp only [if_pos (show k < k + 1 by omega), if_pos (show k < k + 1 + 1 by omega), if_neg (show ¬ k + 1 < k + 1 by omega),
        if_pos (show k + 1 < k + 1 + 1 by omega), List.append_nil]
    · rw [h n (Or.inr (by omega)), List.append_nil, if_pos (show k < n by omega), if_pos (show k < n + 1 by omega),
        if_pos (show k + 1 < n by omega), if_pos (show k + 1 < n + 1 by omega)]

theorem allDoms_sweep (g : Geo) : (allDoms g).Perm (sweep g.domR g.domZ) := by
  unfold allDoms
  rw [List.perm_ext_iff_of_nodup (nodup_idx2 _ _ _ _) (nodup_sweep _ _)]
  rintro ⟨a, b⟩
  rw [mem_idx2, mem_sweep]
  dsimp only
  omega

/-- What one process keeps: its particles in their domains. -/
theorem local_perm {g : Geo} {A B : Nat} (F : Nat → Nat → List Prt) (i j : Nat)
    (hi : i < g.domR) (hj : j < g.domZ) :
    ((sweep g.domR g.domZ).foldl (stepM g A B) F i j).Perm ((allDoms g).flatMap fun p => mineM g A B i j (F p.1 p.2)) := by
  have hmem : (i, j) ∈ sweep g.domR g.domZ := mem_sweep.mpr ⟨hi, hj⟩
  obtain ⟨k1, k2⟩ := fold_stepM g A B (sweep g.domR g.domZ) (nodup_sweep _ _) F i j
  rw [if_pos hmem] at k2
  have hall : mineM g A B i j ((sweep g.domR g.domZ).foldl (stepM g A B) F i j)
      = (sweep g.domR g.domZ).foldl (stepM g A B) F i j := by
    unfold mineM
    rw [List.filter_eq_self]
    intro o hom
    have := List.filter_eq_nil_iff.mp k2 o hom
    simpa using this
  rw [hall] at k1
  refine k1.trans ?_
  have hperm : (allDoms g).Perm ((i, j) :: (sweep g.domR g.domZ).filter (fun p => p ≠ (i, j))) := by
    refine (allDoms_sweep g).trans ?_
    have h2 := List.perm_cons_erase hmem
    rw [List.Nodup.erase_eq_filter (nodup_sweep _ _)] at h2
    refine h2.trans (List.Perm.of_eq ?_)
    congr 1
    apply List.filter_congr
    intro p _
    by_cases e : p = (i, j) <;> simp [e]
  refine ((hperm.flatMap_right _).trans ?_).symm
  rw [List.flatMap_cons]

/-- A queue restricted to one species. -/
theorem picks_species (P : Prt → Bool) (sid : Prt → Nat) (f : Nat → List Prt) (ids : List Nat) (nd : ids.Nodup)
    (hs : ∀ id, ∀ o ∈ f id, sid o = id) (id : Nat) (hid : id ∈ ids) :
    (picks P f ids).filter (fun o => id = sid o) = (f id).filter P := by
  unfold picks
  induction ids with
  | nil => simp at hid
  | cons a l ih =>
    obtain ⟨na, nl⟩ := List.nodup_cons.mp nd
    rw [List.flatMap_cons, List.filter_append]
    by_cases e : a = id
    · subst e
      have h1 : ((f a).filter P).filter (fun o => a = sid o) = (f a).filter P := by
        rw [List.filter_eq_self]
        intro o ho
        simp [hs a o (List.mem_filter.mp ho).1]
      have h2 : (l.flatMap fun id => (f id).filter P).filter (fun o => a = sid o) = [] := by
        rw [List.filter_eq_nil_iff]
        intro o ho
        obtain ⟨b, hb, hob⟩ := List.mem_flatMap.mp ho
        have := hs b o (List.mem_filter.mp hob).1
        simp only [decide_eq_true_eq]
        intro e
        rw [this] at e
        exact na (e ▸ hb)
      rw [h1, h2, List.append_nil]
    · have h1 : ((f a).filter P).filter (fun o => id = sid o) = [] := by
        rw [List.filter_eq_nil_iff]
        intro o ho
        have := hs a o (List.mem_filter.mp ho).1
        simp only [decide_eq_true_eq]
        intro e'
        exact e (by omega)
      rw [h1, List.nil_append]
      exact ih nl (by
        rcases List.mem_cons.mp hid with h | h
        · exact absurd h.symm e
        · exact h)

theorem filter_flatMap' {α β : Type _} (P : β → Bool) (F : α → List β) (l : List α) :
    (l.flatMap F).filter P = l.flatMap fun a => (F a).filter P := by
  induction l with
  | nil => rfl
  | cons a l ih => rw [List.flatMap_cons, List.filter_append, ih, List.flatMap_cons]

theorem mine_queue (P : Prt → Bool) (sid : Prt → Nat) {g g' : Geo} {A B : Nat} (f : PF) (ids : List Nat) (nd : ids.Nodup)
    (hs : ∀ i j id, i < g'.domR → j < g'.domZ → ∀ o ∈ f i j id, sid o = id) (id : Nat) (hid : id ∈ ids) (i j : Nat)
    (hP : ∀ o, ownM g A B o = some (i, j) → P o = true) :
    (mineM g A B i j (((sweep g'.domR g'.domZ).flatMap fun p => picks P (f p.1 p.2) ids).filter fun o => id = sid o)).Perm
      ((allDoms g').flatMap fun p => mineM g A B i j (f p.1 p.2 id)) := by
  rw [filter_flatMap']
  unfold mineM
  rw [filter_flatMap']
  have : ∀ p ∈ sweep g'.domR g'.domZ, ((picks P (f p.1 p.2) ids).filter (fun o => id = sid o)).filter (fun o => ownM g A B o = some (i, j))
      = (f p.1 p.2 id).filter (fun o => ownM g A B o = some (i, j)) := by
    intro p hp
    have hp := mem_sweep.mp hp
    rw [picks_species P sid (f p.1 p.2) ids nd (fun id => hs p.1 p.2 id hp.1 hp.2) id hid, List.filter_filter]
    apply List.filter_congr
    intro o _
    by_cases c : ownM g A B o = some (i, j)
    · simp [c, hP o c]
    · simp [c]
  rw [List.flatMap_congr this]
  exact ((allDoms_sweep g').flatMap_right _).symm

/-- **Particles crossing between processes.**  If the division among processes and domains is even, all processes carry the
same species with distinct numbers, particles carry the number of their species, and no particle has moved further than
into the slab of a neighbouring process or diagonally out of the area (`Near`), then the local part succeeds in every
process, and for every amount of buffering and every schedule with which the exchange finishes, the insertion succeeds in
every process and afterwards each domain of each process stores, under each species, exactly the particles (with
multiplicity) of that species of all domains of all processes whose cell lies in the domain.

Missing from the full statement: uneven divisions (see C08, C09), particles beyond `Near` (`C87_escape_fails`), and that the
exchange finishes at all (`C87_progress_partial`, `C87_deadlock`). -/
theorem C87_handover_partial (base : Geo) (procs : Nat) (W : EvenWorld base procs) (sid : Prt → Nat) (ids : List Nat)
    (D : Nat → Doms) (H : World base procs sid ids D)
    (near : ∀ k i j id, k < procs → i < base.domR → j < base.domZ / procs → ∀ o ∈ parts (D k) i j id, Near base procs k o) :
    ∃ Q : Nat → MState, (∀ k, k < procs → collectM (procGeo base procs k) (D k) = .ok (Q k)) ∧
      ∀ cap m s, Mpi.HRun cap procs (fun k => (Q k).plus) (fun k => (Q k).minus) m s → Mpi.HFinal s →
        ∃ D' : Nat → Doms, (∀ k, k < procs → insertAll (procGeo base procs k) sid (if 0 < k then s.got k (k - 1) else [])
            (if k + 1 < procs then s.got k (k + 1) else []) (Q k).doms = .ok (D' k)) ∧
          (∀ k i j, (D' k i j).map Sp.id = ids) ∧
          ∀ k i j id, k < procs → i < base.domR → j < base.domZ / procs → id ∈ ids →
            (parts (D' k) i j id).Perm ((List.range procs).flatMap fun q =>
              (allDoms (procGeo base procs q)).flatMap fun p =>
                (parts (D q) p.1 p.2 id).filter fun o => (domDims (procGeo base procs k) i j).Owns o) := by
  obtain ⟨A, B, E0, hr, hz, hp⟩ := W.even 0
  have E : ∀ k, EvenM (procGeo base procs k) A B := fun k => ⟨E0.nr, E0.nz, E0.A_pos, E0.B_pos, E0.offR⟩
  have nd := H.nodup
  let f : Nat → PF := fun k i j id => parts (D k) i j id
  have hrep : ∀ k, k < procs → D k = ofF ids (f k) := fun k hk => doms_rep (D k) ids nd fun i j => H.species k i j hk
  have hQ := fun k => collectM_even (E k) ids nd (f k)
  let qm : Nat → List Prt := fun k => (sweep base.domR (base.domZ / procs)).flatMap fun p => picks (isMinus (procGeo base procs k)) (f k p.1 p.2) ids
  let qp : Nat → List Prt := fun k => (sweep base.domR (base.domZ / procs)).flatMap fun p => picks (isPlus (procGeo base procs k)) (f k p.1 p.2) ids
  let loc : Nat → PF := fun k a b id' => (sweep base.domR (base.domZ / procs)).foldl (stepM (procGeo base procs k) A B) (fun a b => f k a b id') a b
  refine ⟨fun k => ⟨ofF ids (loc k), qm k, qp k⟩, fun k hk => by rw [hrep k hk]; exact hQ k, ?_⟩
  intro cap m s hrun hfin
  have hdel := fun k hk => Mpi.C87_delivery hrun hfin k hk
  have memq : ∀ (P : Nat → Prt → Bool) k o, o ∈ ((sweep base.domR (base.domZ / procs)).flatMap fun p => picks (P k) (f k p.1 p.2) ids) →
      P k o = true ∧ (k < procs → Near base procs k o) := by
    intro P k o ho
    obtain ⟨p, hp, ho⟩ := List.mem_flatMap.mp ho
    obtain ⟨id, hid, ho⟩ := List.mem_flatMap.mp ho
    obtain ⟨h1, h2⟩ := List.mem_filter.mp ho
    have hp' := mem_sweep.mp hp
    exact ⟨h2, fun hk => near k p.1 p.2 id hk hp'.1 hp'.2 o h1⟩
  let inn : Nat → List Prt := fun k => (if 0 < k then s.got k (k - 1) else []) ++ (if k + 1 < procs then s.got k (k + 1) else [])
  have hinn : ∀ k, k < procs → inn k = (if 0 < k then qp (k - 1) else []) ++ (if k + 1 < procs then qm (k + 1) else []) := by
    intro k hk
    show (if 0 < k then s.got k (k - 1) else []) ++ (if k + 1 < procs then s.got k (k + 1) else []) = _
    congr 1
    · by_cases c : 0 < k
      · rw [if_pos c, if_pos c]
        have := (hdel (k - 1) (by omega)).1
        rw [show k - 1 + 1 = k by omega] at this
        exact this
      · rw [if_neg c, if_neg c]
    · by_cases c : k + 1 < procs
      · rw [if_pos c, if_pos c]
        exact (hdel k c).2
      · rw [if_neg c, if_neg c]
  have hown : ∀ k, k < procs → ∀ o ∈ inn k, ∃ p, ownM (procGeo base procs k) A B o = some p := by
    intro k hk o ho
    rw [hinn k hk] at ho
    rcases List.mem_append.mp ho with ho | ho
    · by_cases c : 0 < k
      · rw [if_pos c] at ho
        obtain ⟨h1, h2⟩ := memq (fun k => isPlus (procGeo base procs k)) (k - 1) o ho
        have := near_plus (k := k - 1) (A := A) (B := B) (by omega) (E _) (h2 (by omega)) h1
        rw [show k - 1 + 1 = k by omega] at this
        exact this
      · rw [if_neg c] at ho; exact absurd ho (by simp)
    · by_cases c : k + 1 < procs
      · rw [if_pos c] at ho
        obtain ⟨h1, h2⟩ := memq (fun k => isMinus (procGeo base procs k)) (k + 1) o ho
        exact near_minus (E _) (h2 c) h1
      · rw [if_neg c] at ho; exact absurd ho (by simp)
  refine ⟨fun k => ofF ids (fun a b id' => loc k a b id' ++ mineM (procGeo base procs k) A B a b ((inn k).filter fun o => id' = sid o)), ?_, ?_, ?_⟩
  · intro k hk
    exact insert_even (E k) hr hz sid ids (inn k) (hown k hk) (loc k)
  · intro k i j; simp [ofF, List.map_map, Function.comp_def]
  · intro k i j id hk hi hj hid
    rw [parts_ofF ids nd _ i j id hid]
    have hmine : ∀ l : List Prt, l.filter (fun o => (domDims (procGeo base procs k) i j).Owns o) = mineM (procGeo base procs k) A B i j l := by
      intro l
      unfold mineM
      apply List.filter_congr
      intro o _
      simp only [ownsM_iff (E k) i j hi hj o]
    simp only [hmine]
    have hw : ∀ q, width base procs * (q + 1) = width base procs * q + width base procs := fun q => Nat.mul_succ _ _
    -- cells of the slab
    have hcell : ∀ o p, ownM (procGeo base procs k) A B o = some p → 0 ≤ o.r ∧ (width base procs * k : Nat) ≤ o.z ∧
        o.z < (width base procs * (k + 1) : Nat) := by
      intro o p h
      unfold ownM at h
      split at h
      · next hc =>
        change (0 ≤ o.r ∧ o.r < base.nr) ∧ ((base.nz / procs * k : Nat) : Int) ≤ o.z ∧
          o.z < (base.nz / procs * k + base.nz / procs : Nat) at hc
        rw [hw]
        exact ⟨hc.1.1, hc.2.1, hc.2.2⟩
      · exact absurd h (by simp)
    let G : Nat → List Prt := fun q => (allDoms (procGeo base procs q)).flatMap fun p => mineM (procGeo base procs k) A B i j (f q p.1 p.2 id)
    have hG : ∀ q, q < procs → q + 1 < k ∨ k + 1 < q → G q = [] := by
      intro q hq hqk
      show List.flatMap _ _ = []
      rw [List.flatMap_eq_nil_iff]
      intro p hpm
      unfold mineM
      rw [List.filter_eq_nil_iff]
      intro o ho
      rw [decide_eq_true_iff]
      intro hc
      have hpm' : p.1 < base.domR ∧ p.2 < base.domZ / procs := by
        have := mem_idx2.mp hpm
        exact ⟨this.1.2, this.2.2⟩
      obtain ⟨c1, c2, c3⟩ := hcell o _ hc
      obtain ⟨n1, n2, n3, n4⟩ := near q p.1 p.2 id hq hpm'.1 hpm'.2 o ho c1 (le_trans (Int.natCast_nonneg _) c2)
      rcases hqk with h | h
      · have := n2 (by omega)
        have := Nat.mul_le_mul_left (width base procs) (show q + 2 ≤ k by omega)
        omega
      · have := Nat.mul_le_mul_left (width base procs) (show k + 2 ≤ q by omega)
        have := hw (k + 1)
        rw [show k + 1 + 1 = k + 2 from rfl] at this
        omega
    have hsplit : (List.range procs).flatMap G = (if 0 < k ∧ k ≤ procs then G (k - 1) else []) ++ (if k < procs then G k else []) ++
        (if k + 1 < procs then G (k + 1) else []) := by
      have := flatMap_near (fun q => if q < procs then G q else []) k (by
        intro q hq
        by_cases c : q < procs
        · simp only [if_pos c]; exact hG q c hq
        · simp only [if_neg c]) procs
      have e : (List.range procs).flatMap G = (List.range procs).flatMap (fun q => if q < procs then G q else []) := by
        apply List.flatMap_congr
        intro q hq
        rw [if_pos (List.mem_range.mp hq)]
      rw [e, this]
      congr 1
      · congr 1
        · by_cases c : 0 < k ∧ k ≤ procs
          · rw [if_pos c, if_pos c, if_pos (by omega)]
          · rw [if_neg c, if_neg c]
        · by_cases c : k < procs
          · rw [if_pos c, if_pos c]
          · rw [if_neg c, if_neg c]
      · by_cases c : k + 1 < procs
        · rw [if_pos c, if_pos c]
        · rw [if_neg c, if_neg c]
    show List.Perm (_ ++ _) ((List.range procs).flatMap G)
    rw [hsplit, if_pos hk, hinn k hk, List.filter_append, mineM_append]
    have hloc : (loc k i j id).Perm (G k) := local_perm (g := procGeo base procs k) (fun a b => f k a b id) i j hi hj
    have hplus : (mineM (procGeo base procs k) A B i j ((if 0 < k then qp (k - 1) else []).filter fun o => id = sid o)).Perm
        (if 0 < k ∧ k ≤ procs then G (k - 1) else []) := by
      by_cases c : 0 < k
      · rw [if_pos c, if_pos ⟨c, by omega⟩]
        refine mine_queue (g' := procGeo base procs (k - 1)) (isPlus (procGeo base procs (k - 1))) sid (f (k - 1)) ids nd
          (fun i j id hi hj => H.number (k - 1) i j id (by omega) hi hj) id hid i j ?_
        intro o ho
        obtain ⟨c1, c2, c3⟩ := hcell o _ ho
        have := hw (k - 1)
        rw [show k - 1 + 1 = k by omega] at this
        unfold isPlus
        rw [decide_eq_true_iff]
        refine ⟨c1, ?_⟩
        show ((width base procs * (k - 1) + width base procs : Nat) : Int) ≤ o.z
        omega
      · rw [if_neg c, if_neg (by omega)]
        simp [mineM]
    have hminus : (mineM (procGeo base procs k) A B i j ((if k + 1 < procs then qm (k + 1) else []).filter fun o => id = sid o)).Perm
        (if k + 1 < procs then G (k + 1) else []) := by
      by_cases c : k + 1 < procs
      · rw [if_pos c, if_pos c]
        refine mine_queue (g' := procGeo base procs (k + 1)) (isMinus (procGeo base procs (k + 1))) sid (f (k + 1)) ids nd
          (fun i j id hi hj => H.number (k + 1) i j id c hi hj) id hid i j ?_
        intro o ho
        obtain ⟨c1, c2, c3⟩ := hcell o _ ho
        unfold isMinus
        rw [decide_eq_true_iff]
        refine ⟨c1, le_trans (Int.natCast_nonneg _) c2, ?_⟩
        show o.z < ((width base procs * (k + 1) : Nat) : Int)
        exact c3
      · rw [if_neg c, if_neg c]
        simp [mineM]
    refine (hloc.append (hplus.append hminus)).trans ?_
    rw [← List.append_assoc]
    exact (List.perm_append_comm).append_right _

/-- Under the same hypotheses, if the library buffers enough, the hand-over does take place. -/
theorem C87_takes_place_partial (base : Geo) (procs : Nat) (W : EvenWorld base procs) (sid : Prt → Nat) (ids : List Nat)
    (D : Nat → Doms) (H : World base procs sid ids D)
    (near : ∀ k i j id, k < procs → i < base.domR → j < base.domZ / procs → ∀ o ∈ parts (D k) i j id, Near base procs k o) :
    ∃ c, ∀ cap, c ≤ cap → ∃ D', HandOver base procs cap sid D D' := by
  obtain ⟨Q, hQ, h⟩ := C87_handover_partial base procs W sid ids D H near
  refine ⟨((List.range procs).map fun k => (Q k).plus.length + (Q k).minus.length + 1).sum, ?_⟩
  intro cap hcap
  have hc : ∀ k, k < procs → (Q k).plus.length + 1 ≤ cap ∧ (Q k).minus.length + 1 ≤ cap := by
    intro k hk
    have : (Q k).plus.length + (Q k).minus.length + 1 ≤ ((List.range procs).map fun k => (Q k).plus.length + (Q k).minus.length + 1).sum :=
      List.single_le_sum (by intro x _; omega) _ (List.mem_map.mpr ⟨k, List.mem_range.mpr hk, rfl⟩)
    omega
  obtain ⟨m, s, hrun, hfin⟩ := Mpi.C87_finishes_partial (n := procs) (cap := cap) (plus := fun k => (Q k).plus) (minus := fun k => (Q k).minus) hc
  obtain ⟨D', h1, h2⟩ := h cap m s hrun hfin
  exact ⟨D', Q, hQ, m, s, hrun, hfin, h1⟩

/-! ## Particles that escape -/

theorem insertOne_none {g : Geo} {A B : Nat} (E : EvenM g A B) (hr : 0 < g.domR) (hz : 0 < g.domZ) (sid : Prt → Nat) (o : Prt)
    (h : ownM g A B o = none) (D : Doms) : insertOne g sid o D = .ub := by
  unfold insertOne
  dsimp only
  rw [dimsM_even E 0 0 hr hz]
  dsimp only
  have hA := E.A_pos
  have hB := E.B_pos
  have e0 := E.offR
  have e1 : A * (0 + 1) - A * 0 = A := by rw [Nat.mul_succ]; omega
  have e2 : B * (0 + 1) + g.offZ - (B * 0 + g.offZ) = B := by rw [Nat.mul_succ]; omega
  rw [e1, e2, if_neg (by omega), e0, Nat.sub_zero]
  by_cases c : o.r < ((0 : Nat) : Int) ∨ o.z < g.offZ
  · rw [if_pos c]
  · rw [if_neg c, if_neg]
    rintro ⟨d1, d2⟩
    unfold ownM at h
    rw [if_pos] at h
    · exact absurd h (by simp)
    · rw [Nat.div_lt_iff_lt_mul hA, Nat.mul_comm, ← E.nr] at d1
      rw [Nat.div_lt_iff_lt_mul hB, Nat.mul_comm, ← E.nz] at d2
      omega

theorem loop_ub_of_mem {α σ : Type _} (f : α → σ → Res σ) (a : α) (h : ∀ s, f a s = .ub) (l : List α) (hl : a ∈ l) :
    ∀ s s', loop f l s ≠ .ok s' := by
  induction l with
  | nil => exact absurd hl (by simp)
  | cons b l ih =>
    intro s s'
    rw [loop_cons]
    rcases List.mem_cons.mp hl with e | e
    · rw [← e, h s]
      exact fun x => nomatch x
    · cases hb : f b s with
      | ok t => rw [Res.ok_bind]; exact ih e t s'
      | ub => exact fun x => nomatch x
      | fatal => exact fun x => nomatch x

/-- Conversely, one particle that is queued for a neighbouring process but whose cell is not in the neighbour's block —
beyond the outer radius and in the neighbour's slab, or more than one slab away — makes the whole hand-over undefined: it
never ends well, for any schedule and any amount of buffering. -/
theorem C87_escape_fails (base : Geo) (procs : Nat) (W : EvenWorld base procs) (sid : Prt → Nat) (ids : List Nat)
    (D : Nat → Doms) (H : World base procs sid ids D) (k i j id : Nat) (hk : k < procs) (hi : i < base.domR)
    (hj : j < base.domZ / procs) (hid : id ∈ ids) (o : Prt) (ho : o ∈ parts (D k) i j id) (h0 : 0 ≤ o.r)
    (h : (k + 1 < procs ∧ (width base procs * (k + 1) : Nat) ≤ o.z ∧ ((base.nr : Int) ≤ o.r ∨ (width base procs * (k + 2) : Nat) ≤ o.z)) ∨
      (0 ≤ o.z ∧ o.z < (width base procs * k : Nat) ∧ ((base.nr : Int) ≤ o.r ∨ o.z + width base procs < (width base procs * k : Nat))))
    (cap : Nat) (D' : Nat → Doms) : ¬ HandOver base procs cap sid D D' := by
  obtain ⟨A, B, E0, hr, hz, hp⟩ := W.even 0
  have E : ∀ k, EvenM (procGeo base procs k) A B := fun k => ⟨E0.nr, E0.nz, E0.A_pos, E0.B_pos, E0.offR⟩
  have nd := H.nodup
  have hw : ∀ q, width base procs * (q + 1) = width base procs * q + width base procs := fun q => Nat.mul_succ _ _
  rintro ⟨Q, hQ, m, s, hrun, hfin, hins⟩
  have hq := hQ k hk
  rw [doms_rep (D k) ids nd (fun i j => H.species k i j hk), collectM_even (E k) ids nd] at hq
  have hq := (Res.ok.inj hq).symm
  have hmem : ∀ P : Prt → Bool, P o = true →
      o ∈ (sweep base.domR (base.domZ / procs)).flatMap fun p => picks P (fun id => parts (D k) p.1 p.2 id) ids := by
    intro P hP
    refine List.mem_flatMap.mpr ⟨(i, j), mem_sweep.mpr ⟨hi, hj⟩, ?_⟩
    refine List.mem_flatMap.mpr ⟨id, hid, ?_⟩
    exact List.mem_filter.mpr ⟨ho, hP⟩
  rcases h with ⟨hk1, hz1, hesc⟩ | ⟨hz0, hz1, hesc⟩
  · have hP : isPlus (procGeo base procs k) o = true := by
      unfold isPlus
      rw [decide_eq_true_iff]
      refine ⟨h0, ?_⟩
      show ((width base procs * k + width base procs : Nat) : Int) ≤ o.z
      rw [← hw]
      exact hz1
    have hin : o ∈ (Q k).plus := by rw [hq]; exact hmem _ hP
    rw [← (Mpi.C87_delivery hrun hfin k hk1).1] at hin
    have hown : ownM (procGeo base procs (k + 1)) A B o = none := by
      refine if_neg ?_
      show ¬ ((0 ≤ o.r ∧ o.r < base.nr) ∧ ((width base procs * (k + 1) : Nat) : Int) ≤ o.z ∧
        o.z < (width base procs * (k + 1) + width base procs : Nat))
      rw [← hw]
      show ¬ ((0 ≤ o.r ∧ o.r < base.nr) ∧ ((width base procs * (k + 1) : Nat) : Int) ≤ o.z ∧
        o.z < (width base procs * (k + 2) : Nat))
      omega
    have hl := hins (k + 1) hk1
    unfold insertAll at hl
    rw [if_pos (by omega), Nat.add_sub_cancel] at hl
    exact loop_ub_of_mem _ o (insertOne_none (E (k + 1)) hr hz sid o hown) _ (List.mem_append_left _ hin) _ _ hl
  · have hkp : 0 < k := by
      apply Nat.pos_of_ne_zero
      rintro rfl
      rw [Nat.mul_zero] at hz1
      omega
    obtain ⟨q, rfl⟩ : ∃ q, k = q + 1 := ⟨k - 1, by omega⟩
    have hP : isMinus (procGeo base procs (q + 1)) o = true := by
      unfold isMinus
      rw [decide_eq_true_iff]
      exact ⟨h0, hz0, hz1⟩
    have hin : o ∈ (Q (q + 1)).minus := by rw [hq]; exact hmem _ hP
    rw [← (Mpi.C87_delivery hrun hfin q hk).2] at hin
    have hown : ownM (procGeo base procs q) A B o = none := by
      refine if_neg ?_
      show ¬ ((0 ≤ o.r ∧ o.r < base.nr) ∧ ((width base procs * q : Nat) : Int) ≤ o.z ∧
        o.z < (width base procs * q + width base procs : Nat))
      rw [hw] at hesc
      omega
    have hl := hins q (by omega)
    unfold insertAll at hl
    rw [if_pos hk] at hl
    exact loop_ub_of_mem _ o (insertOne_none (E q) hr hz sid o hown) _ (List.mem_append_right _ hin) _ _ hl

/-- With rendezvous sends and at least two processes the hand-over never finishes, whatever the particles do. -/
theorem C87_rendezvous_fails (base : Geo) (procs : Nat) (hp : 2 ≤ procs) (sid : Prt → Nat) (D D' : Nat → Doms) :
    ¬ HandOver base procs 0 sid D D' := by
  rintro ⟨Q, hQ, m, s, hrun, hfin, hins⟩
  exact Mpi.C87_deadlock hp (by omega) (by omega) hrun hfin

/-! ## Instances -/

/-- Two processes, 8 × 8 cells, 4 × 2 domains: one particle stays, one crosses upwards, one downwards, one leaves at the end of
the area, one at the axis side. -/
def exWorld : Nat → Doms := fun k i j =>
  [⟨7, if k = 0 ∧ i = 0 ∧ j = 0 then [⟨0, 0, 7⟩, ⟨2, 5, 7⟩] else []⟩,
   ⟨9, if k = 1 ∧ i = 3 ∧ j = 0 then [⟨7, 3, 9⟩, ⟨6, 8, 9⟩, ⟨-1, 5, 9⟩] else []⟩]

theorem exWorld_parts (k i j id : Nat) (o : Prt) (h : o ∈ parts (exWorld k) i j id) :
    (k = 0 ∧ id = 7 ∧ (o = ⟨0, 0, 7⟩ ∨ o = ⟨2, 5, 7⟩)) ∨ (k = 1 ∧ id = 9 ∧ (o = ⟨7, 3, 9⟩ ∨ o = ⟨6, 8, 9⟩ ∨ o = ⟨-1, 5, 9⟩)) := by
  unfold parts exWorld at h
  by_cases c7 : (7 : Nat) = id
  · subst c7
    rw [List.filter_cons_of_pos (by simp), List.filter_cons_of_neg (by simp)] at h
    simp only [List.filter_nil, List.flatMap_cons, List.flatMap_nil, List.append_nil] at h
    split at h
    · next c => left; refine ⟨c.1, rfl, ?_⟩; simpa using h
    · exact absurd h (by simp)
  · rw [List.filter_cons_of_neg (by simpa using c7)] at h
    by_cases c9 : (9 : Nat) = id
    · subst c9
      rw [List.filter_cons_of_pos (by simp)] at h
      simp only [List.filter_nil, List.flatMap_cons, List.flatMap_nil, List.append_nil] at h
      split at h
      · next c => right; refine ⟨c.1, rfl, ?_⟩; simpa using h
      · exact absurd h (by simp)
    · rw [List.filter_cons_of_neg (by simpa using c9)] at h
      exact absurd h (by simp)

-- the hypotheses of `C87_handover_partial` hold of it
example : EvenWorld exEven 2 ∧ World exEven 2 Prt.tag [7, 9] exWorld ∧
    ∀ k i j id, k < 2 → i < exEven.domR → j < exEven.domZ / 2 → ∀ o ∈ parts (exWorld k) i j id, Near exEven 2 k o := by
  refine ⟨⟨by decide, by decide, by decide, by decide, by decide, rfl⟩, ⟨by decide, fun k i j _ => rfl, ?_⟩, ?_⟩
  · intro k i j id _ _ _ o h
    rcases exWorld_parts k i j id o h with ⟨_, rfl, h | h⟩ | ⟨_, rfl, h | h | h⟩ <;> subst h <;> rfl
  · intro k i j id _ _ _ o h
    rcases exWorld_parts k i j id o h with ⟨rfl, _, h | h⟩ | ⟨rfl, _, h | h | h⟩ <;> subst h <;> decide

-- so the hand-over takes place, and its result is the expected one
example : ∃ cap D', HandOver exEven 2 cap Prt.tag exWorld D' := by
  obtain ⟨c, hc⟩ := C87_takes_place_partial exEven 2 ⟨by decide, by decide, by decide, by decide, by decide, rfl⟩ Prt.tag [7, 9]
    exWorld ⟨by decide, fun k i j _ => rfl, by
      intro k i j id _ _ _ o h
      rcases exWorld_parts k i j id o h with ⟨_, rfl, h | h⟩ | ⟨_, rfl, h | h | h⟩ <;> subst h <;> rfl⟩ (by
      intro k i j id _ _ _ o h
      rcases exWorld_parts k i j id o h with ⟨rfl, _, h | h⟩ | ⟨rfl, _, h | h | h⟩ <;> subst h <;> decide)
  obtain ⟨D', h⟩ := hc c (le_refl _)
  exact ⟨c, D', h⟩

example : (collectM (procGeo exEven 2 0) (exWorld 0) >>= fun Q => .ok (Q.plus, Q.minus)) = Res.ok ([⟨2, 5, 7⟩], []) ∧
    (collectM (procGeo exEven 2 1) (exWorld 1) >>= fun Q => .ok (Q.plus, Q.minus)) = Res.ok ([⟨6, 8, 9⟩], [⟨7, 3, 9⟩]) ∧
    (collectM (procGeo exEven 2 1) (exWorld 1) >>= fun Q => insertAll (procGeo exEven 2 1) Prt.tag [⟨2, 5, 7⟩] [] Q.doms >>=
      fun D => .ok (D 1 0)) = Res.ok [⟨7, [⟨2, 5, 7⟩]⟩, ⟨9, []⟩] := by
  refine ⟨by decide, by decide, by decide⟩

/-- Two processes; a particle of the first leaves the area diagonally, at the outer radius and in the slab of the second. -/
def exCorner : Nat → Doms := fun k i j => [⟨7, if k = 0 ∧ i = 3 ∧ j = 0 then [⟨8, 4, 7⟩] else []⟩]

-- the hypotheses of `C87_escape_fails` hold of it
example : EvenWorld exEven 2 ∧ World exEven 2 Prt.tag [7] exCorner ∧ (⟨8, 4, 7⟩ : Prt) ∈ parts (exCorner 0) 3 0 7 ∧
    ((0 + 1 < 2 ∧ ((width exEven 2 * (0 + 1) : Nat) : Int) ≤ 4 ∧ (exEven.nr : Int) ≤ 8)) := by
  refine ⟨⟨by decide, by decide, by decide, by decide, by decide, rfl⟩, ⟨by decide, fun k i j _ => rfl, ?_⟩, by decide, by decide⟩
  intro k i j id _ _ _ o h
  unfold parts exCorner at h
  by_cases c7 : (7 : Nat) = id
  · subst c7
    rw [List.filter_cons_of_pos (by simp)] at h
    simp only [List.filter_nil, List.flatMap_cons, List.flatMap_nil, List.append_nil] at h
    split at h
    · rw [List.mem_singleton] at h; subst h; rfl
    · exact absurd h (by simp)
  · rw [List.filter_cons_of_neg (by simpa using c7)] at h
    exact absurd h (by simp)

end SMB
end Pico
