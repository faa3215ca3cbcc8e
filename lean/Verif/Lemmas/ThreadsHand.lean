import Verif.Lemmas.Threads
import Verif.Props.Collector

/-!
# The hand-over of particles with several threads
-/

set_option linter.unusedSimpArgs false
set_option linter.unusedVariables false
set_option linter.unusedSectionVars false

namespace Pico
namespace SMB

/-- No domain gets particles from the row below and from the row above in the same pass, and no particle goes two rows further: for two rows of
domains that are visited at the same time (both even or both odd), a particle of the one that has moved to domain `q` does not meet the other row
there. -/
def Apart (g : Geo) (D : Doms) : Prop :=
  ∀ i j i' j', i < g.domR → i' < g.domR → j < g.domZ → j' < g.domZ → i ≠ i' → i % 2 = i' % 2 →
    ∀ sp ∈ D i j, ∀ o ∈ sp.parts, ∀ q : Nat × Nat, q.1 < g.domR → q.2 < g.domZ → (domDims g q.1 q.2).Owns o → q ≠ (i, j) →
      q.1 ≠ i' ∧ ∀ sp' ∈ D i' j', ∀ o' ∈ sp'.parts, ¬ (domDims g q.1 q.2).Owns o'

end SMB

namespace Threads

open SMB Yee Pic

theorem mem_stride {c n i : Nat} : i ∈ stride c n ↔ i < n ∧ i % 2 = c := by
  unfold stride
  simp [List.mem_filter, List.mem_range]

theorem nodup_stride (c n : Nat) : (stride c n).Nodup := List.nodup_range.filter _

section
variable {g : Geo} {A B : Nat}

theorem row_even (Ev : Even g A B) (ids : List Nat) (nd : ids.Nodup) (l : List (Nat × Nat)) (hl : ∀ p ∈ l, p.1 < g.domR ∧ p.2 < g.domZ) (f : PF) :
    loop (collectDom g) l (ofF ids f) = .ok (ofF ids fun a b id => l.foldl (stepF g A B) (fun a b => f a b id) a b) := by
  induction l generalizing f with
  | nil => rfl
  | cons p l ih =>
    rw [loop_cons, collectDom_even Ev ids nd p (hl p (List.mem_cons_self ..)), Res.ok_bind, ih fun q hq => hl q (List.mem_cons_of_mem _ hq)]
    rfl

/-- A row touches only `T`. -/
theorem row_local (T : Nat × Nat → Prop) (i : Nat) (cols : List Nat) (hT : ∀ b, T (i, b)) (l : List Nat) (hl : ∀ j ∈ l, j ∈ cols)
    (f f' : Nat → Nat → List Prt) (ag : ∀ a b, T (a, b) → f' a b = f a b) (inv : ∀ j ∈ cols, ∀ o ∈ f i j, ∀ q, own g A B o = some q → T q) (a b : Nat) :
    (T (a, b) → (l.map fun j => (i, j)).foldl (stepF g A B) f' a b = (l.map fun j => (i, j)).foldl (stepF g A B) f a b) ∧
    (¬ T (a, b) → (l.map fun j => (i, j)).foldl (stepF g A B) f' a b = f' a b) := by
  induction l generalizing f f' with
  | nil => exact ⟨ag a b, fun _ => rfl⟩
  | cons j l ih =>
    have hj := hl j (List.mem_cons_self ..)
    have e := ag i j (hT j)
    have out : ∀ a b, ¬ T (a, b) → stepF g A B f' (i, j) a b = f' a b := by
      intro a b h
      unfold stepF
      rw [if_neg (by rintro ⟨rfl, rfl⟩; exact h (hT _)), e]
      have : mine g A B a b (f i j) = [] := by
        unfold mine
        rw [List.filter_eq_nil_iff]
        intro o ho
        simp only [decide_eq_true_eq]
        exact fun c => h (inv j hj o ho _ c)
      rw [this, List.append_nil]
    have k := ih (fun j hj => hl j (List.mem_cons_of_mem _ hj)) (stepF g A B f (i, j)) (stepF g A B f' (i, j)) (fun a b h => by
      unfold stepF
      dsimp only
      rw [e, ag a b h]) (fun j' hj' o ho q hq => by
      unfold stepF at ho
      dsimp only at ho
      split at ho
      · exact inv j' hj' o (List.mem_of_mem_filter ho) q hq
      · rcases List.mem_append.1 ho with ho | ho
        · exact inv j' hj' o ho q hq
        · exact inv j hj o (List.mem_of_mem_filter ho) q hq)
    simp only [List.map_cons, List.foldl_cons]
    exact ⟨k.1, fun h => (k.2 h).trans (out a b h)⟩

theorem own_owns (Ev : Even g A B) {o : Prt} {q : Nat × Nat} (h : own g A B o = some q) : q.1 < g.domR ∧ q.2 < g.domZ ∧ (domDims g q.1 q.2).Owns o := by
  obtain ⟨h1, h2⟩ := own_lt Ev h
  exact ⟨h1, h2, (owns_iff Ev _ _ h1 h2 o).2 h⟩

theorem classify_own (Ev : Even g A B) {i j : Nat} (hi : i < g.domR) (hj : j < g.domZ) (o : Prt) (q : Nat × Nat) :
    classify g i j ((domDims g i j).r1 - (domDims g i j).r0) ((domDims g i j).z1 - (domDims g i j).z0) o = .ok (.move q.1 q.2) ↔
      own g A B o = some q ∧ q ≠ (i, j) := by
  rw [dims_even Ev i j hi hj]
  have e1 : A * (i + 1) - A * i = A := by rw [Nat.mul_succ]; omega
  have e2 : B * (j + 1) - B * j = B := by rw [Nat.mul_succ]; omega
  dsimp only
  rw [e1, e2, classify_even Ev]
  cases own g A B o with
  | none => simp
  | some p =>
    dsimp only
    by_cases c : p = (i, j)
    · rw [if_pos c]
      simp only [Res.ok.injEq, reduceCtorEq, Option.some.injEq, false_iff, not_and, not_not]
      rintro rfl
      exact c
    · rw [if_neg c]
      simp only [Res.ok.injEq, Action.move.injEq, Option.some.injEq]
      constructor
      · rintro ⟨h1, h2⟩
        obtain rfl : p = q := Prod.ext h1 h2
        exact ⟨rfl, c⟩
      · rintro ⟨rfl, _⟩
        exact ⟨rfl, rfl⟩

theorem mem_ofF {ids : List Nat} {f : PF} {i j : Nat} {sp : Sp} : sp ∈ ofF ids f i j ↔ ∃ id ∈ ids, sp = ⟨id, f i j id⟩ := by
  unfold ofF
  rw [List.mem_map]
  constructor
  · rintro ⟨id, h, rfl⟩; exact ⟨id, h, rfl⟩
  · rintro ⟨id, h, rfl⟩; exact ⟨id, h, rfl⟩

theorem touched_row (Ev : Even g A B) {ids : List Nat} {f : PF} {c : Nat × Nat} {i : Nat} (hi : i < g.domR) {id : Nat} (hid : id ∈ ids) {j : Nat}
    (hj : j ∈ stride c.2 g.domZ) {o : Prt} (ho : o ∈ f i j id) {q : Nat × Nat} (hq : own g A B o = some q) : touched g c (ofF ids f) i q := by
  by_cases e : q.1 = i
  · exact Or.inl e
  · exact Or.inr ⟨j, hj, ⟨id, f i j id⟩, mem_ofF.2 ⟨id, hid, rfl⟩, o, ho,
      (classify_own Ev hi (mem_stride.1 hj).1 o q).2 ⟨hq, fun h => e (by rw [h])⟩⟩

/-- A row of domains in a state that agrees with `ofF ids f` where the row looks. -/
theorem row_agree (Ev : Even g A B) {ids : List Nat} (nd : ids.Nodup) (f f' : PF) (c : Nat × Nat) {i : Nat} (hi : i < g.domR)
    (ag : ∀ q, touched g c (ofF ids f) i q → ofF ids f' q.1 q.2 = ofF ids f q.1 q.2) :
    ∃ h : PF, ∃ h' : PF, loop (collectDom g) ((stride c.2 g.domZ).map fun j => (i, j)) (ofF ids f) = .ok (ofF ids h) ∧
      loop (collectDom g) ((stride c.2 g.domZ).map fun j => (i, j)) (ofF ids f') = .ok (ofF ids h') ∧
      (∀ q, touched g c (ofF ids f) i q → ofF ids h' q.1 q.2 = ofF ids h q.1 q.2) ∧
      ∀ q, ¬ touched g c (ofF ids f) i q → ofF ids h' q.1 q.2 = ofF ids f' q.1 q.2 := by
  have hl : ∀ p ∈ (stride c.2 g.domZ).map fun j => (i, j), p.1 < g.domR ∧ p.2 < g.domZ := by
    intro p hp
    obtain ⟨j, hj, rfl⟩ := List.mem_map.1 hp
    exact ⟨hi, (mem_stride.1 hj).1⟩
  have loc : ∀ id ∈ ids, ∀ q : Nat × Nat, _ := fun id hid q =>
    row_local (g := g) (A := A) (B := B) (touched g c (ofF ids f) i) i (stride c.2 g.domZ) (fun b => Or.inl rfl) (stride c.2 g.domZ) (fun _ h => h)
      (fun a b => f a b id) (fun a b => f' a b id) (fun a b h => by
        have e := ag (a, b) h
        unfold ofF at e
        have := List.map_inj_left.1 e id hid
        exact (Sp.mk.inj this).2) (fun j hj o ho q hq => touched_row Ev hi hid hj ho hq) q.1 q.2
  refine ⟨_, _, row_even Ev ids nd _ hl f, row_even Ev ids nd _ hl f', fun q hq => ?_, fun q hq => ?_⟩
  · unfold ofF
    refine List.map_congr_left fun id hid => ?_
    dsimp only
    rw [(loc id hid q).1 hq]
  · unfold ofF
    refine List.map_congr_left fun id hid => ?_
    dsimp only
    rw [(loc id hid q).2 hq]

theorem apart_touched (Ev : Even g A B) {ids : List Nat} {f : PF} (Ap : Apart g (ofF ids f)) (c : Nat × Nat) {i i' : Nat} (hi : i ∈ stride c.1 g.domR)
    (hi' : i' ∈ stride c.1 g.domR) (ne : i ≠ i') (q : Nat × Nat) : ¬ (touched g c (ofF ids f) i q ∧ touched g c (ofF ids f) i' q) := by
  rw [mem_stride] at hi hi'
  have par : i % 2 = i' % 2 := by omega
  rintro ⟨h | ⟨j, hj, sp, hsp, o, ho, h⟩, h' | ⟨j', hj', sp', hsp', o', ho', h'⟩⟩
  · omega
  · have hj' := (mem_stride.1 hj').1
    obtain ⟨e, n⟩ := (classify_own Ev hi'.1 hj' o' q).1 h'
    obtain ⟨k1, k2, k3⟩ := own_owns Ev e
    exact (Ap i' j' i j' hi'.1 hi.1 hj' hj' ne.symm par.symm sp' hsp' o' ho' q k1 k2 k3 n).1 h
  · have hj := (mem_stride.1 hj).1
    obtain ⟨e, n⟩ := (classify_own Ev hi.1 hj o q).1 h
    obtain ⟨k1, k2, k3⟩ := own_owns Ev e
    exact (Ap i j i' j hi.1 hi'.1 hj hj ne par sp hsp o ho q k1 k2 k3 n).1 h'
  · have hj := (mem_stride.1 hj).1
    have hj' := (mem_stride.1 hj').1
    obtain ⟨e, n⟩ := (classify_own Ev hi.1 hj o q).1 h
    obtain ⟨k1, k2, k3⟩ := own_owns Ev e
    obtain ⟨e', n'⟩ := (classify_own Ev hi'.1 hj' o' q).1 h'
    exact (Ap i j i' j' hi.1 hi'.1 hj hj' ne par sp hsp o ho q k1 k2 k3 n).2 sp' hsp' o' ho' (own_owns Ev e').2.2

theorem ids_ofF (ids : List Nat) (f : PF) (i j : Nat) : (ofF ids f i j).map Sp.id = ids := by
  unfold ofF
  rw [List.map_map]
  exact List.map_id' ids

theorem rep {ids : List Nat} (nd : ids.Nodup) {F : Nat × Nat → List Sp} (h : ∀ q, (F q).map Sp.id = ids) : ∃ f : PF, ∀ q, F q = ofF ids f q.1 q.2 := by
  have e := doms_rep (fun i j => F (i, j)) ids nd fun i j => h (i, j)
  exact ⟨_, fun q => congrFun (congrFun e q.1) q.2⟩

theorem onDoms_ofF {ids : List Nat} {f h : PF} {F : Nat × Nat → List Sp} (hF : ∀ q, F q = ofF ids f q.1 q.2) {k : Doms → Res Doms}
    (e : k (ofF ids f) = .ok (ofF ids h)) : onDoms k F = .ok fun q => ofF ids h q.1 q.2 := by
  unfold onDoms
  rw [show (fun i j => F (i, j)) = ofF ids f from funext fun i => funext fun j => hF (i, j), e]
  rfl

/-- Rows that stay away from each other. -/
theorem rows_apart (Ev : Even g A B) {ids : List Nat} (nd : ids.Nodup) (f : PF) (Ap : Apart g (ofF ids f)) (c : Nat × Nat) :
    ∃ h : PF, loop (collectDom g) (colour g.domR g.domZ c) (ofF ids f) = .ok (ofF ids h) ∧ ∀ r, HandRows g c (ofF ids f) r ↔ r = .ok (ofF ids h) := by
  have dis : ∀ i ∈ stride c.1 g.domR, ∀ i' ∈ stride c.1 g.domR, i ≠ i' → ∀ q, ¬ (touched g c (ofF ids f) i q ∧ touched g c (ofF ids f) i' q) :=
    fun i hi i' hi' ne q => apart_touched Ev Ap c hi hi' ne q
  have disP : (stride c.1 g.domR).Pairwise fun i i' => ∀ q, ¬ (touched g c (ofF ids f) i q ∧ touched g c (ofF ids f) i' q) :=
    List.Pairwise.imp_of_mem (fun {i i'} hi hi' ne => dis i hi i' hi' ne) (nodup_stride c.1 g.domR)
  -- the rows one after another
  have rows : ∀ (acts : Nat → (Nat × Nat → List Sp) → Res (Nat × Nat → List Sp)) (l : List Nat), l.Nodup → (∀ i ∈ l, i ∈ stride c.1 g.domR) →
      (∀ i ∈ stride c.1 g.domR, ∀ F : Nat × Nat → List Sp, (∀ q, (F q).map Sp.id = (ofF ids f q.1 q.2).map Sp.id) →
        (∀ q, touched g c (ofF ids f) i q → F q = ofF ids f q.1 q.2) →
        acts i F = onDoms (loop (collectDom g) ((stride c.2 g.domZ).map fun j => (i, j))) F) →
      ∀ f' : PF, (∀ i ∈ l, ∀ q, touched g c (ofF ids f) i q → ofF ids f' q.1 q.2 = ofF ids f q.1 q.2) →
      ∃ h : PF, loop (collectDom g) (l.flatMap fun i => (stride c.2 g.domZ).map fun j => (i, j)) (ofF ids f') = .ok (ofF ids h) ∧
        loop acts l (fun q => ofF ids f' q.1 q.2) = .ok fun q => ofF ids h q.1 q.2 := by
    intro acts l
    induction l with
    | nil => intro _ _ _ f' _; exact ⟨f', rfl, rfl⟩
    | cons i l ih =>
      intro nl hl ha f' ag
      rw [List.nodup_cons] at nl
      have hi := hl i (List.mem_cons_self ..)
      obtain ⟨_, h', _, r2, _, r4⟩ := row_agree Ev nd f f' c (mem_stride.1 hi).1 (ag i (List.mem_cons_self ..))
      obtain ⟨h, e1, e2⟩ := ih nl.2 (fun i' hi' => hl i' (List.mem_cons_of_mem _ hi')) ha h' fun i' hi' q hq => by
        rw [r4 q fun t => dis i hi i' (hl i' (List.mem_cons_of_mem _ hi')) (by rintro rfl; exact nl.1 hi') q ⟨t, hq⟩]
        exact ag i' (List.mem_cons_of_mem _ hi') q hq
      refine ⟨h, ?_, ?_⟩
      · rw [List.flatMap_cons, loop_append, r2, Res.ok_bind, e1]
      · rw [loop_cons, ha i hi _ (fun q => by rw [ids_ofF, ids_ofF]) (ag i (List.mem_cons_self ..)), onDoms_ofF (fun _ => rfl) r2, Res.ok_bind, e2]
  -- the sequential result does not depend on the actions
  obtain ⟨h, e1, _⟩ := rows (fun i => onDoms (loop (collectDom g) ((stride c.2 g.domZ).map fun j => (i, j)))) _ (nodup_stride c.1 g.domR) (fun _ h => h)
    (fun _ _ _ _ _ => rfl) f fun _ _ _ _ => rfl
  refine ⟨h, e1, fun r => ?_⟩
  have fin : ∀ (acts : Nat → List ((Nat × Nat → List Sp) → Res (Nat × Nat → List Sp))),
      (∀ i ∈ stride c.1 g.domR, ∀ F : Nat × Nat → List Sp, (∀ q, (F q).map Sp.id = (ofF ids f q.1 q.2).map Sp.id) →
        (∀ q, touched g c (ofF ids f) i q → F q = ofF ids f q.1 q.2) →
        seq (acts i) F = onDoms (loop (collectDom g) ((stride c.2 g.domZ).map fun j => (i, j))) F) →
      (∀ i ∈ stride c.1 g.domR, ∀ a ∈ acts i, Only (touched g c (ofF ids f) i) a) →
      ∀ o, Interleaved ((stride c.1 g.domR).map acts) o → seq o (fun q => ofF ids f q.1 q.2) = .ok fun q => ofF ids h q.1 q.2 := by
    intro acts a1 a2 o io
    obtain ⟨h2, e2, e3⟩ := rows (fun i => seq (acts i)) _ (nodup_stride c.1 g.domR) (fun _ h => h) a1 f fun _ _ _ _ => rfl
    have e4 := Res.ok.inj (e1.symm.trans e2)
    rw [← e4] at e3
    exact ((parfor (S := fun i => touched g c (ofF ids f) i) (body := fun i => seq (acts i)) (fun i hi => only_loop _ fun a ha => a2 i hi a ha) disP _).1 _
      e3 _).1 ⟨acts, fun i hi => ⟨a2 i hi, fun _ => rfl⟩, o, io, rfl⟩
  constructor
  · rintro ⟨acts, a1, a2, o, io, rfl⟩
    rw [fin acts a1 (a2 dis) o io]
    rfl
  · rintro rfl
    classical
    let G : Nat → (Nat × Nat → List Sp) := fun i =>
      match loop (collectDom g) ((stride c.2 g.domZ).map fun j => (i, j)) (ofF ids f) with
      | .ok D => fun q => D q.1 q.2
      | _ => fun _ => []
    let act : Nat → (Nat × Nat → List Sp) → Res (Nat × Nat → List Sp) := fun i F =>
      if ∀ q, touched g c (ofF ids f) i q → F q = ofF ids f q.1 q.2 then
        .ok fun q => if touched g c (ofF ids f) i q then G i q else F q else .ub
    have a1 : ∀ i ∈ stride c.1 g.domR, ∀ F : Nat × Nat → List Sp, (∀ q, (F q).map Sp.id = (ofF ids f q.1 q.2).map Sp.id) →
        (∀ q, touched g c (ofF ids f) i q → F q = ofF ids f q.1 q.2) →
        seq [act i] F = onDoms (loop (collectDom g) ((stride c.2 g.domZ).map fun j => (i, j))) F := by
      intro i hi F hF ag
      obtain ⟨f', hf'⟩ := rep nd (F := F) fun q => by rw [hF q, ids_ofF]
      obtain ⟨h1, h', r1, r2, r3, r4⟩ := row_agree Ev nd f f' c (mem_stride.1 hi).1 fun q hq => by rw [← hf' q, ag q hq]
      rw [onDoms_ofF hf' r2]
      have gi : G i = fun q => ofF ids h1 q.1 q.2 := by
        show (match loop (collectDom g) ((stride c.2 g.domZ).map fun j => (i, j)) (ofF ids f) with
          | .ok D => fun q : Nat × Nat => D q.1 q.2
          | _ => fun _ => []) = _
        rw [r1]
      have s1 : seq [act i] F = act i F := by
        rw [seq_cons]
        cases act i F <;> rfl
      rw [s1]
      show (if ∀ q, touched g c (ofF ids f) i q → F q = ofF ids f q.1 q.2 then Res.ok (fun q => if touched g c (ofF ids f) i q then G i q else F q) else .ub) = _
      rw [if_pos ag]
      congr 1
      funext q
      by_cases t : touched g c (ofF ids f) i q
      · rw [if_pos t, gi, r3 q t]
      · rw [if_neg t, r4 q t, hf' q]
    have a2 : ∀ i ∈ stride c.1 g.domR, ∀ a ∈ [act i], Only (touched g c (ofF ids f) i) a := by
      intro i hi a ha
      rw [List.mem_singleton] at ha
      subst ha
      constructor
      · intro F F' e q hq
        by_cases k : ∀ q, touched g c (ofF ids f) i q → F q = ofF ids f q.1 q.2
        · have : act i F = .ok fun q => if touched g c (ofF ids f) i q then G i q else F q := if_pos k
          rw [← Res.ok.inj (this.symm.trans e)]
          exact if_neg hq
        · have : act i F = .ub := if_neg k
          rw [this] at e
          exact nomatch e
      · intro F F2 F' ag e
        by_cases k : ∀ q, touched g c (ofF ids f) i q → F q = ofF ids f q.1 q.2
        · have e1 : act i F = .ok fun q => if touched g c (ofF ids f) i q then G i q else F q := if_pos k
          have e2 : act i F2 = .ok fun q => if touched g c (ofF ids f) i q then G i q else F2 q := if_pos fun q hq => (ag q hq).symm.trans (k q hq)
          refine ⟨_, e2, fun q hq => ?_⟩
          rw [← Res.ok.inj (e1.symm.trans e)]
          dsimp only
          rw [if_pos hq, if_pos hq]
        · have : act i F = .ub := if_neg k
          rw [this] at e
          exact nomatch e
    refine ⟨fun i => [act i], a1, fun _ => a2, _, interleaved_flatten _, ?_⟩
    rw [fin (fun i => [act i]) a1 a2 _ (interleaved_flatten _)]
    rfl

/-- Particles that still have to be handed over were there from the beginning. -/
def Sub (g : Geo) (A B : Nat) (f f' : Nat → Nat → List Prt) : Prop := ∀ i j, ∀ o ∈ f' i j, own g A B o ≠ some (i, j) → o ∈ f i j

theorem sub_fold (l : List (Nat × Nat)) (f : Nat → Nat → List Prt) : Sub g A B f (l.foldl (stepF g A B) f) := by
  have key : ∀ (l : List (Nat × Nat)) (f' : Nat → Nat → List Prt), Sub g A B f f' → Sub g A B f (l.foldl (stepF g A B) f') := by
    intro l
    induction l with
    | nil => exact fun _ h => h
    | cons p l ih =>
      intro f' h
      rw [List.foldl_cons]
      refine ih _ fun i j o ho ne => ?_
      unfold stepF at ho
      split at ho
      · exact h i j o (List.mem_of_mem_filter ho) ne
      · rcases List.mem_append.1 ho with ho | ho
        · exact h i j o ho ne
        · have := (List.mem_filter.1 ho).2
          simp only [decide_eq_true_eq] at this
          exact absurd this ne
  exact key l f fun _ _ _ h _ => h

theorem apart_step (Ev : Even g A B) {ids : List Nat} (nd : ids.Nodup) {f h : PF} (Ap : Apart g (ofF ids f)) (l : List (Nat × Nat))
    (hl : ∀ p ∈ l, p.1 < g.domR ∧ p.2 < g.domZ) (e : loop (collectDom g) l (ofF ids f) = .ok (ofF ids h)) : Apart g (ofF ids h) := by
  have e' := Res.ok.inj (e.symm.trans (row_even Ev ids nd l hl f))
  rw [e']
  have sub : ∀ id, Sub g A B (fun a b => f a b id) (l.foldl (stepF g A B) fun a b => f a b id) := fun id => sub_fold l _
  intro i j i' j' hi hi' hj hj' ne par sp hsp o ho q q1 q2 qo qn
  obtain ⟨id, hid, rfl⟩ := mem_ofF.1 hsp
  have w := (owns_iff Ev _ _ q1 q2 o).1 qo
  have ho' := sub id i j o ho (by rw [w]; exact fun c => qn (Option.some.inj c))
  obtain ⟨k1, k2⟩ := Ap i j i' j' hi hi' hj hj' ne par ⟨id, f i j id⟩ (mem_ofF.2 ⟨id, hid, rfl⟩) o ho' q q1 q2 qo qn
  refine ⟨k1, fun sp' hsp' o' ho' c => ?_⟩
  obtain ⟨id', hid', rfl⟩ := mem_ofF.1 hsp'
  have w' := (owns_iff Ev _ _ q1 q2 o').1 c
  have := sub id' i' j' o' ho' (by rw [w']; exact fun c => k1 (Prod.mk.inj (Option.some.inj c)).1)
  exact k2 ⟨id', f i' j' id'⟩ (mem_ofF.2 ⟨id', hid', rfl⟩) o' this c

theorem hand_apart (Ev : Even g A B) {ids : List Nat} (nd : ids.Nodup) (l : List (Nat × Nat)) (f : PF) (Ap : Apart g (ofF ids f)) :
    ∃ h : PF, loop (collectDom g) (l.flatMap (colour g.domR g.domZ)) (ofF ids f) = .ok (ofF ids h) ∧ ∀ r, Hand g l (ofF ids f) r ↔ r = .ok (ofF ids h) := by
  induction l generalizing f with
  | nil => exact ⟨f, rfl, fun _ => Iff.rfl⟩
  | cons c l ih =>
    obtain ⟨h, e, k⟩ := rows_apart Ev nd f Ap c
    have hm : ∀ p ∈ colour g.domR g.domZ c, p.1 < g.domR ∧ p.2 < g.domZ := by
      intro p hp
      unfold colour at hp
      obtain ⟨i, hi, hp⟩ := List.mem_flatMap.1 hp
      obtain ⟨j, hj, rfl⟩ := List.mem_map.1 hp
      exact ⟨(mem_stride.1 hi).1, (mem_stride.1 hj).1⟩
    obtain ⟨h', e', k'⟩ := ih h (apart_step Ev nd Ap _ hm e)
    refine ⟨h', ?_, fun r => ?_⟩
    · rw [List.flatMap_cons, loop_append, e, Res.ok_bind, e']
    · show Then (HandRows g c) (Hand g l) (ofF ids f) r ↔ _
      rw [← k']
      constructor
      · rintro (⟨t, a, b⟩ | ⟨a, _⟩ | ⟨a, _⟩)
        · exact Res.ok.inj ((k _).1 a) ▸ b
        · exact nomatch (k _).1 a
        · exact nomatch (k _).1 a
      · exact fun q => Or.inl ⟨_, (k _).2 rfl, q⟩

end

end Threads
end Pico
