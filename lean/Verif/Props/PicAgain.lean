import Verif.Spec.PicAgain
import Verif.Props.PicRest
import Verif.Props.Neutral
import Verif.Props.PicOut

/-!
# C127 — a simulation can be repeated

Addresses do not matter, and the default and regular placements with `eigen` velocities use no random numbers.
-/

set_option linter.unusedSimpArgs false
set_option linter.unusedVariables false
set_option linter.unusedSectionVars false

namespace Pico

namespace SMB

/-! ### The hand-over does not look at addresses -/

/-- Entries that differ in the address only. -/
def PrtRel (f : Nat → Nat) (o o' : Prt) : Prop := o.r = o'.r ∧ o.z = o'.z ∧ o.tag = f o'.tag

def SpRel (Q : Prt → Prt → Prop) (s s' : Sp) : Prop := s.id = s'.id ∧ List.Forall₂ Q s.parts s'.parts

def DRel (Q : Prt → Prt → Prop) (R Z : Nat) (D D' : Doms) : Prop := ∀ i j, i < R → j < Z → List.Forall₂ (SpRel Q) (D i j) (D' i j)

theorem forall₂_append {α β : Type _} {Q : α → β → Prop} {a b : List α} {a' b' : List β} (h : List.Forall₂ Q a a') (h' : List.Forall₂ Q b b') :
    List.Forall₂ Q (a ++ b) (a' ++ b') := by
  induction h with
  | nil => exact h'
  | cons x _ ih => exact .cons x ih

theorem forall₂_map {α β γ δ : Type _} {Q : α → β → Prop} {P : γ → δ → Prop} {f : α → γ} {g : β → δ} {a : List α} {b : List β} (h : List.Forall₂ Q a b)
    (k : ∀ x ∈ a, ∀ y ∈ b, Q x y → P (f x) (g y)) : List.Forall₂ P (a.map f) (b.map g) := by
  induction h with
  | nil => exact .nil
  | cons x _ ih => exact .cons (k _ (by simp) _ (by simp) x) (ih fun x hx y hy => k x (by simp [hx]) y (by simp [hy]))

theorem forall₂_set {α β : Type _} {Q : α → β → Prop} {a : List α} {b : List β} (h : List.Forall₂ Q a b) (k : Nat) {x : α} {y : β} (e : Q x y) :
    List.Forall₂ Q (a.set k x) (b.set k y) := by
  induction h generalizing k with
  | nil => exact .nil
  | cons x t ih =>
    cases k with
    | zero => exact .cons e t
    | succ k => exact .cons x (ih k)

theorem forall₂_length {α β : Type _} {Q : α → β → Prop} {a : List α} {b : List β} (h : List.Forall₂ Q a b) : a.length = b.length := by
  induction h with
  | nil => rfl
  | cons _ _ ih => simp [ih]

theorem loop_forall₂ {ι κ α β : Type} {Q : ι → κ → Prop} {R : α → β → Prop} {f : ι → α → Res α} {g : κ → β → Res β} {l : List ι} {l' : List κ}
    (h : List.Forall₂ Q l l') (k : ∀ x y, Q x y → ∀ a b, R a b → ResRel R (f x a) (g y b)) {a : α} {b : β} (r : R a b) :
    ResRel R (loop f l a) (loop g l' b) := by
  induction h generalizing a b with
  | nil => exact r
  | cons x _ ih =>
    rw [loop_cons, loop_cons]
    exact (k _ _ x a b r).bind fun a b r => ih r

theorem setDom_rel {Q : Prt → Prt → Prop} {R Z : Nat} {D D' : Doms} (H : DRel Q R Z D D') (i j : Nat) {v v' : List Sp} (K : List.Forall₂ (SpRel Q) v v') :
    DRel Q R Z (setDom D i j v) (setDom D' i j v') := by
  intro a b ha hb
  unfold setDom
  split
  · exact K
  · exact H a b ha hb

theorem pushTo_rel {Q : Prt → Prt → Prop} (id : Nat) {o o' : Prt} (q : Q o o') {v v' : List Sp} (K : List.Forall₂ (SpRel Q) v v') :
    List.Forall₂ (SpRel Q) (pushTo id o v) (pushTo id o' v') := by
  unfold pushTo
  refine forall₂_map K fun s _ s' _ e => ?_
  obtain ⟨e1, e2⟩ := e
  rw [e1]
  split
  · exact ⟨rfl, forall₂_append e2 (.cons q .nil)⟩
  · exact ⟨e1, e2⟩

theorem classify_move {g : Geo} {i j amtR amtZ : Nat} {o : Prt} {a b : Nat} (h : classify g i j amtR amtZ o = .ok (.move a b)) : a < g.domR ∧ b < g.domZ := by
  unfold classify at h
  dsimp only at h
  split_ifs at h with _ _ _ _ _ _ k
  all_goals cases h
  exact k

theorem get_rel {Q : Prt → Prt → Prop} (k : Nat) {v v' : List Sp} (h : List.Forall₂ (SpRel Q) v v') :
    (v[k]? = none ∧ v'[k]? = none) ∨ ∃ s s', v[k]? = some s ∧ v'[k]? = some s' ∧ SpRel Q s s' := by
  induction h generalizing k with
  | nil => exact .inl ⟨rfl, rfl⟩
  | cons x _ ih =>
    cases k with
    | zero => exact .inr ⟨_, _, rfl, rfl, x⟩
    | succ k => simpa using ih k

theorem collect_rel {Q : Prt → Prt → Prop} (hQ : ∀ o o', Q o o' → o.r = o'.r ∧ o.z = o'.z) (g : Geo) {D D' : Doms} (H : DRel Q g.domR g.domZ D D') :
    ResRel (DRel Q g.domR g.domZ) (collect g D) (collect g D') := by
  unfold collect
  refine ResRel.loop' _ (fun p hp D D' H => ?_) H
  have hp := mem_sweep.mp hp
  unfold collectDom
  rw [forall₂_length (H p.1 p.2 hp.1 hp.2)]
  refine ResRel.loop' _ (fun k _ D D' H => ?_) H
  have K := H p.1 p.2 hp.1 hp.2
  unfold collectSp
  rcases get_rel k K with ⟨e, e'⟩ | ⟨s, s', e, e', q1, q2⟩
  · rw [e, e']
    exact trivial
  · rw [e, e']
    dsimp only
    refine ResRel.bind (R := fun x y => DRel Q g.domR g.domZ x.1 y.1 ∧ List.Forall₂ Q x.2 y.2) ?_ fun x y r => ?_
    · refine loop_forall₂ q2 (fun o o' q x y r => ?_) ⟨H, .nil⟩
      unfold collectOne
      have ec : classify g p.1 p.2 ((domDims g p.1 p.2).r1 - (domDims g p.1 p.2).r0) ((domDims g p.1 p.2).z1 - (domDims g p.1 p.2).z0) o =
          classify g p.1 p.2 ((domDims g p.1 p.2).r1 - (domDims g p.1 p.2).r0) ((domDims g p.1 p.2).z1 - (domDims g p.1 p.2).z0) o' := by
        unfold classify
        rw [(hQ o o' q).1, (hQ o o' q).2]
      rw [ec, q1]
      cases c : classify g p.1 p.2 ((domDims g p.1 p.2).r1 - (domDims g p.1 p.2).r0) ((domDims g p.1 p.2).z1 - (domDims g p.1 p.2).z0) o' with
      | fatal => exact trivial
      | ub => exact trivial
      | ok a =>
        cases a with
        | keep => exact ⟨r.1, forall₂_append r.2 (.cons q .nil)⟩
        | drop => exact r
        | move a b =>
          obtain ⟨ha, hb⟩ := classify_move c
          exact ⟨setDom_rel r.1 _ _ (pushTo_rel _ q (r.1 a b ha hb)), r.2⟩
    · exact setDom_rel r.1 _ _ (forall₂_set (r.1 p.1 p.2 hp.1 hp.2) k ⟨q1, r.2⟩)

end SMB

namespace Yee

theorem scaled_one {m n : Mem ℝ} : Scaled 1 m n ↔ n = m := by
  constructor
  · intro h
    funext c x y
    rw [h c x y]
    unfold fac
    split <;> ring
  · rintro rfl c x y
    unfold fac
    split <;> ring

/-- The currents depend only on the particles and memories of the domains. -/
theorem solveCurrent_same (dist : VB.Ctx ℝ → List (VB.Part ℝ) → Mem ℝ → Res (Mem ℝ)) (p : Par ℝ) (R Z : Nat) (e : Consts ℝ) {ps qs : Nat → Nat → List (VB.Part ℝ)}
    (hp : ∀ i j, i < R → j < Z → ps i j = qs i j) {M N : Solvers ℝ} (H : InScaled R Z 1 M N) :
    ResRel (InScaled R Z 1) (solveCurrent dist p R Z e ps M) (solveCurrent dist p R Z e qs N) := by
  unfold solveCurrent
  refine ResRel.bind (R := InScaled R Z 1) ?_ fun M N H => ResRel.loop' _ (fun c _ M N H => overlayComp_in _ R Z c H) H
  refine each_in R Z (fun i j m n hi hj h => ?_) H
  obtain rfl := scaled_one.mp h
  rw [hp i j hi hj]
  exact ResRel.rfl'.mono fun a b k => scaled_one.mpr k

end Yee

namespace Pic

open SMB Yee

/-! ### One step -/

/-- The address `t` of the second state belongs to the address `f t` of the first one. -/
structure Renamed (E : Env) (f : Nat → Nat) (S T : State) : Prop where
  fields : InScaled E.domR E.domZ 1 S.M T.M
  lists : DRel (fun o o' => o.tag = f o'.tag) E.domR E.domZ S.D T.D
  heap : ∀ i j, i < E.domR → j < E.domZ → ∀ sp ∈ T.D i j, ∀ o ∈ sp.parts, T.heap o.tag = S.heap (f o.tag)

theorem forall₂_right {α β : Type _} {Q : α → β → Prop} {a : List α} {b : List β} (h : List.Forall₂ Q a b) {y : β} (hy : y ∈ b) : ∃ x ∈ a, Q x y := by
  induction h with
  | nil => simp at hy
  | cons x _ ih =>
    rcases List.mem_cons.mp hy with rfl | hy
    · exact ⟨_, by simp, x⟩
    · obtain ⟨z, hz, q⟩ := ih hy
      exact ⟨z, by simp [hz], q⟩

theorem renamed_alike {E : Env} {f : Nat → Nat} {S T : State} (h : Renamed E f S T) : Readdressed E S T where
  fields := fun i j hi hj => (scaled_one.mp (h.fields i j hi hj)).symm
  particles := by
    intro i j hi hj
    have H := h.heap i j hi hj
    have L := h.lists i j hi hj
    clear h
    generalize S.D i j = a at L
    generalize T.D i j = b at L H
    induction L with
    | nil => rfl
    | @cons s s' _ _ x _ ih =>
      rw [List.map_cons, List.map_cons, ih fun sp hsp => H sp (by simp [hsp])]
      congr 1
      refine Prod.ext x.1 ?_
      dsimp only
      have H1 := H s' (by simp)
      have x2 := x.2
      clear x ih H
      generalize s.parts = l at x2
      generalize s'.parts = l' at x2 H1
      induction x2 with
      | nil => rfl
      | @cons o o' _ _ y _ ih =>
        rw [List.map_cons, List.map_cons, ih fun o ho => H1 o (by simp [ho]), y, H1 o' (by simp)]

theorem deposits_renamed {E : Env} {f : Nat → Nat} {S T : State} (h : Renamed E f S T) {i j : Nat} (hi : i < E.domR) (hj : j < E.domZ) :
    depositsOf E S.heap S.D i j = depositsOf E T.heap T.D i j := by
  have := congrArg (List.flatMap fun q : Nat × List (Part ℝ) => q.2.map (depositOf (E.charge q.1))) ((renamed_alike h).particles i j hi hj)
  unfold depositsOf
  simpa only [List.flatMap_map, List.map_map, Function.comp_def] using this

theorem step_renamed {E : Env} {f : Nat → Nat} {S T : State} (h : Renamed E f S T) {S' : State} (s : Step E S S') : ∃ T', Step E T T' ∧ Renamed E f S' T' := by
  classical
  obtain ⟨M1, e1, mv, rest, e2, e3⟩ := s
  obtain ⟨N1, d1, H1⟩ := (solveMaxwell_in (domPar E.p E.domR E.domZ) E.domR E.domZ h.fields).of_ok e1
  let heap : Nat → Part ℝ := fun t =>
    if ∃ i j, i < E.domR ∧ j < E.domZ ∧ ∃ sp ∈ T.D i j, ∃ o ∈ sp.parts, o.tag = t then S'.heap (f t) else T.heap t
  have hp : ∀ i j, i < E.domR → j < E.domZ → ∀ sp ∈ T.D i j, ∀ o ∈ sp.parts, heap o.tag = S'.heap (f o.tag) := fun i j hi hj sp hsp o ho =>
    if_pos ⟨i, j, hi, hj, sp, hsp, o, ho, rfl⟩
  let there : Nat → Prop := fun t => ∃ i j, i < E.domR ∧ j < E.domZ ∧ ∃ sp ∈ T.D i j, ∃ o ∈ sp.parts, o.tag = t
  have L : DRel (fun o o' => PrtRel f o o' ∧ there o'.tag) E.domR E.domZ (cellsOf S'.heap S.D) (cellsOf heap T.D) := by
    intro i j hi hj
    unfold cellsOf
    refine forall₂_map (h.lists i j hi hj) fun s _ s' hs' x => ⟨x.1, forall₂_map x.2 fun o _ o' ho' y => ⟨?_, i, j, hi, hj, s', hs', o', ho', rfl⟩⟩
    unfold PrtRel
    dsimp only
    rw [hp i j hi hj s' hs' o' ho', y]
    exact ⟨rfl, rfl, rfl⟩
  obtain ⟨D', d2, L'⟩ := (collect_rel (fun o o' q => ⟨q.1.1, q.1.2.1⟩) (geoOf E.p E.domR E.domZ) L).of_ok e2
  have R : ∀ M, InScaled E.domR E.domZ 1 S'.M M → Renamed E f S' ⟨M, heap, D'⟩ := fun M HM => by
    refine ⟨HM, ?_, ?_⟩
    · intro i j hi hj
      have := L' i j hi hj
      refine List.Forall₂.imp (fun s s' x => ⟨x.1, List.Forall₂.imp (fun o o' y => y.1.2.2) x.2⟩) this
    · intro i j hi hj sp hsp o ho
      obtain ⟨sp0, _, x⟩ := forall₂_right (L' i j hi hj) hsp
      obtain ⟨o0, _, _, a, b, ha, hb, sp', hsp', o', ho', e⟩ := forall₂_right x.2 ho
      have := hp a b ha hb sp' hsp' o' ho'
      rwa [e] at this
  obtain ⟨N', d3, H3⟩ := (solveCurrent_same E.dist E.p E.domR E.domZ E.e (fun i j hi hj => deposits_renamed (R S'.M fun i j _ _ => scaled_one.mpr rfl) hi hj) H1).of_ok e3
  refine ⟨⟨N', heap, D'⟩, ⟨N1, d1, ?_, ?_, d2, d3⟩, R N' H3⟩
  · intro i j hi hj sp' hsp' o' ho'
    obtain ⟨sp, hsp, x⟩ := forall₂_right (h.lists i j hi hj) hsp'
    obtain ⟨o, ho, y⟩ := forall₂_right x.2 ho'
    have := mv i j hi hj sp hsp o ho
    show Moves E i j (N1 i j) sp'.id (T.heap o'.tag) (heap o'.tag)
    rw [hp i j hi hj sp' hsp' o' ho', h.heap i j hi hj sp' hsp' o' ho', scaled_one.mp (H1 i j hi hj), ← x.1, ← y]
    exact this
  · intro a ha
    refine if_neg ?_
    rintro ⟨i, j, hi, hj, sp, hsp, o, ho, e⟩
    exact ha i j hi hj sp hsp o ho e

/-! ### Any number of steps -/

theorem exists_rename (P : List (Prt × Prt)) (nd : (P.map fun q => q.2.tag).Nodup) : ∃ f : Nat → Nat, ∀ q ∈ P, q.1.tag = f q.2.tag := by
  induction P with
  | nil => exact ⟨_root_.id, by simp⟩
  | cons p P ih =>
    rw [List.map_cons, List.nodup_cons] at nd
    obtain ⟨f, hf⟩ := ih nd.2
    refine ⟨fun t => if t = p.2.tag then p.1.tag else f t, fun q hq => ?_⟩
    rcases List.mem_cons.mp hq with rfl | hq
    · exact (if_pos rfl).symm
    · dsimp only
      have : q.2.tag ≠ p.2.tag := by
        intro e
        apply nd.1
        rw [← e]
        exact List.mem_map_of_mem (f := fun q : Prt × Prt => q.2.tag) hq
      rw [if_neg this]
      exact hf q hq

theorem alike_rel {E : Env} {S T : State} (a : Readdressed E S T) : DRel (fun o o' => S.heap o.tag = T.heap o'.tag) E.domR E.domZ S.D T.D := by
  intro i j hi hj
  have e := a.particles i j hi hj
  generalize S.D i j = l at e
  generalize T.D i j = l' at e
  induction l generalizing l' with
  | nil =>
    cases l' with
    | nil => exact .nil
    | cons _ _ => simp at e
  | cons s l ih =>
    cases l' with
    | nil => simp at e
    | cons s' l' =>
      rw [List.map_cons, List.map_cons, List.cons.injEq] at e
      obtain ⟨e1, e2⟩ := e
      refine .cons ⟨congrArg Prod.fst e1, ?_⟩ (ih l' e2)
      have := congrArg Prod.snd e1
      dsimp only at this
      clear e1 e2 ih
      generalize s.parts = m at this
      generalize s'.parts = m' at this
      induction m generalizing m' with
      | nil =>
        cases m' with
        | nil => exact .nil
        | cons _ _ => simp at this
      | cons o m ih =>
        cases m' with
        | nil => simp at this
        | cons o' m' =>
          rw [List.map_cons, List.map_cons, List.cons.injEq] at this
          exact .cons this.1 (ih m' this.2)

theorem zip_snd {α β γ : Type _} {Q : α → β → Prop} {l : List α} {l' : List β} (h : List.Forall₂ Q l l') (g : β → List γ) :
    (l.zip l').flatMap (fun q => g q.2) = l'.flatMap g := by
  induction h with
  | nil => rfl
  | cons _ _ ih => rw [List.zip_cons_cons, List.flatMap_cons, List.flatMap_cons, ih]

theorem alike_renamed {E : Env} {S T : State} (a : Readdressed E S T) (d : Distinct E T) : ∃ f, Renamed E f S T := by
  have R := alike_rel a
  obtain ⟨f, hf⟩ := exists_rename ((idx2 0 E.domR 0 E.domZ).flatMap fun q => ((S.D q.1 q.2).zip (T.D q.1 q.2)).flatMap fun s => s.1.parts.zip s.2.parts) (by
    rw [List.map_flatMap]
    unfold Distinct at d
    convert d using 1
    apply List.flatMap_congr
    intro q hq
    have hq := mem_idx2.mp hq
    have r := R q.1 q.2 (by omega) (by omega)
    rw [List.map_flatMap, ← zip_snd r]
    apply List.flatMap_congr
    intro s hs
    have := (List.forall₂_iff_zip.mp r).2 (show (s.1, s.2) ∈ _ from hs)
    have z := zip_snd this.2 fun o : Prt => [o.tag]
    rw [List.map_eq_flatMap, List.map_eq_flatMap]
    exact z)
  refine ⟨f, fun i j hi hj => scaled_one.mpr (a.fields i j hi hj).symm, fun i j hi hj => ?_, fun i j hi hj sp' hsp' o' ho' => ?_⟩
  · refine List.forall₂_iff_zip.mpr ⟨forall₂_length (R i j hi hj), fun {s s'} hs => ?_⟩
    have x := (List.forall₂_iff_zip.mp (R i j hi hj)).2 hs
    refine ⟨x.1, List.forall₂_iff_zip.mpr ⟨forall₂_length x.2, fun {o o'} ho => hf (o, o') ?_⟩⟩
    exact List.mem_flatMap.mpr ⟨(i, j), mem_idx2.mpr (by dsimp only; omega), List.mem_flatMap.mpr ⟨(s, s'), hs, ho⟩⟩
  · have r := R i j hi hj
    obtain ⟨k, hk, e⟩ := List.mem_iff_getElem.mp hsp'
    have lk := forall₂_length r
    obtain ⟨n, hn, e'⟩ := List.mem_iff_getElem.mp ho'
    have z1 : ((S.D i j)[k], sp') ∈ (S.D i j).zip (T.D i j) := by
      rw [← e]
      exact List.mem_iff_getElem.mpr ⟨k, by simp; omega, by simp⟩
    have x := (List.forall₂_iff_zip.mp r).2 z1
    have ln := forall₂_length x.2
    have z2 : ((S.D i j)[k].parts[n], o') ∈ (S.D i j)[k].parts.zip sp'.parts := by
      rw [← e']
      exact List.mem_iff_getElem.mpr ⟨n, by simp; omega, by simp⟩
    have y := (List.forall₂_iff_zip.mp x.2).2 z2
    have := hf ((S.D i j)[k].parts[n], o') (List.mem_flatMap.mpr ⟨(i, j), mem_idx2.mpr (by dsimp only; omega), List.mem_flatMap.mpr ⟨_, z1, z2⟩⟩)
    dsimp only at this
    rw [← this, y]

theorem run_renamed {E : Env} {f : Nat → Nat} {S T : State} (h : Renamed E f S T) {n : Nat} {S' : State} (r : Run E S n S') : ∃ T', Run E T n T' ∧ Renamed E f S' T' := by
  induction r with
  | start => exact ⟨T, .start, h⟩
  | step _ s ih =>
    obtain ⟨T1, r1, h1⟩ := ih
    obtain ⟨T', s', h'⟩ := step_renamed h1 s
    exact ⟨T', .step r1 s', h'⟩

/-- **C127**: addresses do not matter.  Whatever a simulation can do, the same simulation with the particles at other addresses can do as well: for
all chambers and divisions, pushers, schemes and states (sane or not), every run from one of two states that differ in the addresses only has its
counterpart from the other one, and after every number of steps the two states differ in the addresses only. -/
theorem C127_addresses {E : Env} {S T : State} (a : Readdressed E S T) (d : Distinct E T) {n : Nat} {S' : State} (r : Run E S n S') :
    ∃ T', Run E T n T' ∧ Readdressed E S' T' := by
  obtain ⟨f, h⟩ := alike_renamed a d
  obtain ⟨T', r', h'⟩ := run_renamed h r
  exact ⟨T', r', renamed_alike h'⟩

/-- Two executions of the same simulation whose first states differ in the addresses only: if there is only one way in which the second one
can go on, they show the same for ever. -/
theorem alike_executions {E : Env} {S T : State} (a : Readdressed E S T) (d : Distinct E T) {hs ht : Nat → State} (xs : Execution E S hs) (xt : Execution E T ht)
    (u : ∀ n T1 T2, Run E T n T1 → Run E T n T2 → T1 = T2) (n : Nat) : Readdressed E (hs n) (ht n) := by
  have run : ∀ {S : State} {h : Nat → State}, Execution E S h → ∀ n, Run E S n (h n) := by
    intro S h x n
    induction n with
    | zero => rw [x.first]; exact .start
    | succ n ih => exact .step ih (x.next n)
  obtain ⟨T', r, k⟩ := C127_addresses a d (run xs n)
  rw [u n _ _ (run xt n) r]
  exact k

/-! ### The beginning -/

theorem forall₂_fun {α β : Type _} {Q : α → β → Prop} (hQ : ∀ x y z, Q x y → Q x z → y = z) {a : List α} {b c : List β} (h : List.Forall₂ Q a b) (h' : List.Forall₂ Q a c) :
    b = c := by
  induction h generalizing c with
  | nil => cases h'; rfl
  | cons x _ ih =>
    cases h' with
    | cons x' t => rw [hQ _ _ _ x x', ih t]

theorem placed_det {X : Setup} {i j : Nat} {s : Species} {n : Nat} {ps ps' : List (Part ℝ)} (h : Placed X i j s n ps) (h' : Placed X i j s n ps') : ps = ps' := by
  unfold Placed at h h'
  cases e : X.spatial <;> rw [e] at h h' <;> dsimp only at h h'
  · obtain ⟨ur, uz, f, h⟩ := h
    obtain ⟨ur', uz', f', h'⟩ := h'
    have : Place.random s.id X.mnzl (X.env.geom i j) (X.env.walls i j) (Place.whole (X.env.geom i j)) (leftOf X i j s) (rightOf X i j s) n ur uz =
        Place.random s.id X.mnzl (X.env.geom i j) (X.env.walls i j) (Place.whole (X.env.geom i j)) (leftOf X i j s) (rightOf X i j s) n ur' uz' := by
      unfold Place.random
      apply List.map_congr_left
      intro k hk
      have hk := List.mem_range.mp hk
      have det : ∀ {v : ℝ} {p : Int} {x y : ℝ}, Rand.RandomReverse v p x → Rand.RandomReverse v p y → x = y := by
        rintro v p x y ⟨_, _, t, w, rfl⟩ ⟨_, _, t', w', rfl⟩
        rw [While.det w w']
      rw [det (f k hk).1 (f' k hk).1, det (f k hk).2 (f' k hk).2]
    unfold Place.fill at h h'
    rw [this] at h
    exact Res.ok.inj (h.symm.trans h')
  · exact Res.ok.inj (h.symm.trans h')
  · obtain ⟨qs, c, h⟩ := h
    obtain ⟨qs', c', h'⟩ := h'
    obtain rfl := Res.ok.inj (c.symm.trans c')
    exact Res.ok.inj (h.symm.trans h')
  · obtain ⟨qs, c0, c, h⟩ := h
    obtain ⟨qs', c0', c', h'⟩ := h'
    have : qs = qs' := by
      by_cases z : n = 0
      · rw [c0 z, c0' z]
      · obtain ⟨rs, zs, r1, r2, rfl⟩ := c z
        obtain ⟨rs', zs', r1', r2', rfl⟩ := c' z
        obtain rfl := Place.forUp_det r1 r1'
        obtain rfl := Place.forUp_det r2 r2'
        rfl
    subst this
    exact Res.ok.inj (h.symm.trans h')

theorem speeds_det {X : Setup} {i j : Nat} {s : Species} {n m : Nat} {vs vs' : List (Option (Vec3 ℝ))} (h : Speeds0 X i j s n m vs) (h' : Speeds0 X i j s n m vs') :
    vs = vs' := by
  unfold Speeds0 at h h'
  cases e : X.speedy <;> rw [e] at h h' <;> dsimp only at h h'
  · obtain ⟨es, a, b⟩ := h
    obtain ⟨es', a', b'⟩ := h'
    obtain rfl := Res.ok.inj (Option.some.inj (a.symm.trans a'))
    exact Res.ok.inj (b.symm.trans b')
  · exact Res.ok.inj (h.symm.trans h')
  · exact Res.ok.inj (h.symm.trans h')

theorem distributed_det {X : Setup} {i j : Nat} {s : Species} {out out' : List (Part ℝ)} (d : Distributed X i j s out) (d' : Distributed X i j s out') : out = out' := by
  obtain ⟨n, ps, qs, vs, a1, a2, a3, a4, a5, rfl⟩ := d
  obtain ⟨n', ps', qs', vs', b1, b2, b3, b4, b5, rfl⟩ := d'
  obtain rfl := amount_det rfl a1 b1
  obtain rfl := placed_det a2 b2
  obtain rfl := forall₂_fun (fun x y z h h' => Res.ok.inj (h.symm.trans h')) a3 b3
  have := speeds_det a4 b4
  rw [List.map_injective_iff.mpr (Option.some_injective _) this]

/-- Where no random numbers are used, they do not matter. -/
theorem distributed_redrawn {X Y : Setup} (r : X.Redrawn Y) (h1 : X.spatial ≠ .random) (h2 : X.speedy = .eigen) {i j : Nat} {s : Species} {out : List (Part ℝ)}
    (d : Distributed Y i j s out) : Distributed X i j s out := by
  obtain ⟨ur, uz, us, ws, rs, rfl⟩ := r
  obtain ⟨n, ps, qs, vs, a1, a2, a3, a4, a5, rfl⟩ := d
  refine ⟨n, ps, qs, vs, a1, ?_, a3, ?_, a5, rfl⟩
  · unfold Placed at a2 ⊢
    dsimp only at a2
    cases e : X.spatial <;> rw [e] at a2
    · exact a2
    · exact absurd e h1
    · exact a2
    · exact a2
  · unfold Speeds0 at a4 ⊢
    dsimp only at a4
    rw [h2] at a4 ⊢
    exact a4

theorem starts_alike {X Y : Setup} (env : Y.env = X.env) (spec : Y.species = X.species) (beams : Y.beams = X.beams) (sol : ∀ i j, newSolver Y i j = newSolver X i j)
    (dist : ∀ i j s out, Distributed Y i j s out → Distributed X i j s out) {S T : State} (st : Starts X S) (st' : Starts Y T) : Readdressed X.env S T where
  fields := fun i j hi hj => Res.ok.inj ((st.solver i j hi hj).symm.trans ((sol i j).symm.trans (st'.solver i j (by rwa [env]) (by rwa [env]))))
  particles := by
    intro i j hi hj
    have ids : (S.D i j).map Sp.id = (T.D i j).map Sp.id := by rw [st.lists, st'.lists, spec, beams]
    have one : ∀ sp ∈ S.D i j, ∀ sp' ∈ T.D i j, sp.id = sp'.id → (sp.parts.map fun o => S.heap o.tag) = sp'.parts.map fun o => T.heap o.tag := by
      intro sp hsp sp' hsp' e
      have hid : sp.id ∈ X.species.map Species.id ++ X.beams := by
        rw [← st.lists i j]
        exact List.mem_map_of_mem hsp
      rcases List.mem_append.mp hid with k | k
      · obtain ⟨s, hs, es⟩ := List.mem_map.mp k
        exact distributed_det (st.plasma i j hi hj sp hsp s hs es)
          (dist i j s _ (st'.plasma i j (by rwa [env]) (by rwa [env]) sp' hsp' s (by rwa [spec]) (es.trans e)))
      · rw [st.beam i j hi hj sp hsp k, st'.beam i j (by rwa [env]) (by rwa [env]) sp' hsp' (by rw [beams, ← e]; exact k)]
        rfl
    generalize S.D i j = l at ids one
    generalize T.D i j = l' at ids one
    induction l generalizing l' with
    | nil =>
      cases l' with
      | nil => rfl
      | cons _ _ => simp at ids
    | cons s l ih =>
      cases l' with
      | nil => simp at ids
      | cons s' l' =>
        rw [List.map_cons, List.map_cons, List.cons.injEq] at ids
        rw [List.map_cons, List.map_cons, ih l' ids.2 fun sp hsp sp' hsp' => one sp (by simp [hsp]) sp' (by simp [hsp'])]
        rw [one s (by simp) s' (by simp) ids.1, ids.1]

/-- C127, the beginning: two executions with the same configuration and the same random numbers begin alike. -/
theorem C127_start {X : Setup} {S T : State} (st : Starts X S) (st' : Starts X T) : Readdressed X.env S T ∧ Distinct X.env T :=
  ⟨starts_alike rfl rfl rfl (fun _ _ => rfl) (fun _ _ _ _ => _root_.id) st st', st'.fresh⟩

/-- C127, the beginning without luck: in the default and the two regular modes of placement with velocities along the axes two executions of the
same configuration begin alike whatever the random numbers are. -/
theorem C127_quiet {X Y : Setup} (r : X.Redrawn Y) (h1 : X.spatial ≠ .random) (h2 : X.speedy = .eigen) {S T : State} (st : Starts X S) (st' : Starts Y T) :
    Readdressed X.env S T ∧ Distinct X.env T := by
  have e : Y.env = X.env ∧ Y.species = X.species ∧ Y.beams = X.beams ∧ ∀ i j, newSolver Y i j = newSolver X i j := by
    obtain ⟨ur, uz, us, ws, rs, rfl⟩ := r
    exact ⟨rfl, rfl, rfl, fun _ _ => rfl⟩
  refine ⟨starts_alike e.1 e.2.1 e.2.2.1 e.2.2.2 (fun i j s out => distributed_redrawn r h1 h2) st st', ?_⟩
  have := st'.fresh
  rw [e.1] at this
  exact this

/-! ### The results -/

theorem loop_same {ι σ : Type} {f g : ι → σ → Res σ} (l : List ι) (h : ∀ i ∈ l, ∀ s, f i s = g i s) (s : σ) : loop f l s = loop g l s := by
  induction l generalizing s with
  | nil => rfl
  | cons i l ih =>
    rw [loop_cons, loop_cons, h i (by simp)]
    congr 1
    funext s
    exact ih (fun i hi => h i (by simp [hi])) s

theorem outputs_alike {O : OEnv} {S T : State} (a : Readdressed O.E S T) (n : Int) (F : Files) : outputs O S n F = outputs O T n F := by
  have W : ∀ s i j, i < O.E.domR → j < O.E.domZ → (worldOf O S).parts s i j = (worldOf O T).parts s i j := by
    intro s i j hi hj
    have := congrArg (fun l : List (Nat × List (Part ℝ)) => ((l[s]?).elim [] Prod.snd).map vpOf) (a.particles i j hi hj)
    rw [List.getElem?_map, List.getElem?_map] at this
    show (((S.D i j)[s]?).elim [] Sp.parts).map (fun o => vpOf (S.heap o.tag)) = (((T.D i j)[s]?).elim [] Sp.parts).map fun o => vpOf (T.heap o.tag)
    cases e : (S.D i j)[s]? <;> cases e' : (T.D i j)[s]? <;> rw [e, e'] at this <;> simpa [Function.comp_def] using this
  have P : ∀ p M, Dump.prepareOne (worldOf O S) p M = Dump.prepareOne (worldOf O T) p M := by
    intro p M
    unfold Dump.prepareOne
    show (match Dump.lookup O.names p.specie with | none => _ | some s => _) = match Dump.lookup O.names p.specie with | none => _ | some s => _
    cases Dump.lookup O.names p.specie with
    | none => rfl
    | some s =>
      dsimp only
      have : ∀ M, loop (Dump.calcAt (worldOf O S) s p.comp) (idx2 0 (worldOf O S).nr 0 (worldOf O S).nz) M =
          loop (Dump.calcAt (worldOf O T) s p.comp) (idx2 0 (worldOf O T).nr 0 (worldOf O T).nz) M := by
        intro M
        refine loop_same _ (fun d hd M => ?_) M
        have hd := mem_idx2.mp hd
        unfold Dump.calcAt
        rw [W s d.1 d.2 hd.1.2 hd.2.2]
        rfl
      rw [this]
      rfl
  unfold outputs
  have A : loop (prepareAt O S n) (List.range O.count) F = loop (prepareAt O T n) (List.range O.count) F := by
    refine loop_same _ (fun k _ F => ?_) F
    unfold prepareAt
    congr 1
    funext f
    cases f with
    | none => rfl
    | some num => dsimp only; rw [P]
  rw [A]
  congr 1
  funext F
  refine loop_same _ (fun q hq F => loop_same _ (fun k _ F => ?_) F) F
  have hq := mem_idx2.mp hq
  unfold writeAt valueOf
  rw [a.fields q.1 q.2 hq.1.2 hq.2.2]

/-- What is written is a function of what is the same. -/
theorem record_alike {O : OEnv} {hs ht : Nat → State} (a : ∀ n, Readdressed O.E (hs n) (ht n)) (F0 : Files) (N : Nat) : record O hs F0 N = record O ht F0 N := by
  induction N with
  | zero => rfl
  | succ N ih =>
    unfold record
    rw [ih]
    congr 1
    funext s
    congr 1
    funext k
    rw [outputs_alike (a (N + 1))]

/-- **C127**, from the configuration to the results: two executions of an undivided simulation with the same configuration and the same random numbers
show the same fields, currents and particles after every step and write the same results, whatever they are asked to write. -/
theorem C127_results {O : OEnv} {X : Setup} (eO : O.E = X.env) (h : X.Sane) (hc : ∀ s ∈ X.species, X.Cold s) (hk : Pusher.Relativistic X.env.kind) (hz : Scheme X.env.dist)
    (h1 : X.env.domR = 1) (h2 : X.env.domZ = 1) (half : HalfCell X.env) {S T : State} (st : Starts X S) (st' : Starts X T) {hs ht : Nat → State}
    (xs : Execution X.env S hs) (xt : Execution X.env T ht) : (∀ n, Readdressed X.env (hs n) (ht n)) ∧ ∀ F0 N, record O hs F0 N = record O ht F0 N := by
  have A : ∀ n, Readdressed X.env (hs n) (ht n) := by
    obtain ⟨a, d⟩ := C127_start st st'
    refine alike_executions a d xs xt fun n T1 T2 r1 r2 => ?_
    obtain ⟨T', u, _⟩ := C110_single h hc hk hz h1 h2 half st' n
    rw [(u T1).mp r1, (u T2).mp r2]
  exact ⟨A, fun F0 N => record_alike (by rw [eO]; exact A) F0 N⟩

/-- The same for a divided chamber, as long as the second execution never puts a particle exactly on a border of its domain. -/
theorem C127_divided_partial {O : OEnv} {X : Setup} (eO : O.E = X.env) (h : X.Sane) (hc : ∀ s ∈ X.species, X.Cold s) (hk : Pusher.Relativistic X.env.kind) (hz : Scheme X.env.dist)
    {S T : State} (st : Starts X S) (st' : Starts X T) (B : ∀ n U, Run X.env T n U → NoBorder X.env U) {hs ht : Nat → State}
    (xs : Execution X.env S hs) (xt : Execution X.env T ht) : (∀ n, Readdressed X.env (hs n) (ht n)) ∧ ∀ F0 N, record O hs F0 N = record O ht F0 N := by
  have A : ∀ n, Readdressed X.env (hs n) (ht n) := by
    obtain ⟨a, d⟩ := C127_start st st'
    refine alike_executions a d xs xt fun n T1 T2 r1 r2 => ?_
    obtain ⟨T', u, _⟩ := C110_run_partial h hc hk hz st' n fun k U _ r => B k U r
    rw [(u T1).mp r1, (u T2).mp r2]
  exact ⟨A, fun F0 N => record_alike (by rw [eO]; exact A) F0 N⟩

/-- Without luck: the default and the two regular modes of placement with velocities along the axes give the same results in every execution,
whatever the random numbers are. -/
theorem C127_certain {O : OEnv} {X Y : Setup} (rd : X.Redrawn Y) (q1 : X.spatial ≠ .random) (q2 : X.speedy = .eigen) (eO : O.E = X.env) (h : Y.Sane)
    (hc : ∀ s ∈ Y.species, Y.Cold s) (hk : Pusher.Relativistic X.env.kind) (hz : Scheme X.env.dist)
    (h1 : X.env.domR = 1) (h2 : X.env.domZ = 1) (half : HalfCell X.env) {S T : State} (st : Starts X S) (st' : Starts Y T) {hs ht : Nat → State}
    (xs : Execution X.env S hs) (xt : Execution X.env T ht) : (∀ n, Readdressed X.env (hs n) (ht n)) ∧ ∀ F0 N, record O hs F0 N = record O ht F0 N := by
  have e : Y.env = X.env := by
    obtain ⟨ur, uz, us, ws, rs, rfl⟩ := rd
    rfl
  have A : ∀ n, Readdressed X.env (hs n) (ht n) := by
    obtain ⟨a, d⟩ := C127_quiet rd q1 q2 st st'
    refine alike_executions a d xs xt fun n T1 T2 r1 r2 => ?_
    obtain ⟨T', u, _⟩ := C110_single h hc (by rwa [e]) (by rwa [e]) (by rwa [e]) (by rwa [e]) (by rwa [e]) st' n
    rw [e] at u
    rw [(u T1).mp r1, (u T2).mp r2]
  exact ⟨A, fun F0 N => record_alike (by rw [eO]; exact A) F0 N⟩

/-! ### Where random numbers are used -/

theorem weight_posR {pi : ℝ} {g : Geom ℝ} {w : Part.Walls} {a : Place.Area} {d0 d1 : ℝ} {n : Nat} {qs ps : List (Part ℝ)}
    (h : Place.setWeight pi g w a d0 d1 n qs = .ok ps) : ps.map Part.posR = qs.map Part.posR := by
  unfold Place.setWeight at h
  split_ifs at h with c1 c2
  · cases h
    rw [List.isEmpty_iff] at c1
    rw [c1]
  · cases h
    rw [List.map_map]
    rfl

/-- The radial places of a randomly placed species. -/
theorem random_posR {X : Setup} (h : X.Sane) (hr : X.spatial = .random) {i j : Nat} (hi : i < X.env.domR) (hj : j < X.env.domZ) {s : Species} {out : List (Part ℝ)}
    (d : Distributed X i j s out) {k : Nat} (hk : k < ⌊s.amount / X.env.domR / X.env.domZ⌋₊) (u : X.ur i j s.id k ≠ 0) :
    ∃ a b : ℝ, a ≠ 0 ∧ (∀ Y : Setup, X.env = Y.env → a = Place.rSize (Y.env.geom i j) (Y.env.walls i j) (Place.whole (Y.env.geom i j)) ∧
      b = (Place.whole (Y.env.geom i j)).int * (Y.env.geom i j).dr + (Y.env.geom i j).dr / 2) ∧ (out.map Part.posR)[k]? = some (a * X.ur i j s.id k + b) := by
  obtain ⟨n, ps, a, b, c⟩ := distributed_mark d
  have n1 : n = ⌊s.amount / X.env.domR / X.env.domZ⌋₊ := by
    have := a.2
    rwa [hr] at this
  have e : out.map Part.posR = ps.map Part.posR := by
    have := congrArg (List.map fun q : ℝ × ℝ × ℝ => q.1) c
    simpa [List.map_map, Function.comp_def, mark] using this
  unfold Placed at b
  rw [hr] at b
  dsimp only at b
  refine ⟨Place.rSize (X.env.geom i j) (X.env.walls i j) (Place.whole (X.env.geom i j)), (Place.whole (X.env.geom i j)).int * (X.env.geom i j).dr + (X.env.geom i j).dr / 2,
    ?_, fun Y e => by rw [e]; exact ⟨rfl, rfl⟩, ?_⟩
  · have g := geom_good h.chamber hi hj
    have dr : 0 < X.env.p.dr := h.chamber.good.geo.dr
    obtain ⟨⟨r2, _⟩, _⟩ := h.chamber.div.bounds hi hj
    have n2 : (2 : ℝ) ≤ (X.env.geom i j).nr := by
      rw [geom_eq h.chamber]
      exact_mod_cast r2
    have := Place.whole_sizes_r (g := X.env.geom i j) (by have := g.nr; omega)
    unfold Place.rSize
    rw [this]
    have gd : (X.env.geom i j).dr = X.env.p.dr := by rw [geom_eq h.chamber]
    rw [gd]
    dsimp only
    split
    · nlinarith
    · nlinarith
  · rw [e, weight_posR b]
    unfold Place.random
    rw [List.map_map, List.getElem?_map, List.getElem?_range (by omega)]
    show some (Place.shiftR _ _ (_ * if X.ur i j s.id k = 0 then X.mnzl else X.ur i j s.id k)) = _
    rw [if_neg u]
    unfold Place.shiftR
    rw [add_assoc]

/-- **C127 fails for the random placement**: two executions of the same configuration that draw different numbers for the radius of one particle begin
with different states.  The program seeds its generator from `std::random_device`, so that this is what happens. -/
theorem C127_random_fails {X Y : Setup} (rd : X.Redrawn Y) (h : X.Sane) (h' : Y.Sane) (hr : X.spatial = .random) {i j : Nat} (hi : i < X.env.domR) (hj : j < X.env.domZ)
    {s : Species} (hs : s ∈ X.species) {k : Nat} (hk : k < ⌊s.amount / X.env.domR / X.env.domZ⌋₊) (u : X.ur i j s.id k ≠ 0) (u' : Y.ur i j s.id k ≠ 0)
    (ne : X.ur i j s.id k ≠ Y.ur i j s.id k) {S T : State} (st : Starts X S) (st' : Starts Y T) : ¬ Readdressed X.env S T := by
  intro a
  have e : Y.env = X.env ∧ Y.species = X.species ∧ Y.spatial = X.spatial := by
    obtain ⟨ur, uz, us, ws, rs, rfl⟩ := rd
    exact ⟨rfl, rfl, rfl⟩
  have hid : s.id ∈ (S.D i j).map Sp.id := by
    rw [st.lists]
    exact List.mem_append_left _ (List.mem_map_of_mem hs)
  obtain ⟨sp, hsp, es⟩ := List.mem_map.mp hid
  have mem : (sp.id, sp.parts.map fun o => S.heap o.tag) ∈ (T.D i j).map (fun sp => (sp.id, sp.parts.map fun o => T.heap o.tag)) := by
    rw [← a.particles i j hi hj]
    exact List.mem_map_of_mem (f := fun sp : Sp => (sp.id, sp.parts.map fun o => S.heap o.tag)) hsp
  obtain ⟨sp', hsp', es'⟩ := List.mem_map.mp mem
  have e1 : sp'.id = sp.id := congrArg Prod.fst es'
  have e2 : (sp'.parts.map fun o => T.heap o.tag) = sp.parts.map fun o => S.heap o.tag := congrArg Prod.snd es'
  have d := st.plasma i j hi hj sp hsp s hs es.symm
  have d' := st'.plasma i j (by rwa [e.1]) (by rwa [e.1]) sp' hsp' s (by rwa [e.2.1]) (by rw [e1, es])
  obtain ⟨p, q, p0, pq, f⟩ := random_posR h hr hi hj d hk u
  obtain ⟨p', q', p0', pq', f'⟩ := random_posR h' (by rw [e.2.2, hr]) (by rwa [e.1]) (by rwa [e.1]) d' (by rwa [e.1]) u'
  rw [e2, f] at f'
  have := Option.some.inj f'
  obtain ⟨b1, b2⟩ := pq X rfl
  obtain ⟨b1', b2'⟩ := pq' X e.1
  rw [b1', b2', ← b1, ← b2] at this
  exact ne (mul_left_cancel₀ p0 (by linarith))

/-! ### Non-vacuity -/

/-- The same state with all particles at other addresses. -/
noncomputable def moved1 (S : State) : State where
  M := S.M
  heap := fun t => S.heap (t - 1)
  D := fun i j => (S.D i j).map fun sp => ⟨sp.id, sp.parts.map fun o => ⟨o.r, o.z, o.tag + 1⟩⟩

theorem starts_moved {X : Setup} {S : State} (st : Starts X S) : Starts X (moved1 S) where
  lists := fun i j => by
    rw [← st.lists i j]
    simp [moved1, Function.comp_def]
  plasma := by
    intro i j hi hj sp hsp s hs e
    obtain ⟨sp, hsp1, rfl⟩ := List.mem_map.mp hsp
    have := st.plasma i j hi hj sp hsp1 s hs e
    simpa [moved1, Function.comp_def] using this
  beam := by
    intro i j hi hj sp hsp e
    obtain ⟨sp, hsp1, rfl⟩ := List.mem_map.mp hsp
    simp [st.beam i j hi hj sp hsp1 e]
  fresh := by
    have := st.fresh.map (f := (· + 1)) (add_left_injective 1)
    simpa [moved1, List.map_flatMap, List.flatMap_map, Function.comp_def] using this
  solver := st.solver

theorem execution_exists {E : Env} {S : State} (h : ∀ n, ∃ S', ∀ T, Run E S n T ↔ T = S') : ∃ hist, Execution E S hist := by
  choose f hf using h
  refine ⟨f, ⟨((hf 0 S).mp .start).symm, fun n => ?_⟩⟩
  have := (hf (n + 1) _).mpr rfl
  cases this with
  | step r s =>
    obtain rfl := (hf n _).mp r
    exact s

/-- The hypotheses of `C127_results`: two executions of a chamber with 100 charged thermal particles, at different addresses. -/
example (sp : Spatial) : ∃ X : Setup, ∃ S T hs ht, X.Sane ∧ (∀ s ∈ X.species, X.Cold s) ∧ X.env.domR = 1 ∧ X.env.domZ = 1 ∧ HalfCell X.env ∧ Starts X S ∧ Starts X T ∧
    Execution X.env S hs ∧ Execution X.env T ht ∧ T = moved1 S ∧ X.spatial = sp := by
  have h := exSetup_sane (E := exEnv 1 1 1) (exEnv_chamber ex_div1 1) rfl 100 sp (beams := []) List.nodup_nil (by simp)
  have c := exSetup_cold (E := exEnv 1 1 1) rfl 100 sp []
  have half : HalfCell (exEnv 1 1 1) := by unfold HalfCell exEnv; norm_num
  obtain ⟨S, st⟩ := C110_exists h (fun x hx => .inr (c x hx)) (exSetup_drawable rfl (by norm_num) (by norm_num [exEnv]) sp [])
  have ex : ∀ {S : State}, Starts (exSetup (exEnv 1 1 1) 100 sp []) S → ∃ hs, Execution (exEnv 1 1 1) S hs := fun {S} st =>
    execution_exists fun n => by
      obtain ⟨S', a, _⟩ := C110_single h c (.inl rfl) (.inr rfl) rfl rfl half st n
      exact ⟨S', a⟩
  obtain ⟨hs, xs⟩ := ex st
  obtain ⟨ht, xt⟩ := ex (starts_moved st)
  exact ⟨_, S, moved1 S, hs, ht, h, c, rfl, rfl, half, st, starts_moved st, xs, xt, rfl, rfl⟩

/-- The hypotheses of `C127_certain`: other random numbers. -/
example : ∃ X Y : Setup, X.Redrawn Y ∧ X.spatial = .flat ∧ X.speedy = .eigen ∧ Y.Sane ∧ (∀ s ∈ Y.species, Y.Cold s) ∧ X.ur 0 0 7 0 ≠ Y.ur 0 0 7 0 ∧
    (∃ S, Starts X S) ∧ ∃ T, Starts Y T := by
  have s := exSetup_sane (E := exEnv 1 1 1) (exEnv_chamber ex_div1 1) rfl 100 .flat (beams := []) List.nodup_nil (by simp)
  have h : Setup.Sane { exSetup (exEnv 1 1 1) 100 .flat [] with speedy := .eigen } := ⟨s.1, s.2, s.3, s.4, s.5, s.6, s.7, s.8, s.9, s.10, s.11, s.12, s.13, s.14⟩
  have h' : Setup.Sane { exSetup (exEnv 1 1 1) 100 .flat [] with speedy := .eigen, ur := fun _ _ _ _ => 1/4 } :=
    ⟨s.1, s.2, s.3, s.4, s.5, s.6, s.7, s.8, s.9, s.10, fun _ _ _ _ => by norm_num, s.12, s.13, s.14⟩
  have d := exSetup_drawable (E := exEnv 1 1 1) (a := 100) rfl (by norm_num) (by norm_num [exEnv]) .flat []
  refine ⟨_, _, ⟨_, _, _, _, _, rfl⟩, rfl, rfl, h', ?_, ?_, C110_exists h (fun _ _ => .inl rfl) fun t ht => ?_, C110_exists h' (fun _ _ => .inl rfl) fun t ht => ?_⟩
  · intro t ht
    obtain rfl := List.mem_singleton.mp ht
    show 2 * (2 * Vel.ratio ⟨1, 1/100, 1, _⟩ (1/100)) ^ 2 < _
    norm_num [Vel.ratio, exEnv, exSetup]
  · norm_num [exSetup]
  · exact ⟨(d t ht).1, (d t ht).2.1, (d t ht).2.2.1, trivial⟩
  · exact ⟨(d t ht).1, (d t ht).2.1, (d t ht).2.2.1, trivial⟩

/-- `C127_random_fails` at work: one particle, two executions. -/
example : ∃ X Y : Setup, ∃ S T, X.Redrawn Y ∧ X.Sane ∧ Y.Sane ∧ Starts X S ∧ Starts Y T ∧ ¬ Readdressed X.env S T := by
  have s := exSetup_sane (E := exEnv 1 1 1) (exEnv_chamber ex_div1 1) rfl 100 .random (beams := []) List.nodup_nil (by simp)
  have h : Setup.Sane { exSetup (exEnv 1 1 1) 100 .random [] with speedy := .eigen } := ⟨s.1, s.2, s.3, s.4, s.5, s.6, s.7, s.8, s.9, s.10, s.11, s.12, s.13, s.14⟩
  have h' : Setup.Sane { exSetup (exEnv 1 1 1) 100 .random [] with speedy := .eigen, ur := fun _ _ _ _ => 1/4 } :=
    ⟨s.1, s.2, s.3, s.4, s.5, s.6, s.7, s.8, s.9, s.10, fun _ _ _ _ => by norm_num, s.12, s.13, s.14⟩
  have d := exSetup_drawable (E := exEnv 1 1 1) (a := 100) rfl (by norm_num) (by norm_num [exEnv]) .random []
  obtain ⟨S, st⟩ := C110_exists h (fun _ _ => .inl rfl) fun t ht => ⟨(d t ht).1, (d t ht).2.1, (d t ht).2.2.1, trivial⟩
  obtain ⟨T, st'⟩ := C110_exists h' (fun _ _ => .inl rfl) fun t ht => ⟨(d t ht).1, (d t ht).2.1, (d t ht).2.2.1, trivial⟩
  have rd : Setup.Redrawn { exSetup (exEnv 1 1 1) 100 .random [] with speedy := .eigen } { exSetup (exEnv 1 1 1) 100 .random [] with speedy := .eigen, ur := fun _ _ _ _ => 1/4 } :=
    ⟨_, _, _, _, _, rfl⟩
  refine ⟨_, _, S, T, rd, h, h', st, st', C127_random_fails rd h h' rfl (i := 0) (j := 0) (by decide) (by decide) (s := ⟨7, 100, 1, 2, 1/100⟩) (List.mem_singleton.mpr rfl)
    (k := 0) ?_ ?_ ?_ ?_ st st'⟩
  · show 0 < ⌊(100 : ℝ) / ((1 : Nat) : ℝ) / ((1 : Nat) : ℝ)⌋₊
    norm_num
  all_goals norm_num [exSetup]

end Pic
end Pico
