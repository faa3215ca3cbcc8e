import Verif.Spec.PicCloud
import Verif.Props.PicCause
import Verif.Props.Current
import Verif.Lemmas.Scale

/-!
# C125 — how the charges are packed into macroparticles does not matter

With the ZigZag deposition a run of an undivided chamber depends on the macroparticles only through the numbers of particles at the
points of phase space: splitting, joining and reordering macroparticles, tracers without weight and species without charge change nothing.
-/

set_option linter.unusedSimpArgs false
set_option linter.unusedVariables false
set_option linter.unusedSectionVars false

namespace Pico
namespace Pic

open SMB Yee

/-- A sum over macroparticles as a sum over points of phase space. -/
theorem cloud_sum (L : List Nat) (f : Nat → Phase) (w : Nat → ℝ) (F : Phase → ℝ) [DecidableEq Phase] (B : Finset Phase) (hB : ∀ t ∈ L, f t ∈ B) :
    (L.map fun t => w t * F (f t)).sum = ∑ k ∈ B, F k * ((L.filter fun t => f t = k).map w).sum := by
  induction L with
  | nil => simp
  | cons t L ih =>
    have e : ∀ k, (((t :: L).filter fun t => f t = k).map w).sum = (if k = f t then w t else 0) + ((L.filter fun t => f t = k).map w).sum := by
      intro k
      rw [List.filter_cons]
      by_cases h : f t = k
      · simp [h]
      · simp [h, Ne.symm h]
    simp only [e, mul_add, Finset.sum_add_distrib]
    rw [List.map_cons, List.sum_cons, ih fun u hu => hB u (List.mem_cons_of_mem _ hu)]
    congr 1
    simp only [mul_ite, mul_zero, Finset.sum_ite_eq', hB t List.mem_cons_self, if_true]
    rw [mul_comm]

/-- The same numbers at every point of phase space: the same sums of any quantity. -/
theorem cloud_eq {E : Env} {S T : State} {id : Nat} (h : ∀ k, cloud E S id k = cloud E T id k) (F : Phase → ℝ) :
    ((tagsOf E S.D id).map fun t => (S.heap t).weight * F (phase (S.heap t))).sum = ((tagsOf E T.D id).map fun t => (T.heap t).weight * F (phase (T.heap t))).sum := by
  classical
  let B : Finset Phase := ((tagsOf E S.D id).map fun t => phase (S.heap t)).toFinset ∪ ((tagsOf E T.D id).map fun t => phase (T.heap t)).toFinset
  rw [cloud_sum _ (fun t => phase (S.heap t)) (fun t => (S.heap t).weight) F B (fun t ht => by
      refine Finset.mem_union_left _ (List.mem_toFinset.mpr (List.mem_map.mpr ⟨t, ht, rfl⟩))),
    cloud_sum _ (fun t => phase (T.heap t)) (fun t => (T.heap t).weight) F B (fun t ht => by
      refine Finset.mem_union_right _ (List.mem_toFinset.mpr (List.mem_map.mpr ⟨t, ht, rfl⟩)))]
  refine Finset.sum_congr rfl fun k _ => ?_
  have := h k
  unfold cloud at this
  convert congrArg (F k * ·) this

/-- The same sums of indicators: the same numbers. -/
theorem cloud_of {E : Env} {S : State} {id : Nat} (k : Phase) [DecidableEq Phase] :
    cloud E S id k = ((tagsOf E S.D id).map fun t => (S.heap t).weight * if phase (S.heap t) = k then 1 else 0).sum := by
  unfold cloud
  generalize tagsOf E S.D id = L
  induction L with
  | nil => rfl
  | cons t L ih =>
    rw [List.filter_cons, List.map_cons, List.sum_cons, ← ih]
    by_cases h : phase (S.heap t) = k <;> simp [h]

theorem tot_times (s : ℝ) (l : List (VB.Op ℝ)) (c : Comp) (x y : Int) : VB.tot (l.map (opTimes s)) c x y = s * VB.tot l c x y := by
  unfold VB.tot
  induction l with
  | nil => simp
  | cons o l ih =>
    rw [List.map_cons, List.map_cons, List.sum_cons, List.map_cons, List.sum_cons, ih, mul_add]
    congr 1
    cases o <;> simp [opTimes, VB.Op.val]

theorem zz_times (X : VB.Ctx ℝ) (s : ℝ) (q : VB.Part ℝ) (c : Comp) (x y : Int) : zz X (times s q) c x y = s * zz X q c x y := by
  unfold zz
  rw [← tot_times, ← (zz_lin (s := s) X q _ _ _ _ _).eq]
  rfl

theorem tags_none {E : Env} {D : Doms} {ids : List Nat} (hD : ∀ i j, (D i j).map Sp.id = ids) {id : Nat} (hid : id ∉ ids) : tagsOf E.whole D id = [] := by
  rw [List.eq_nil_iff_forall_not_mem]
  intro t ht
  obtain ⟨i, j, hi, hj, sp, hsp, rfl, _⟩ := mem_tags.mp ht
  refine hid ?_
  rw [← hD i j]
  exact List.mem_map.mpr ⟨sp, hsp, rfl⟩

section
variable {E : Env} (h : Chamber E.whole) (hk : Pusher.Relativistic E.kind) (hc : HalfCell E)

/-- A macroparticle of weight one at a point of phase space. -/
def unit (k : Phase) : Part ℝ := ⟨k.r, 0, k.z, 0, 0, 0, k.vr, k.vphi, k.vz, 1, 0, 0, 0, 0, 0⟩

/-- What the push makes of the velocity. -/
noncomputable def pushed (E : Env) (m : Mem ℝ) (id : Nat) (k : Phase) : Vec3 ℝ :=
  match Pusher.push E.kind (E.pushPar id) true E.e.pi (E.whole.geom 0 0) m k.r k.z ⟨k.vr, k.vphi, k.vz⟩ with
  | .ok v => v
  | _ => Vec3.zero

/-- Where a macroparticle of weight one goes. -/
noncomputable def goes (E : Env) (m : Mem ℝ) (id : Nat) (k : Phase) : Part ℝ := landed E.whole (unit k) (pushed E m id k)

include h hk hc

theorem goes_moved {ids : List Nat} {S S' : State} (A : Alive E.whole ids S) {M1 : Solvers ℝ} (e1 : solveMaxwell (domPar E.p 1 1) 1 1 S.M = .ok M1)
    (st : Step E.whole S S') {m : Mem ℝ}
    (hm : ∀ (c : Yee.Comp) (x y : Int), c.isSource = false → (-2 ≤ x ∧ x < E.p.nr + 2) → (-2 ≤ y ∧ y < E.p.nz + 2) → M1 0 0 c x y = m c x y)
    {id t : Nat} (ht : t ∈ tagsOf E.whole S.D id) :
    phase (S'.heap t) = phase (goes E m id (phase (S.heap t))) ∧ (S'.heap t).weight = (S.heap t).weight ∧
      ∀ q, depositOf q (S'.heap t) = times (q * (S.heap t).weight) (depositOf 1 (goes E m id (phase (S.heap t)))) := by
  obtain ⟨v, a1, a2, a3, a4, _⟩ := moved (E := E) (n := E.p.nz) h hk hc A e1 st ht
  obtain ⟨_, f3, f4, f5⟩ := long_cell (E := E) (n := E.p.nz) h a1
  rw [← f5] at f3 f4
  have ep := push_long (E := E) (n := E.p.nz) (n' := E.p.nz) h h a1 a1 (m := M1 0 0) (m' := m) (fun c x y hc hx h1 h2 => hm c x y hc hx ⟨by omega, by omega⟩) id true
  have pv : pushed E m id (phase (S.heap t)) = v := by
    have : Pusher.push E.kind (E.pushPar id) true E.e.pi (E.whole.geom 0 0) m (phase (S.heap t)).r (phase (S.heap t)).z
        ⟨(phase (S.heap t)).vr, (phase (S.heap t)).vphi, (phase (S.heap t)).vz⟩ = .ok v := (ep.symm.trans (a2 true))
    unfold pushed
    rw [this]
  have p0 := a1.phi
  have a4 : S'.heap t = landed E.whole (S.heap t) v := a4
  refine ⟨?_, ?_, ?_⟩
  · unfold goes
    rw [pv, a4]
    unfold landed phase landR landZ unit
    rw [p0]
  · rw [a4]
    rfl
  · intro q
    unfold goes
    rw [pv, a4]
    unfold landed phase landR landZ unit depositOf times
    rw [p0]
    dsimp only
    congr 1
    ring

variable (hz : E.dist = ZigZag.currentDistribution) {ids ids' : List Nat} (nd : ids.Nodup) (nd' : ids'.Nodup)
  {P : Nat → Prop} (hP : ∀ id, E.charge id ≠ 0 → P id) {C : Nat → Nat → Prop}
include hz nd nd' hP

theorem step_cloud {S T S' T' : State} (A : Alive E.whole ids S) (A' : Alive E.whole ids' T) (Q : SameCloud E.whole P C S T)
    (st : Step E.whole S S') (st' : Step E.whole T T') : SameCloud E.whole P C S' T' := by
  have B := no_border h hk rfl rfl hc A
  have B' := no_border h hk rfl rfl hc A'
  obtain ⟨X, s1, s2, s3, s4⟩ := step_all h hk (hz ▸ zz_sound) nd A B
  obtain rfl := (s1 _).mp st
  obtain ⟨Y, t1, t2, t3, t4⟩ := step_all h hk (hz ▸ zz_sound) nd' A' B'
  obtain rfl := (t1 _).mp st'
  obtain ⟨M1, e1, g2, g3, g4, g5⟩ := id st
  obtain ⟨N1, e2, k2, k3, k4, k5⟩ := id st'
  have cf := cause_fields E.p (n := E.p.nz) (n' := E.p.nz) h.div h.div (lo := -3) (hi := E.p.nz + 2) (Or.inl rfl) (fun c x y a b d _ _ => Q.fields c x y a b d)
    (fun c x y a b d _ _ => Q.sources c x y a b d) e1 e2
  have perm : ∀ id, (tagsOf E.whole S'.D id).Perm (tagsOf E.whole S.D id) := by
    intro id
    by_cases hid : id ∈ ids
    · exact s3 id hid
    · rw [tags_none s2.species hid, tags_none A.species hid]
  have perm' : ∀ id, (tagsOf E.whole T'.D id).Perm (tagsOf E.whole T.D id) := by
    intro id
    by_cases hid : id ∈ ids'
    · exact t3 id hid
    · rw [tags_none t2.species hid, tags_none A'.species hid]
  have gS := fun {id t : Nat} (ht : t ∈ tagsOf E.whole S.D id) => goes_moved h hk hc A e1 st (m := M1 0 0) (fun _ _ _ _ _ _ => rfl) ht
  have gT := fun {id t : Nat} (ht : t ∈ tagsOf E.whole T.D id) => goes_moved h hk hc A' e2 st' (m := M1 0 0)
    (fun c x y a b d => (cf.1 c x y a b d (by omega) (by omega)).symm) ht
  obtain ⟨X', y1, y2, y3⟩ := C96_zigzag_exact_partial E.whole.p h.div E.e h.good (depositsOf E.whole S'.heap S'.D) s4 M1 (M1 0 0)
  obtain ⟨Y', z1, z2, z3⟩ := C96_zigzag_exact_partial E.whole.p h.div E.e h.good (depositsOf E.whole T'.heap T'.D) t4 N1 (N1 0 0)
  have g5 : solveCurrent E.dist E.whole.p 1 1 E.e (depositsOf E.whole S'.heap S'.D) M1 = .ok S'.M := g5
  have k5 : solveCurrent E.dist E.whole.p 1 1 E.e (depositsOf E.whole T'.heap T'.D) N1 = .ok T'.M := k5
  rw [hz] at g5 k5
  obtain rfl := Res.ok.inj (g5.symm.trans y1)
  obtain rfl := Res.ok.inj (k5.symm.trans z1)
  refine ⟨?_, ?_, ?_, ?_⟩
  · intro c x y hs hx hy
    have nj : c ≠ .jr ∧ c ≠ .jp ∧ c ≠ .jz := by
      refine ⟨?_, ?_, ?_⟩ <;> (rintro rfl; exact (nomatch hs))
    have hx : -2 ≤ x ∧ x < E.p.nr + 2 := hx
    have hy : -2 ≤ y ∧ y < E.p.nz + 2 := hy
    rw [y2 0 0 c x y Nat.one_pos Nat.one_pos nj.1 nj.2.1 nj.2.2, z2 0 0 c x y Nat.one_pos Nat.one_pos nj.1 nj.2.1 nj.2.2]
    exact cf.1 c x y hs hx hy (by omega) (by omega)
  · intro c x y hs hx hy
    have hx : 0 ≤ x ∧ x < E.p.nr := hx
    have hy : 0 ≤ y ∧ y < E.p.nz := hy
    by_cases nj : c = .jr ∨ c = .jp ∨ c = .jz
    · have a1 := current_one (E := E) (n := E.p.nz) h nd s2.species s4 g5 nj hx hy
      have a2 := current_one (E := E) (n := E.p.nz) h nd' t2.species t4 k5 nj hx hy
      rw [a1, a2]
      let F : Nat → Phase → ℝ := fun id k => zz (ctxOf E.p 0 E.e) (depositOf 1 (goes E (M1 0 0) id k)) c x y
      let fS : Nat → ℝ := fun id => E.charge id * ((tagsOf E.whole S.D id).map fun t => (S.heap t).weight * F id (phase (S.heap t))).sum
      let fT : Nat → ℝ := fun id => E.charge id * ((tagsOf E.whole T.D id).map fun t => (T.heap t).weight * F id (phase (T.heap t))).sum
      have fe : fS = fT := by
        funext id
        show E.charge id * _ = E.charge id * _
        by_cases c0 : E.charge id = 0
        · rw [c0, zero_mul, zero_mul]
        · rw [cloud_eq (Q.clouds id (hP id c0)) (F id)]
      have eS : ∀ id, ((tagsOf E.whole S'.D id).map fun t => zz (ctxOf E.p 0 E.e) (depositOf (E.charge id) (S'.heap t)) c x y).sum = fS id := by
        intro id
        rw [((perm id).map _).sum_eq]
        show _ = E.charge id * _
        rw [← List.sum_map_mul_left]
        refine congrArg List.sum (List.map_congr_left fun t ht => ?_)
        rw [(gS ht).2.2, zz_times, mul_assoc]
      have eT : ∀ id, ((tagsOf E.whole T'.D id).map fun t => zz (ctxOf E.p 0 E.e) (depositOf (E.charge id) (T'.heap t)) c x y).sum = fT id := by
        intro id
        rw [((perm' id).map _).sum_eq]
        show _ = E.charge id * _
        rw [← List.sum_map_mul_left]
        refine congrArg List.sum (List.map_congr_left fun t ht => ?_)
        rw [(gT ht).2.2, zz_times, mul_assoc]
      have e1 : (ids.map fun id => ((tagsOf (E.long E.p.nz) S'.D id).map fun t => zz (ctxOf E.p 0 E.e) (depositOf (E.charge id) (S'.heap t)) c x y).sum) = ids.map fS :=
        List.map_congr_left fun id _ => eS id
      have e2 : (ids'.map fun id => ((tagsOf (E.long E.p.nz) T'.D id).map fun t => zz (ctxOf E.p 0 E.e) (depositOf (E.charge id) (T'.heap t)) c x y).sum) = ids'.map fT :=
        List.map_congr_left fun id _ => eT id
      rw [e1, e2, ← List.sum_toFinset _ nd, ← List.sum_toFinset _ nd']
      have z1 : ∀ id, id ∉ ids → fS id = 0 := by
        intro id hid
        show E.charge id * _ = 0
        rw [tags_none A.species hid, List.map_nil, List.sum_nil, mul_zero]
      have z2 : ∀ id, id ∉ ids' → fT id = 0 := by
        intro id hid
        show E.charge id * _ = 0
        rw [tags_none A'.species hid, List.map_nil, List.sum_nil, mul_zero]
      rw [Finset.sum_subset (Finset.subset_union_left (s₂ := ids'.toFinset)) (fun id _ k => z1 id fun k' => k (List.mem_toFinset.mpr k')),
        Finset.sum_subset (Finset.subset_union_right (s₁ := ids.toFinset)) (fun id _ k => z2 id fun k' => k (List.mem_toFinset.mpr k')), fe]
    · have nj : c ≠ .jr ∧ c ≠ .jp ∧ c ≠ .jz := ⟨fun k => nj (Or.inl k), fun k => nj (Or.inr (Or.inl k)), fun k => nj (Or.inr (Or.inr k))⟩
      rw [y2 0 0 c x y Nat.one_pos Nat.one_pos nj.1 nj.2.1 nj.2.2, z2 0 0 c x y Nat.one_pos Nat.one_pos nj.1 nj.2.1 nj.2.2]
      exact cf.2 c x y hs hx hy (by omega) (by omega)
  · intro id hid k
    classical
    rw [cloud_of, cloud_of, ((perm id).map _).sum_eq, ((perm' id).map _).sum_eq]
    have := cloud_eq (Q.clouds id hid) fun k' => if phase (goes E (M1 0 0) id k') = k then 1 else 0
    refine Eq.trans (congrArg List.sum (List.map_congr_left fun t ht => ?_)) (this.trans (congrArg List.sum (List.map_congr_left fun t ht => ?_)))
    · rw [(gS ht).1, (gS ht).2.1]
    · rw [(gT ht).1, (gT ht).2.1]
  · intro id t ht
    obtain ⟨q1, q2, q3⟩ := Q.common id t ht
    refine ⟨(perm id).mem_iff.mpr q1, (perm' id).mem_iff.mpr q2, ?_⟩
    obtain ⟨v, _, a2, _, a4, _⟩ := moved (E := E) (n := E.p.nz) h hk hc A e1 st q1
    obtain ⟨u, b1, b2, _, b4, _⟩ := moved (E := E) (n := E.p.nz) h hk hc A' e2 st' q2
    obtain ⟨_, f3, f4, f5⟩ := long_cell (E := E) (n := E.p.nz) h b1
    rw [← f5] at f3 f4
    have ep := push_long (E := E) (n := E.p.nz) (n' := E.p.nz) h h b1 b1 (m := M1 0 0) (m' := N1 0 0)
      (fun c x y hc hx h1 h2 => cf.1 c x y hc hx ⟨by omega, by omega⟩ (by omega) (by omega)) id true
    rw [q3] at a2 a4
    obtain rfl := Res.ok.inj ((a2 true).symm.trans (ep.trans (b2 true)))
    exact a4.trans b4.symm

/-- C125: two simulations of the undivided closed chamber with the same fields, and with the same numbers of particles at every
point of phase space for every charged species (and any other species `P`), whatever their macroparticles and species are: after any
number of steps they have the same fields, currents and numbers of particles at every point of phase space; and macroparticles that
were the same in both stay the same in both. -/
theorem C125_run_partial {S T : State} (A : Alive E.whole ids S) (A' : Alive E.whole ids' T) (Q : SameCloud E.whole P C S T) (n : Nat) :
    ∃ S' T', (∀ X, Run E.whole S n X ↔ X = S') ∧ (∀ X, Run E.whole T n X ↔ X = T') ∧ SameCloud E.whole P C S' T' := by
  have sc : Scheme E.dist := Or.inr hz
  induction n with
  | zero =>
    obtain ⟨S', a1, _⟩ := C97_single h hk sc rfl rfl hc nd A 0
    obtain ⟨T', b1, _⟩ := C97_single h hk sc rfl rfl hc nd' A' 0
    obtain rfl := (a1 _).mp .start
    obtain rfl := (b1 _).mp .start
    exact ⟨S, T, a1, b1, Q⟩
  | succ n ih =>
    obtain ⟨S1, T1, a1, b1, Q1⟩ := ih
    obtain ⟨S0, c1, c2, _⟩ := C97_single h hk sc rfl rfl hc nd A n
    obtain rfl := (c1 _).mp ((a1 _).mpr rfl)
    obtain ⟨T0, d1, d2, _⟩ := C97_single h hk sc rfl rfl hc nd' A' n
    obtain rfl := (d1 _).mp ((b1 _).mpr rfl)
    obtain ⟨S2, e1, _⟩ := C97_single h hk sc rfl rfl hc nd A (n + 1)
    obtain ⟨T2, f1, _⟩ := C97_single h hk sc rfl rfl hc nd' A' (n + 1)
    refine ⟨S2, T2, e1, f1, ?_⟩
    have r := (e1 S2).mpr rfl
    have r' := (f1 T2).mpr rfl
    cases r with
    | step ra rb =>
      obtain rfl := (a1 _).mp ra
      cases r' with
      | step ra' rb' =>
        obtain rfl := (b1 _).mp ra'
        exact step_cloud h hk hc hz nd nd' hP c2 d2 Q1 rb rb'
end

section
variable {E : Env} (h : Chamber E.whole) (hk : Pusher.Relativistic E.kind) (hc : HalfCell E) (hz : E.dist = ZigZag.currentDistribution)

theorem sum_split {L L' : List Nat} {parts : Nat → List Nat} (hL : L'.Perm (L.flatMap parts)) {f g : Nat → ℝ} (hf : ∀ t ∈ L, ((parts t).map g).sum = f t) :
    (L'.map g).sum = (L.map f).sum := by
  rw [(hL.map g).sum_eq, List.map_flatMap]
  clear hL
  induction L with
  | nil => rfl
  | cons t L ih =>
    rw [List.flatMap_cons, List.sum_append, List.map_cons, List.sum_cons, hf t List.mem_cons_self, ih fun u hu => hf u (List.mem_cons_of_mem _ hu)]

include h hk hc hz

/-- C125, splitting: if every macroparticle `t` of `S` is replaced by macroparticles `parts t` of the same species at the same place
with the same velocity, whose weights add up to the weight of `t`, then after any number of steps the fields and currents are
the same, and so are the numbers of particles at every point of phase space. -/
theorem C125_split_partial {ids : List Nat} (nd : ids.Nodup) {S T : State} (A : Alive E.whole ids S) (A' : Alive E.whole ids T) (hM : T.M = S.M) {parts : Nat → List Nat}
    (hl : ∀ id ∈ ids, (tagsOf E.whole T.D id).Perm ((tagsOf E.whole S.D id).flatMap parts))
    (hp : ∀ id ∈ ids, ∀ t ∈ tagsOf E.whole S.D id, ∀ u ∈ parts t, phase (T.heap u) = phase (S.heap t))
    (hw : ∀ id ∈ ids, ∀ t ∈ tagsOf E.whole S.D id, ((parts t).map fun u => (T.heap u).weight).sum = (S.heap t).weight) (n : Nat) :
    ∃ S' T', (∀ X, Run E.whole S n X ↔ X = S') ∧ (∀ X, Run E.whole T n X ↔ X = T') ∧ SameCloud E.whole (fun _ => True) (fun _ _ => False) S' T' := by
  refine C125_run_partial h hk hc hz nd nd (fun _ _ => trivial) A A' ⟨fun c x y _ _ _ => by rw [hM], fun c x y _ _ _ => by rw [hM], fun id _ k => ?_, fun _ _ f => f.elim⟩ n
  classical
  by_cases hid : id ∈ ids
  · rw [cloud_of, cloud_of]
    symm
    refine sum_split (hl id hid) fun t ht => ?_
    rw [← hw id hid t ht, ← List.sum_map_mul_right]
    exact congrArg List.sum (List.map_congr_left fun u hu => by rw [hp id hid t ht u hu])
  · unfold cloud
    rw [tags_none A.species hid, tags_none A'.species hid]
    rfl

/-- C125, tracers: a simulation with additional macroparticles that have no weight or belong to a species without charge.  After any
number of steps all fields, currents and other macroparticles are what they are without the tracers. -/
theorem C125_tracers_partial {ids ids' : List Nat} (nd : ids.Nodup) (nd' : ids'.Nodup) {S T : State} (A : Alive E.whole ids S) (A' : Alive E.whole ids' T) (hM : T.M = S.M) {tr : Nat → List Nat}
    (hl : ∀ id, (tagsOf E.whole T.D id).Perm (tagsOf E.whole S.D id ++ tr id))
    (hh : ∀ id, ∀ t ∈ tagsOf E.whole S.D id, T.heap t = S.heap t)
    (h0 : ∀ id, E.charge id ≠ 0 → ∀ t ∈ tr id, (T.heap t).weight = 0) (n : Nat) :
    ∃ S' T', (∀ X, Run E.whole S n X ↔ X = S') ∧ (∀ X, Run E.whole T n X ↔ X = T') ∧
      (∀ (c : Yee.Comp) (x y : Int), c.isSource = false → (-2 ≤ x ∧ x < E.p.nr + 2) → (-2 ≤ y ∧ y < E.p.nz + 2) → S'.M 0 0 c x y = T'.M 0 0 c x y) ∧
      (∀ (c : Yee.Comp) (x y : Int), c.isSource = true → (0 ≤ x ∧ x < E.p.nr) → (0 ≤ y ∧ y < E.p.nz) → S'.M 0 0 c x y = T'.M 0 0 c x y) ∧
      ∀ id, ∀ t ∈ tagsOf E.whole S.D id, S'.heap t = T'.heap t := by
  have Q : SameCloud E.whole (fun id => E.charge id ≠ 0) (fun id t => t ∈ tagsOf E.whole S.D id) S T := by
    refine ⟨fun c x y _ _ _ => by rw [hM], fun c x y _ _ _ => by rw [hM], fun id hid k => ?_, fun id t ht => ⟨ht, (hl id).mem_iff.mpr (List.mem_append_left _ ht), (hh id t ht).symm⟩⟩
    classical
    rw [cloud_of, cloud_of, ((hl id).map _).sum_eq, List.map_append, List.sum_append]
    have : ((tr id).map fun t => (T.heap t).weight * if phase (T.heap t) = k then 1 else 0).sum = 0 := by
      refine List.sum_eq_zero fun v hv => ?_
      obtain ⟨t, ht, rfl⟩ := List.mem_map.mp hv
      rw [h0 id hid t ht, zero_mul]
    rw [this, add_zero]
    exact congrArg List.sum (List.map_congr_left fun t ht => by rw [hh id t ht])
  obtain ⟨S', T', a, b, Q⟩ := C125_run_partial h hk hc hz nd nd' (fun _ k => k) A A' Q n
  exact ⟨S', T', a, b, Q.fields, Q.sources, fun id t ht => (Q.common id t ht).2.2⟩
end

/-- C125 fails for the other scheme (the default): one more macroparticle without charge, which moves along the axis, wipes out the radial
current that the others have deposited in its cell. -/
theorem C125_vb_fails {K : Type} [Field K] [LinearOrder K] [IsStrictOrderedRing K] [FloorRing K] (x : VB.Ctx K) (hx : x.Good) {ps : List (VB.Part K)} {m m1 : Mem K} (e : VB.currentDistribution x ps m = .ok m1)
    {p : VB.Part K} (hq : p.q = 0) (hb : p.Bound x.g) (hn : p.NearCell x.g) (hr : |p.r - p.rOld| < x.mnzl) (hz : x.mnzl ≤ |p.z - p.zOld|)
    (h0 : m1 .jr (⌊p.r / x.g.dr⌋ - x.g.r0) (⌊p.z / x.g.dz⌋ - x.g.z0) ≠ 0) :
    ∃ m2, VB.currentDistribution x (ps ++ [p]) m = .ok m2 ∧
      m2 .jr (⌊p.r / x.g.dr⌋ - x.g.r0) (⌊p.z / x.g.dz⌋ - x.g.z0) ≠ m1 .jr (⌊p.r / x.g.dr⌋ - x.g.r0) (⌊p.z / x.g.dz⌋ - x.g.z0) := by
  unfold VB.currentDistribution at e ⊢
  obtain ⟨a, e1, e2⟩ := Res.bind_ok e
  have az : VB.azimuthal x (ps ++ [p]) m = .ok a := by
    unfold VB.azimuthal at e1 ⊢
    rw [loop_append, e1, Res.ok_bind]
    obtain ⟨a', f1, f2⟩ := VB.loop_azimuthal x hx [p] (by simpa using hb) a
    rw [f1]
    congr 1
    funext c i k
    rw [f2]
    have : VB.tot (VB.azimuthalOps x p) c i k = 0 := by
      unfold VB.azimuthalOps VB.tot
      simp [hq, VB.Op.val]
    simp [this]
  obtain ⟨m2, g1, g2, _⟩ := VB.C19_axial_erases x hx p hb hn hr hz m1
  refine ⟨m2, ?_, fun k => h0 (k ▸ g2)⟩
  rw [az, Res.ok_bind]
  unfold VB.rz at e2 ⊢
  rw [loop_append, e2, Res.ok_bind, loop_cons, g1, Res.ok_bind, loop_nil]

/-- The hypotheses of `C125_vb_fails`: a charge that moves along the radius, and a tracer that moves along the axis in the same cell. -/
example : ∃ m1, VB.currentDistribution VB.exCtx [VB.exRadial] (fun _ _ _ => 0) = .ok m1 ∧
    m1 .jr (⌊VB.exAxial.r / VB.exCtx.g.dr⌋ - VB.exCtx.g.r0) (⌊VB.exAxial.z / VB.exCtx.g.dz⌋ - VB.exCtx.g.z0) ≠ 0 ∧
    ({ VB.exAxial with q := 0 } : VB.Part ℚ).Bound VB.exCtx.g ∧ ({ VB.exAxial with q := 0 } : VB.Part ℚ).NearCell VB.exCtx.g ∧
    |VB.exAxial.r - VB.exAxial.rOld| < VB.exCtx.mnzl ∧ VB.exCtx.mnzl ≤ |VB.exAxial.z - VB.exAxial.zOld| := by
  have : (match VB.currentDistribution VB.exCtx [VB.exRadial] (fun _ _ _ => 0) with
    | .ok m1 => decide (m1 .jr (⌊VB.exAxial.r / VB.exCtx.g.dr⌋ - VB.exCtx.g.r0) (⌊VB.exAxial.z / VB.exCtx.g.dz⌋ - VB.exCtx.g.z0) ≠ 0)
    | _ => false) = true := by decide +kernel
  split at this
  · rename_i m1 e
    exact ⟨m1, e, of_decide_eq_true this, ⟨⟨by decide +kernel, by decide +kernel, by decide +kernel, by decide +kernel⟩,
      by decide +kernel, by decide +kernel, by decide +kernel, by decide +kernel⟩, by decide +kernel, by decide +kernel, by decide +kernel⟩
  · exact nomatch this

/-- A particle of weight `w` at a fixed place. -/
noncomputable def exHeavy (w : ℝ) : Part ℝ := { exPart (3/2) (5/2) (1/2) (1/3) 1 2 with weight := w }

/-- Two particles at the same place. -/
noncomputable def exTwo (w w' : ℝ) : State where
  M := fun _ _ => exMedium
  heap := fun t => if t = 0 then exHeavy w else exHeavy w'
  D := fun _ _ => [⟨7, [⟨0, 0, 0⟩, ⟨0, 0, 1⟩]⟩]

theorem exHeavy_place (w : ℝ) : InPlace (exEnv 1 1 1) 0 0 (exHeavy w) := by
  have h := exEnv_chamber ex_div1 1
  refine ⟨rfl, ?_, ?_, ?_, ?_, ?_, ?_, ?_, ?_⟩
  · rw [geom_eq h]
    constructor <;> norm_num [exEnv, exPart, exHeavy, low, hgt]
  all_goals norm_num [exEnv, exPart, exHeavy, vel, Vec3.length2, Int.floor_eq_iff]

theorem exTwo_alive (w w' : ℝ) : Alive (exEnv 1 1 1) [7] (exTwo w w') where
  species := fun _ _ => rfl
  once := by
    have : [7].flatMap (tagsOf (exEnv 1 1 1) (exTwo w w').D) = [0, 1] := by rfl
    rw [this]
    decide
  place := by
    intro i j hi hj sp hsp o ho
    have i0 : i = 0 := Nat.lt_one_iff.mp hi
    have j0 : j = 0 := Nat.lt_one_iff.mp hj
    subst i0 j0
    show InPlace _ 0 0 (if o.tag = 0 then _ else _)
    split
    · exact exHeavy_place w
    · exact exHeavy_place w'
  fields := ⟨exMedium, fun c hc i j x y _ => ⟨fun _ => rfl, fun _ => if_neg (fun k => by rw [k] at hc; exact (nomatch hc))⟩⟩

/-- C125 is not empty: a moving charge of weight one, and two of weights a quarter and three quarters. -/
example (n : Nat) : ∃ S' T', (∀ X, Run (exEnv 1 1 1) (exState 0 (exHeavy 1)) n X ↔ X = S') ∧ (∀ X, Run (exEnv 1 1 1) (exTwo (1/4) (3/4)) n X ↔ X = T') ∧
    SameCloud (exEnv 1 1 1) (fun _ => True) (fun _ _ => False) S' T' := by
  refine C125_split_partial (E := exEnv 1 1 1) (exEnv_chamber ex_div1 1) (Or.inl rfl) (by unfold HalfCell exEnv; norm_num) rfl (ids := [7]) (by simp)
    (exState_alive (exHeavy_place 1) (by rfl)) (exTwo_alive _ _) rfl (parts := fun _ => [0, 1]) ?_ ?_ ?_ n
  · intro id hid
    obtain rfl := List.mem_singleton.mp hid
    exact List.Perm.refl [0, 1]
  · intro id hid t ht u hu
    show phase (if u = 0 then _ else _) = phase (exHeavy 1)
    split <;> rfl
  · intro id hid t ht
    show (1/4 : ℝ) + (3/4 + 0) = 1
    norm_num

/-- A moving charge, and the same with a tracer without weight. -/
example (n : Nat) : ∃ S' T', (∀ X, Run (exEnv 1 1 1) (exState 0 (exHeavy 1)) n X ↔ X = S') ∧ (∀ X, Run (exEnv 1 1 1) (exTwo 1 0) n X ↔ X = T') ∧ S'.heap 0 = T'.heap 0 := by
  have := C125_tracers_partial (E := exEnv 1 1 1) (exEnv_chamber ex_div1 1) (Or.inl rfl) (by unfold HalfCell exEnv; norm_num) rfl (ids := [7]) (ids' := [7]) (by simp) (by simp)
    (exState_alive (exHeavy_place 1) (by rfl)) (exTwo_alive 1 0) rfl (tr := fun id => if id = 7 then [1] else []) ?_ ?_ ?_ n
  · obtain ⟨S', T', a, b, _, _, c⟩ := this
    exact ⟨S', T', a, b, c 7 0 (by show 0 ∈ [0]; simp)⟩
  · intro id
    by_cases k : id = 7
    · subst k
      exact List.Perm.refl [0, 1]
    · rw [if_neg k, List.append_nil, tags_none (E := exEnv 1 1 1) (ids := [7]) (fun _ _ => rfl) (by simpa using k),
        tags_none (E := exEnv 1 1 1) (ids := [7]) (fun _ _ => rfl) (by simpa using k)]
  · intro id t ht
    obtain ⟨i, j, hi, hj, sp, hsp, rfl, o, ho, rfl⟩ := mem_tags.mp ht
    have i0 : i = 0 := Nat.lt_one_iff.mp hi
    have j0 : j = 0 := Nat.lt_one_iff.mp hj
    subst i0 j0
    obtain rfl := List.mem_singleton.mp hsp
    obtain rfl := List.mem_singleton.mp ho
    rfl
  · intro id hid t ht
    by_cases k : id = 7
    · subst k
      obtain rfl := List.mem_singleton.mp ht
      rfl
    · rw [if_neg k] at ht
      exact nomatch ht

end Pic
end Pico
