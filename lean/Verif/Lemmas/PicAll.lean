import Verif.Spec.PicAll
import Verif.Lemmas.PicFull
import Verif.Props.PicBeam

/-! The step with beams, external fields and collisions. -/

set_option linter.unusedSimpArgs false
set_option linter.unusedVariables false
set_option linter.unusedSectionVars false

namespace Pico
namespace Pic

open SMB Yee

section
variable {B : BEnv} (G : BeamChamber B)
include G

open Classical in
/-- Hand-over and currents after any flight of slow particles. -/
theorem lands_ok (hz : Sound B.env.dist) {ids : List Nat} (nd : ids.Nodup) {S : State} (A : BReady B ids S) {heap : Nat → Part ℝ}
    (hp : ∀ i j, i < B.env.domR → j < B.env.domZ → ∀ sp ∈ S.D i j, ∀ o ∈ sp.parts, ∃ v, v.length2 < B.env.c ^ 2 ∧
      (¬ B.isBeam sp.id → heap o.tag = landed B.env (S.heap o.tag) v) ∧ (B.isBeam sp.id → heap o.tag = beamLanded B.env (S.heap o.tag) v))
    {M1 : Solvers ℝ} (e1' : solveMaxwell (domPar B.env.p B.env.domR B.env.domZ) B.env.domR B.env.domZ S.M = .ok M1) :
    ∃ D' M', collect (geoOf B.env.p B.env.domR B.env.domZ) (cellsOf heap S.D) = .ok D' ∧
      solveCurrent B.env.dist B.env.p B.env.domR B.env.domZ B.env.e (depositsOf B.env heap D') M1 = .ok M' ∧ BReady B ids ⟨M', heap, D'⟩ ∧
      (∀ i j, i < B.env.domR → j < B.env.domZ → ∀ sp ∈ D' i j, B.isBeam sp.id → ∀ o ∈ sp.parts, BeamPlace B.env i j (heap o.tag)) ∧
      (∀ id ∈ ids, (tagsOf B.env D' id).Perm ((tagsOf B.env S.D id).filter fun t => decide (Inside B.env (heap t)))) ∧
      ∀ id ∈ ids, ¬ B.isBeam id → (tagsOf B.env D' id).Perm (tagsOf B.env S.D id) := by
  have h := G.chamber
  have dr : 0 < B.env.p.dr := h.good.geo.dr
  have dz : 0 < B.env.p.dz := h.good.geo.dz
  obtain ⟨m, W⟩ := A.fields
  obtain ⟨M0, m1, e1, W1, keep⟩ := maxwell_ok B.env.p h.div W
  obtain rfl := Res.ok.inj (e1.symm.trans e1')
  have cells : ∀ i j, i < B.env.domR → j < B.env.domZ → ∀ sp ∈ S.D i j, ∀ o ∈ sp.parts,
      asInt (heap o.tag).cellR = ⌊(heap o.tag).posR / B.env.p.dr⌋ ∧ asInt (heap o.tag).cellZ = ⌊(heap o.tag).posZ / B.env.p.dz⌋ := by
    intro i j hi hj sp hsp o ho
    obtain ⟨v, hv, a1, a2⟩ := hp i j hi hj sp hsp o ho
    by_cases c : B.isBeam sp.id
    · rw [a2 c]
      exact beam_cells h G.big hi hj (A.flying i j hi hj sp hsp c o ho) hv
    · rw [a1 c]
      obtain ⟨⟨_, _, _, p4⟩, _, _, _, q4⟩ := landed_cells h (A.place i j hi hj sp hsp c o ho) hv
      exact ⟨p4, q4⟩
  obtain ⟨D', e2, k1, k2, k3⟩ := handover_any h nd A.species cells
  -- where a listed particle comes from
  have from' : ∀ a b, a < B.env.domR → b < B.env.domZ → ∀ sp ∈ D' a b, ∀ o ∈ sp.parts, ∃ i j, i < B.env.domR ∧ j < B.env.domZ ∧ ∃ sp' ∈ S.D i j,
      sp'.id = sp.id ∧ ∃ o' ∈ sp'.parts, o'.tag = o.tag := by
    intro a b ha hb sp hsp o ho
    have hid : sp.id ∈ ids := by rw [← k1 a b]; exact List.mem_map_of_mem hsp
    have t := (k2 sp.id hid).mem_iff.mp (mem_tags.mpr ⟨a, b, ha, hb, sp, hsp, rfl, o, ho, rfl⟩)
    obtain ⟨i', j', hi', hj', sp', hsp', ei, o', ho', et⟩ := mem_tags.mp (List.mem_filter.mp t).1
    exact ⟨i', j', hi', hj', sp', hsp', ei, o', ho', et⟩
  have stay : ∀ id ∈ ids, ¬ B.isBeam id → (tagsOf B.env D' id).Perm (tagsOf B.env S.D id) := by
    intro id hid nb
    refine (k2 id hid).trans (List.Perm.of_eq ?_)
    rw [List.filter_eq_self]
    intro t ht
    obtain ⟨i, j, hi, hj, sp, hsp, ei, o, ho, rfl⟩ := mem_tags.mp ht
    obtain ⟨v, hv, a1, _⟩ := hp i j hi hj sp hsp o ho
    have nb' : ¬ B.isBeam sp.id := by rw [ei]; exact nb
    obtain ⟨⟨s1, s2, _⟩, s3, s4, _⟩ := landed_range h (A.place i j hi hj sp hsp nb' o ho) hv
    rw [decide_eq_true_eq, a1 nb']
    exact ⟨⟨by linarith, by linarith⟩, by linarith, by linarith⟩
  have plasma : ∀ a b, a < B.env.domR → b < B.env.domZ → ∀ sp ∈ D' a b, ¬ B.isBeam sp.id → ∀ o ∈ sp.parts, InPlace B.env a b (heap o.tag) ∧
      ∀ c, (depositOf c (heap o.tag)).Bound (domCtx B.env.p B.env.domR B.env.domZ B.env.e a b).g ∧
        (depositOf c (heap o.tag)).NearCell (domCtx B.env.p B.env.domR B.env.domZ B.env.e a b).g := by
    intro a b ha hb sp hsp nb o ho
    obtain ⟨i, j, hi, hj, sp', hsp', ei, o', ho', et⟩ := from' a b ha hb sp hsp o ho
    have nb' : ¬ B.isBeam sp'.id := by rw [ei]; exact nb
    obtain ⟨v, hv, a1, _⟩ := hp i j hi hj sp' hsp' o' ho'
    have C := k3 a b ha hb sp hsp o ho
    rw [← et] at C ⊢
    rw [a1 nb'] at C ⊢
    have hpl := A.place i j hi hj sp' hsp' nb' o' ho'
    have pl : InPlace B.env a b (landed B.env (S.heap o'.tag) v) := by
      obtain ⟨⟨s1, s2, _⟩, s3, s4, _⟩ := landed_range h hpl hv
      obtain ⟨⟨_, _, p3, _⟩, _, _, q3, _⟩ := landed_cells h hpl hv
      exact ⟨rfl, C, s1, s2, s3, s4, by rw [landed_speed h hpl]; exact hv, p3, q3⟩
    exact ⟨pl, fun c => deposit_ok h hpl hv pl c⟩
  have beams : ∀ a b, a < B.env.domR → b < B.env.domZ → ∀ sp ∈ D' a b, B.isBeam sp.id → ∀ o ∈ sp.parts, BeamPlace B.env a b (heap o.tag) ∧
      ∀ c, (depositOf c (heap o.tag)).Bound (domCtx B.env.p B.env.domR B.env.domZ B.env.e a b).g ∧
        (depositOf c (heap o.tag)).NearCell (domCtx B.env.p B.env.domR B.env.domZ B.env.e a b).g := by
    intro a b ha hb sp hsp nb o ho
    obtain ⟨i, j, hi, hj, sp', hsp', ei, o', ho', et⟩ := from' a b ha hb sp hsp o ho
    have nb' : B.isBeam sp'.id := by rw [ei]; exact nb
    obtain ⟨v, hv, _, a2⟩ := hp i j hi hj sp' hsp' o' ho'
    have C := k3 a b ha hb sp hsp o ho
    rw [← et] at C ⊢
    rw [a2 nb'] at C ⊢
    have hpl := A.flying i j hi hj sp' hsp' nb' o' ho'
    exact ⟨(beam_place h hi hj hpl hv C 0).1, fun c => (beam_place h hi hj hpl hv C c).2⟩
  have housed : Housed B.env.p B.env.domR B.env.domZ B.env.e (depositsOf B.env heap D') := by
    intro a b ha hb q hq
    unfold depositsOf at hq
    obtain ⟨sp, hsp, hq⟩ := List.mem_flatMap.mp hq
    obtain ⟨o, ho, rfl⟩ := List.mem_map.mp hq
    by_cases c : B.isBeam sp.id
    · exact (beams a b ha hb sp hsp c o ho).2 _
    · exact (plasma a b ha hb sp hsp c o ho).2 _
  obtain ⟨M', e3, kf⟩ := solve_sound hz B.env.p h.div B.env.e h.good _ housed M0
  refine ⟨D', M', e2, e3, ⟨k1, ?_, fun a b ha hb sp hsp c o ho => (plasma a b ha hb sp hsp c o ho).1,
    fun a b ha hb sp hsp c o ho => ready_of_place h (beams a b ha hb sp hsp c o ho).1, m1, ?_⟩,
    fun a b ha hb sp hsp c o ho => (beams a b ha hb sp hsp c o ho).1, k2, stay⟩
  · have A1 := A.once
    rw [List.nodup_flatMap] at A1 ⊢
    obtain ⟨n1, n2⟩ := A1
    refine ⟨fun id hid => (k2 id hid).nodup_iff.mpr ((n1 id hid).filter _), ?_⟩
    refine List.Pairwise.imp_of_mem ?_ n2
    intro x y hx hy dj
    refine List.disjoint_left.mpr fun t t1 t2 => ?_
    exact List.disjoint_left.mp dj (List.mem_filter.mp ((k2 x hx).mem_iff.mp t1)).1 (List.mem_filter.mp ((k2 y hy).mem_iff.mp t2)).1
  · intro c hc i j x y ho
    have nj : c ≠ .jr ∧ c ≠ .jp ∧ c ≠ .jz := by
      refine ⟨?_, ?_, ?_⟩ <;> (rintro rfl; exact (nomatch hc))
    show (_ → M' i j c x y = _) ∧ (_ → M' i j c x y = 0)
    rw [kf i j c x y ho.1 ho.2.1 (by unfold isJ; tauto)]
    exact W1 c hc i j x y ho

end

section
variable {G : GEnv} (Q : GBuilt G)
include Q

/-- A particle of a beam can be pushed, with and without external fields. -/
theorem bpushed_ok {i j : Nat} (hi : i < G.full.env.domR) (hj : j < G.full.env.domZ) {a : Part ℝ} (ha : Ready G.full.env i j a) (id : Nat) (m x : Mem ℝ) :
    ∃ v, (∀ w, G.full.pushed i j m x id a w ↔ w = v) ∧ v.length2 < G.full.env.c ^ 2 := by
  have h := Q.built.chamber
  have B := Q.built
  unfold Full.pushed
  cases hx : G.full.ext with
  | none =>
    obtain ⟨v, e1, e2⟩ := ready_push h B.pusher hi hj ha id m
    refine ⟨v, fun w => ⟨?_, ?_⟩, e2⟩
    · rintro ⟨junk, e⟩
      exact (Res.ok.inj ((e1 junk).symm.trans e)).symm
    · rintro rfl
      exact ⟨true, e1 true⟩
  | some o =>
    obtain ⟨⟨y1, c1⟩, y2, c2⟩ := Interp.reach_read h.good.pi (geom_good h hi hj) ha.reach m
    obtain ⟨⟨y3, d1⟩, y4, d2⟩ := Interp.reach_read h.good.pi (geom_good h hi hj) ha.reach x
    have c1 : Interp.getE G.full.env.e.pi (G.full.env.geom i j) m a.posR a.posZ = _ := c1
    have c2 : Interp.getH G.full.env.e.pi (G.full.env.geom i j) m a.posR a.posZ = _ := c2
    have d1 : Interp.getE G.full.env.e.pi (G.full.env.geom i j) x a.posR a.posZ = _ := d1
    have d2 : Interp.getH G.full.env.e.pi (G.full.env.geom i j) x a.posR a.posZ = _ := d2
    have same : ∀ junk e b, Pusher.pushV G.full.env.kind (G.full.env.pushPar id) junk e b (vel a) = Pusher.pushV G.full.env.kind (G.full.env.pushPar id) true e b (vel a) := by
      intro junk e b
      rcases B.pusher with k | k | k <;> rw [k] <;> rfl
    have all : ∀ junk, pushExt G.full.env.kind (G.full.env.pushPar id) junk G.full.env.e.pi (G.full.env.geom i j) m x a.posR a.posZ (vel a) =
        pushExt G.full.env.kind (G.full.env.pushPar id) true G.full.env.e.pi (G.full.env.geom i j) m x a.posR a.posZ (vel a) := by
      intro junk
      unfold pushExt
      rw [c1, Res.ok_bind, c2, Res.ok_bind, d1, Res.ok_bind, d2, Res.ok_bind, Res.ok_bind, Res.ok_bind, Res.ok_bind, Res.ok_bind, same]
    obtain ⟨v, e1, e2⟩ : ∃ v, pushExt G.full.env.kind (G.full.env.pushPar id) true G.full.env.e.pi (G.full.env.geom i j) m x a.posR a.posZ (vel a) = .ok v ∧ v.length2 < G.full.env.c ^ 2 := by
      unfold pushExt
      rw [c1, Res.ok_bind, c2, Res.ok_bind, d1, Res.ok_bind, d2, Res.ok_bind]
      exact Pusher.C72_step G.full.env.kind B.pusher (G.full.env.pushPar id) true h.c _ _ (vel a) ha.slow
    refine ⟨v, fun w => ⟨?_, ?_⟩, e2⟩
    · rintro ⟨junk, e⟩
      dsimp only at e
      rw [all junk] at e
      exact (Res.ok.inj (e1.symm.trans e)).symm
    · rintro rfl
      exact ⟨true, e1⟩

/-- Every particle of a state after the injection can be pushed. -/
theorem each_pushed {ids : List Nat} {S : FState} (A : BReady G.b ids S.s) {i j : Nat} (hi : i < G.full.env.domR) (hj : j < G.full.env.domZ) {sp : Sp}
    (hsp : sp ∈ S.s.D i j) {o : Prt} (ho : o ∈ sp.parts) (m x : Mem ℝ) :
    ∃ v, (∀ w, G.full.pushed i j m x sp.id (S.s.heap o.tag) w ↔ w = v) ∧ v.length2 < G.full.env.c ^ 2 := by
  by_cases c : G.b.isBeam sp.id
  · exact bpushed_ok Q hi hj (A.flying i j hi hj sp hsp c o ho) sp.id m x
  · exact pushed_ok Q.built hi hj (A.place i j hi hj sp hsp c o ho) sp.id m x

/-- The particles of a domain are as the collisions need them. -/
theorem gfilled {ids : List Nat} (nd : ids.Nodup) {S : FState} (A : BReady G.b ids S.s)
    (wt : Each G.full S fun _ _ _ t => 0 < (S.s.heap t).weight) (few : (ids.flatMap (tagsOf G.full.env S.s.D)).length < 2 ^ 24)
    (bd : Each G.full S fun i j _ t => Coll.Bound (G.full.place i j).r0 (G.full.place i j).z0 (G.full.place i j).nr (G.full.place i j).nz (S.s.heap t)) {i j : Nat} (hi : i < G.full.env.domR) (hj : j < G.full.env.domZ)
    {h1 : Nat → Part ℝ} (same : ∀ sp ∈ S.s.D i j, ∀ o ∈ sp.parts, ∃ v, h1 o.tag = setVel (S.s.heap o.tag) v) :
    Coll.Filled (G.full.place i j) (G.full.species S.s.D i j) h1 := by
  have h := Q.built.chamber
  have dr : 0 < G.full.env.p.dr := h.good.geo.dr
  have dz : 0 < G.full.env.p.dz := h.good.geo.dz
  have once := A.once
  have sub : ∀ sp ∈ S.s.D i j, ∀ o ∈ sp.parts, o.tag ∈ ids.flatMap (tagsOf G.full.env S.s.D) := by
    intro sp hsp o ho
    refine List.mem_flatMap.mpr ⟨sp.id, ?_, mem_tags.mpr ⟨i, j, hi, hj, sp, hsp, rfl, o, ho, rfl⟩⟩
    rw [← A.species i j]
    exact List.mem_map_of_mem hsp
  have nodup : ((G.full.species S.s.D i j).flatMap Coll.Species.particles).Nodup := by
    unfold Full.species
    rw [List.flatMap_map]
    rw [List.nodup_flatMap] at once ⊢
    obtain ⟨o1, o2⟩ := once
    have mid : ∀ sp ∈ S.s.D i j, sp.id ∈ ids := fun sp hsp => by rw [← A.species i j]; exact List.mem_map_of_mem hsp
    constructor
    · intro sp hsp
      have k := o1 sp.id (mid sp hsp)
      unfold tagsOf at k
      rw [List.nodup_flatMap] at k
      have k := k.1 (i, j) (mem_allDoms.mpr ⟨hi, hj⟩)
      refine List.Nodup.sublist (List.Sublist.map _ ?_) k
      unfold SMB.parts
      have : [sp].Sublist ((S.s.D i j).filter fun s => decide (s.id = sp.id)) :=
        List.singleton_sublist.mpr (List.mem_filter.mpr ⟨hsp, by simp⟩)
      have := List.Sublist.flatMap this Sp.parts
      rw [List.flatMap_singleton] at this
      exact this
    · have p : (S.s.D i j).Pairwise fun a b => a.id ≠ b.id := by
        have := nd
        rw [← A.species i j] at this
        exact List.pairwise_map.mp this
      refine List.Pairwise.imp_of_mem ?_ p
      intro a b ha hb n
      refine List.disjoint_left.mpr fun t ht ht' => ?_
      obtain ⟨o, ho, rfl⟩ := List.mem_map.mp ht
      obtain ⟨o', ho', e⟩ := List.mem_map.mp ht'
      refine List.disjoint_left.mp (disjoint_of o2 (mid a ha) (mid b hb) n) (mem_tags.mpr ⟨i, j, hi, hj, a, ha, rfl, o, ho, rfl⟩)
        (mem_tags.mpr ⟨i, j, hi, hj, b, hb, rfl, o', ho', e⟩)
  have all : ∀ s ∈ G.full.species S.s.D i j, ∀ p ∈ s.particles, ∃ sp ∈ S.s.D i j, ∃ o ∈ sp.parts, o.tag = p := by
    intro s hs p hp
    obtain ⟨sp, hsp, rfl⟩ := List.mem_map.mp hs
    obtain ⟨o, ho, rfl⟩ := List.mem_map.mp hp
    exact ⟨sp, hsp, o, ho, rfl⟩
  refine ⟨nodup, ?_, ?_, ?_⟩
  · intro s hs p hp
    obtain ⟨sp, hsp, o, ho, rfl⟩ := all s hs p hp
    obtain ⟨v, e⟩ := same sp hsp o ho
    rw [e]
    exact wt i j hi hj sp hsp o ho
  · intro s hs p hp
    obtain ⟨sp, hsp, o, ho, rfl⟩ := all s hs p hp
    obtain ⟨v, e⟩ := same sp hsp o ho
    rw [e]
    exact bd i j hi hj sp hsp o ho
  · refine lt_of_le_of_lt ?_ few
    refine List.Subperm.length_le (List.subperm_of_subset nodup ?_)
    intro t ht
    obtain ⟨s, hs, hp⟩ := List.mem_flatMap.mp ht
    obtain ⟨sp, hsp, o, ho, rfl⟩ := all s hs t hp
    exact sub sp hsp o ho

/-- What push and collisions do: only the velocities change; they are slow unless TA77S is built in. -/
theorem gspeeds {ids : List Nat} (nd : ids.Nodup) {S : FState} (A : BReady G.b ids S.s)
    (wt : Each G.full S fun _ _ _ t => 0 < (S.s.heap t).weight)
    (mp : ∀ i j, i < G.full.env.domR → j < G.full.env.domZ → (S.maps i j).Shape (G.full.place i j).nr (G.full.place i j).nz)
    (so : Sortable G ids S) {M1 : Solvers ℝ} {X : Nat → Nat → Mem ℝ} {maps : Nat → Nat → Coll.Maps}
    {H : Nat → Nat → Nat → Part ℝ} (q : Speeds G.full S M1 X maps H) :
    Each G.full S (fun i j _ t => H i j t = setVel (S.s.heap t) (vel (H i j t))) ∧
    (NotTA G.full → Each G.full S fun i j _ t => (vel (H i j t)).length2 < G.full.env.c ^ 2) ∧
    ∀ i j, i < G.full.env.domR → j < G.full.env.domZ → (maps i j).Shape (G.full.place i j).nr (G.full.place i j).nz := by
  obtain ⟨h1, e1, e2, e3, e4⟩ := q
  have sv : ∀ (a : Part ℝ) v, setVel a (vel (setVel a v)) = setVel a v := fun _ _ => rfl
  have psh : Each G.full S fun i j sp t => ∃ v, v.length2 < G.full.env.c ^ 2 ∧ h1 t = setVel (S.s.heap t) v := by
    intro i j hi hj sp hsp o ho
    obtain ⟨v, a, b⟩ := e3 i j hi hj sp hsp o ho
    obtain ⟨w, c, d⟩ := each_pushed Q A hi hj hsp ho (M1 i j) (X i j)
    rw [(c v).mp a] at b
    exact ⟨w, d, b⟩
  have fil := fun (nc : G.full.coll ≠ none) i j (hi : i < G.full.env.domR) (hj : j < G.full.env.domZ) => gfilled Q nd A wt (so nc).1 (so nc).2 hi hj (h1 := h1) fun sp hsp o ho => by
    obtain ⟨v, _, e⟩ := psh i j hi hj sp hsp o ho; exact ⟨v, e⟩
  have e4 := fun i j hi hj => e4 i j hi hj
  unfold Full.collided at e4
  cases hc : G.full.coll with
  | none =>
    rw [hc] at e4
    refine ⟨?_, ?_, ?_⟩
    · intro i j hi hj sp hsp o ho
      obtain ⟨v, _, e⟩ := psh i j hi hj sp hsp o ho
      rw [(e4 i j hi hj).1, e, sv]
    · intro _ i j hi hj sp hsp o ho
      obtain ⟨v, d, e⟩ := psh i j hi hj sp hsp o ho
      rw [(e4 i j hi hj).1, e]
      exact d
    · intro i j hi hj
      rw [(e4 i j hi hj).2]
      exact mp i j hi hj
  | some c =>
    obtain ⟨M, P, K⟩ := c
    have nc : G.full.coll ≠ none := by rw [hc]; exact fun k => nomatch k
    rw [hc] at e4
    have only := fun i j hi hj => Coll.C102_only (place_small Q.built hi hj) (fil nc i j hi hj) (mp i j hi hj) (e4 i j hi hj)
    refine ⟨?_, ?_, ?_⟩
    · intro i j hi hj sp hsp o ho
      obtain ⟨v, _, e⟩ := psh i j hi hj sp hsp o ho
      obtain ⟨w, f⟩ := (only i j hi hj).1 o.tag
      rw [e] at f
      rw [f]
      rfl
    · intro n i j hi hj sp hsp o ho
      have hM : M ≠ .ta77s := by rintro rfl; exact n P K hc
      have lc := Q.built.light M P K hc
      have := Coll.C105_relativistic hM (by rw [lc]; exact Q.built.chamber.c) (place_small Q.built hi hj) (fil nc i j hi hj) (mp i j hi hj) (e4 i j hi hj) (by
        intro s hs t ht
        obtain ⟨sp, hsp, rfl⟩ := List.mem_map.mp hs
        obtain ⟨o, ho, rfl⟩ := List.mem_map.mp ht
        obtain ⟨v, d, e⟩ := psh i j hi hj sp hsp o ho
        rw [slow_iff, e, lc]
        exact d) ⟨G.full.name sp.id, sp.parts.map (·.tag)⟩ (List.mem_map.mpr ⟨sp, hsp, rfl⟩) o.tag (List.mem_map_of_mem ho)
      rw [slow_iff, lc] at this
      exact this
    · intro i j hi hj
      exact (only i j hi hj).2.2.2

end

end Pic
end Pico
