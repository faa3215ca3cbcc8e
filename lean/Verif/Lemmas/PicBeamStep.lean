import Verif.Lemmas.PicBeam

/-! The whole step with beams: hand-over, currents, injection. -/

set_option linter.unusedSimpArgs false
set_option linter.unusedVariables false
set_option linter.unusedSectionVars false

namespace Pico
namespace Pic

open SMB Yee

section
variable {E : Env} (h : Chamber E)
include h

open Classical in
/-- The hand-over, wherever the particles have arrived: those outside the chamber disappear, all others are in their domains. -/
theorem handover_any {ids : List Nat} (nd : ids.Nodup) {D : Doms} (hD : ∀ i j, (D i j).map Sp.id = ids) {heap : Nat → Part ℝ}
    (C : ∀ i j, i < E.domR → j < E.domZ → ∀ sp ∈ D i j, ∀ o ∈ sp.parts,
      asInt (heap o.tag).cellR = ⌊(heap o.tag).posR / E.p.dr⌋ ∧ asInt (heap o.tag).cellZ = ⌊(heap o.tag).posZ / E.p.dz⌋) :
    ∃ D', collect (geoOf E.p E.domR E.domZ) (cellsOf heap D) = .ok D' ∧ (∀ i j, (D' i j).map Sp.id = ids) ∧
      (∀ id ∈ ids, (tagsOf E D' id).Perm ((tagsOf E D id).filter fun t => decide (Inside E (heap t)))) ∧
      ∀ i j, i < E.domR → j < E.domZ → ∀ sp ∈ D' i j, ∀ o ∈ sp.parts, (E.geom i j).Contains (heap o.tag).posR (heap o.tag).posZ := by
  have dr : 0 < E.p.dr := h.good.geo.dr
  have dz : 0 < E.p.dz := h.good.geo.dz
  have g1 := h.div.r1
  have g2 := h.div.r2
  have g3 := h.div.z1
  have g4 := h.div.z2
  obtain ⟨D', e, k1, k2⟩ := C09_handover_partial (geoOf E.p E.domR E.domZ) (show 0 < E.p.nr by omega) (show 0 < E.p.nz by omega)
    h.div.r4 h.div.z4 ⟨h.r0, rfl⟩ ids nd (cellsOf heap D) (fun i j => by
      rw [← hD i j]
      unfold cellsOf
      rw [List.map_map]
      rfl)
  have ins : ∀ t, Inside E (heap t) ↔ (0 ≤ ⌊(heap t).posR / E.p.dr⌋ ∧ ⌊(heap t).posR / E.p.dr⌋ < E.p.nr) ∧
      0 ≤ ⌊(heap t).posZ / E.p.dz⌋ ∧ ⌊(heap t).posZ / E.p.dz⌋ < E.p.nz := by
    intro t
    have nn : ∀ {x d : ℝ}, 0 < d → (0 ≤ x / d ↔ 0 ≤ x) := fun hd => by rw [le_div_iff₀ hd, zero_mul]
    unfold Inside
    rw [Int.floor_nonneg, Int.floor_nonneg, Int.floor_lt, Int.floor_lt, div_lt_iff₀ dr, div_lt_iff₀ dz, nn dr, nn dz]
    push_cast
    rfl
  have low_nonneg : ∀ n d i : Nat, (0 : Int) ≤ low n d i := fun n d i => Int.natCast_nonneg _
  have lowr : ∀ i, i < E.domR → low E.p.nr E.domR (i + 1) ≤ E.p.nr := by
    intro i hi
    obtain ⟨⟨_, _, _, _, b5, b6⟩, _⟩ := h.div.bounds hi (show 0 < E.domZ by omega)
    rw [← low_hgt h g1 g2]
    by_cases k : i = E.domR - 1
    · have := b5 k; omega
    · have := b6 k; omega
  have lowz : ∀ j, j < E.domZ → low E.p.nz E.domZ (j + 1) ≤ E.p.nz := by
    intro j hj
    obtain ⟨_, _, _, _, _, b5, b6⟩ := h.div.bounds (show 0 < E.domR by omega) hj
    rw [← low_hgt h g3 g4]
    by_cases k : j = E.domZ - 1
    · have := b5 k; omega
    · have := b6 k; omega
  refine ⟨D', e, k1, ?_, ?_⟩
  · intro id hid
    let l : List Prt := (allDoms (geoOf E.p E.domR E.domZ)).flatMap fun q => SMB.parts (cellsOf heap D) q.1 q.2 id
    have tl : tagsOf E D id = l.map (·.tag) := by
      unfold tagsOf
      rw [List.map_flatMap]
      refine List.flatMap_congr fun q _ => ?_
      rw [parts_cells, List.map_map]
      rfl
    have lc : ∀ b ∈ l, b.r = ⌊(heap b.tag).posR / E.p.dr⌋ ∧ b.z = ⌊(heap b.tag).posZ / E.p.dz⌋ := by
      intro b hb
      obtain ⟨q, hq, hb⟩ := List.mem_flatMap.mp hb
      obtain ⟨hi, hj⟩ := mem_allDoms.mp hq
      rw [parts_cells] at hb
      obtain ⟨o, ho, rfl⟩ := List.mem_map.mp hb
      obtain ⟨sp, hsp, _, ho⟩ := mem_parts.mp ho
      exact C q.1 q.2 hi hj sp hsp o ho
    let l' : List Prt := l.filter fun b => decide (Inside E (heap b.tag))
    have own : ((allDoms (geoOf E.p E.domR E.domZ)).flatMap fun q => l'.filter fun o => decide ((domDims (geoOf E.p E.domR E.domZ) q.1 q.2).Owns o)).Perm l' := by
      refine split_perm _ (nodup_idx2 _ _ _ _) (fun q o => decide ((domDims (geoOf E.p E.domR E.domZ) q.1 q.2).Owns o)) l' ?_
      intro b hb
      obtain ⟨hb, inb⟩ := List.mem_filter.mp hb
      rw [decide_eq_true_eq, ins] at inb
      obtain ⟨c1, c2⟩ := lc b hb
      rw [← c1, ← c2] at inb
      obtain ⟨⟨d1, d2⟩, d3, d4⟩ := inb
      obtain ⟨i', hi', u1⟩ := owner h h.div.r1 h.div.r2 h.div.r4 d1 d2
      obtain ⟨j', hj', u2⟩ := owner h h.div.z1 h.div.z2 h.div.z4 d3 d4
      refine ⟨(i', j'), mem_allDoms.mpr ⟨hi', hj'⟩, fun q' _ => ?_⟩
      rw [decide_eq_true_eq, dims_eq h]
      unfold CellDims.Owns
      dsimp only
      rw [u1, u2, Prod.ext_iff]
    have tl' : (tagsOf E D id).filter (fun t => decide (Inside E (heap t))) = l'.map (·.tag) := by
      rw [tl, List.filter_map]
      rfl
    rw [tl']
    refine List.Perm.trans ?_ (own.map _)
    unfold tagsOf
    rw [List.map_flatMap]
    refine List.Perm.flatMap_left _ fun q hq => List.Perm.map _ ?_
    obtain ⟨hi, hj⟩ := mem_allDoms.mp hq
    refine (k2 q.1 q.2 id hi hj hid).trans ?_
    rw [← List.filter_flatMap]
    refine List.Perm.of_eq ?_
    show l.filter _ = (l.filter _).filter _
    rw [List.filter_filter]
    refine List.filter_congr fun b hb => ?_
    by_cases c : (domDims (geoOf E.p E.domR E.domZ) q.1 q.2).Owns b
    · rw [decide_eq_true c]
      refine (decide_eq_true ?_).symm
      rw [dims_eq h] at c
      unfold CellDims.Owns at c
      dsimp only at c
      obtain ⟨c1, c2⟩ := lc b hb
      rw [ins, ← c1, ← c2]
      have := lowr q.1 hi
      have := lowz q.2 hj
      have := low_nonneg E.p.nr E.domR q.1
      have := low_nonneg E.p.nz E.domZ q.2
      omega
    · rw [decide_eq_false c]
      rfl
  · intro i j hi hj sp hsp o ho
    have hid : sp.id ∈ ids := by rw [← k1 i j]; exact List.mem_map_of_mem hsp
    have m := (k2 i j sp.id hi hj hid).mem_iff.mp (mem_parts.mpr ⟨sp, hsp, rfl, ho⟩)
    obtain ⟨q, hq, m⟩ := List.mem_flatMap.mp m
    obtain ⟨m, own⟩ := List.mem_filter.mp m
    rw [decide_eq_true_eq, dims_eq h] at own
    rw [parts_cells] at m
    obtain ⟨o', ho', rfl⟩ := List.mem_map.mp m
    obtain ⟨sp', hsp', _, ho'⟩ := mem_parts.mp ho'
    obtain ⟨hi', hj'⟩ := mem_allDoms.mp hq
    obtain ⟨c1, c2⟩ := C q.1 q.2 hi' hj' sp' hsp' o' ho'
    unfold CellDims.Owns at own
    dsimp only at own ⊢
    rw [c1, c2] at own
    obtain ⟨⟨o1, o2⟩, o3, o4⟩ := own
    rw [← low_hgt h g1 g2] at o2
    rw [← low_hgt h g3 g4] at o4
    rw [geom_eq h]
    refine ⟨?_, ?_, ?_, ?_⟩
    · have := Int.le_floor.mp o1
      rw [le_div_iff₀ dr] at this
      exact_mod_cast this
    · have := Int.floor_lt.mp o2
      rw [div_lt_iff₀ dr] at this
      exact_mod_cast this
    · have := Int.le_floor.mp o3
      rw [le_div_iff₀ dz] at this
      exact_mod_cast this
    · have := Int.floor_lt.mp o4
      rw [div_lt_iff₀ dz] at this
      exact_mod_cast this

/-- A particle of a beam that has arrived in a domain is in its place, and what it deposits is well defined. -/
theorem beam_place {i j i' j' : Nat} (hi : i < E.domR) (hj : j < E.domZ) {a : Part ℝ} {v : Vec3 ℝ} (ha : Ready E i j a) (hv : v.length2 < E.c ^ 2)
    (hb : (E.geom i' j').Contains (beamLanded E a v).posR (beamLanded E a v).posZ) (c : ℝ) :
    BeamPlace E i' j' (beamLanded E a v) ∧ (depositOf c (beamLanded E a v)).Bound (domCtx E.p E.domR E.domZ E.e i' j').g ∧
    (depositOf c (beamLanded E a v)).NearCell (domCtx E.p E.domR E.domZ E.e i' j').g := by
  have dr : 0 < E.p.dr := h.good.geo.dr
  have dz : 0 < E.p.dz := h.good.geo.dz
  have gr := h.div.r3
  have gz := h.div.z3
  obtain ⟨r1, s1, s2, ⟨k1, k2⟩, k3, k4⟩ := beam_range h hi hj ha hv
  have z0 : 0 ≤ ⌊(beamLanded E a v).posZ / E.p.dz⌋ := by
    refine Int.floor_nonneg.mpr (div_nonneg ?_ dz.le)
    have := hb.zlo
    rw [geom_eq h] at this
    exact le_trans (mul_nonneg (Nat.cast_nonneg _) dz.le) this
  have p3 : ((beamLanded E a v).cellR : Int) = ⌊(beamLanded E a v).posR / E.p.dr⌋ := by
    show ((Part.toSizeT ⌊(beamLanded E a v).posR / E.p.dr⌋ : Nat) : Int) = _
    unfold Part.toSizeT
    rw [Int.emod_eq_of_lt k1 (by omega)]
    omega
  have q3 : ((beamLanded E a v).cellZ : Int) = ⌊(beamLanded E a v).posZ / E.p.dz⌋ := by
    show ((Part.toSizeT ⌊(beamLanded E a v).posZ / E.p.dz⌋ : Nat) : Int) = _
    unfold Part.toSizeT
    rw [Int.emod_eq_of_lt z0 (by omega)]
    omega
  have g := geom_eq h i' j'
  have g : (domCtx E.p E.domR E.domZ E.e i' j').g = _ := g
  have half : E.p.dr / 2 ≤ a.posR := by have := ha.reach.half; rwa [geom_eq h] at this
  refine ⟨⟨rfl, hb, r1, by rw [beam_speed h]; exact hv, p3, q3⟩,
    ⟨hb, by show 0 < (beamLanded E a v).posR; linarith, by show 0 < a.posR; linarith, ?_, ?_⟩, ?_⟩
  · rw [g]; exact p3
  · rw [g]; exact q3
  · rw [g]
    exact ⟨floor_near h dr s1, floor_near h dz s2⟩

end

/-- A state after the injection. -/
structure BReady (B : BEnv) (ids : List Nat) (S : State) : Prop where
  species : ∀ i j, (S.D i j).map Sp.id = ids
  once : (ids.flatMap (tagsOf B.env S.D)).Nodup
  place : ∀ i j, i < B.env.domR → j < B.env.domZ → ∀ sp ∈ S.D i j, ¬ B.isBeam sp.id → ∀ o ∈ sp.parts, InPlace B.env i j (S.heap o.tag)
  flying : ∀ i j, i < B.env.domR → j < B.env.domZ → ∀ sp ∈ S.D i j, B.isBeam sp.id → ∀ o ∈ sp.parts, Ready B.env i j (S.heap o.tag)
  fields : ∃ m, ∀ c, c.isSource = false → Windows B.env.p B.env.domR B.env.domZ c S.M m

section
variable {B : BEnv} (G : BeamChamber B)
include G

/-- What the flight does to a particle. -/
theorem bmoves_iff (hk : Pusher.Relativistic B.env.kind) {ids : List Nat} {S : State} (A : BReady B ids S) (N : NoBorderB B S) {M1 : Solvers ℝ}
    (e1 : solveMaxwell (domPar B.env.p B.env.domR B.env.domZ) B.env.domR B.env.domZ S.M = .ok M1) {i j : Nat} (hi : i < B.env.domR)
    (hj : j < B.env.domZ) {sp : Sp} (hsp : sp ∈ S.D i j) {o : Prt} (ho : o ∈ sp.parts) :
    ∃ v b, v.length2 < B.env.c ^ 2 ∧ (∀ b', BMoves B i j (M1 i j) sp.id (S.heap o.tag) b' ↔ b' = b) ∧
      (¬ B.isBeam sp.id → b = landed B.env (S.heap o.tag) v) ∧ (B.isBeam sp.id → b = beamLanded B.env (S.heap o.tag) v) := by
  have h := G.chamber
  by_cases c : B.isBeam sp.id
  · have ha := A.flying i j hi hj sp hsp c o ho
    obtain ⟨v, p1, p2⟩ := ready_push h hk hi hj ha sp.id (M1 i j)
    refine ⟨v, beamLanded B.env (S.heap o.tag) v, p2, fun b' => ?_, fun k => absurd c k, fun _ => rfl⟩
    have adv := beam_iff h G.big hi hj ha p2 ((N M1 e1 i j hi hj sp hsp o ho true v (p1 true)).2 c) b'
    constructor
    · rintro ⟨junk, v', e', ad, _⟩
      obtain rfl := Res.ok.inj ((p1 junk).symm.trans e')
      exact adv.mp (ad c)
    · intro e
      exact ⟨true, v, p1 true, fun _ => adv.mpr e, fun k => absurd c k⟩
  · have ha := A.place i j hi hj sp hsp c o ho
    obtain ⟨v, p1, p2⟩ := push_ok h hk hi hj ha sp.id (M1 i j)
    refine ⟨v, landed B.env (S.heap o.tag) v, p2, fun b' => ?_, fun _ => rfl, fun k => absurd k c⟩
    have adv := advance_iff h hi hj ha p2 ((N M1 e1 i j hi hj sp hsp o ho true v (p1 true)).1 c) b'
    constructor
    · rintro ⟨junk, v', e', _, ad⟩
      obtain rfl := Res.ok.inj ((p1 junk).symm.trans e')
      exact adv.mp (ad c)
    · intro e
      exact ⟨true, v, p1 true, fun k => absurd k c, fun _ => adv.mpr e⟩

open Classical in
/-- The flight, the hand-over and the currents. -/
theorem flies_all (hk : Pusher.Relativistic B.env.kind) (hz : Sound B.env.dist) {ids : List Nat} (nd : ids.Nodup) {S : State}
    (A : BReady B ids S) (N : NoBorderB B S) :
    ∃ S', (∀ T, Flies B S T ↔ T = S') ∧ BReady B ids S' ∧
      (∀ i j, i < B.env.domR → j < B.env.domZ → ∀ sp ∈ S'.D i j, B.isBeam sp.id → ∀ o ∈ sp.parts, BeamPlace B.env i j (S'.heap o.tag)) ∧
      (∀ id ∈ ids, (tagsOf B.env S'.D id).Perm ((tagsOf B.env S.D id).filter fun t => decide (Inside B.env (S'.heap t)))) ∧
      ∀ id ∈ ids, ¬ B.isBeam id → (tagsOf B.env S'.D id).Perm (tagsOf B.env S.D id) := by
  have h := G.chamber
  have dr : 0 < B.env.p.dr := h.good.geo.dr
  have dz : 0 < B.env.p.dz := h.good.geo.dz
  obtain ⟨m, W⟩ := A.fields
  obtain ⟨M1, m1, e1, W1, keep⟩ := maxwell_ok B.env.p h.div W
  have P : ∀ t, ∃ b, (∀ i j, i < B.env.domR → j < B.env.domZ → ∀ sp ∈ S.D i j, ∀ o ∈ sp.parts, o.tag = t →
      (∃ v, v.length2 < B.env.c ^ 2 ∧ (¬ B.isBeam sp.id → b = landed B.env (S.heap o.tag) v) ∧ (B.isBeam sp.id → b = beamLanded B.env (S.heap o.tag) v)) ∧
        ∀ b', BMoves B i j (M1 i j) sp.id (S.heap o.tag) b' ↔ b' = b) ∧
      ((∀ i j, i < B.env.domR → j < B.env.domZ → ∀ sp ∈ S.D i j, ∀ o ∈ sp.parts, o.tag ≠ t) → b = S.heap t) := by
    intro t
    by_cases c : ∃ i j, i < B.env.domR ∧ j < B.env.domZ ∧ ∃ sp ∈ S.D i j, ∃ o ∈ sp.parts, o.tag = t
    · obtain ⟨i, j, hi, hj, sp, hsp, o, ho, rfl⟩ := c
      obtain ⟨v, b, p2, p3, p4, p5⟩ := bmoves_iff G hk A N e1 hi hj hsp ho
      refine ⟨b, ?_, fun k => absurd rfl (k i j hi hj sp hsp o ho)⟩
      intro i' j' hi' hj' sp' hsp' o' ho' et
      obtain ⟨rfl, rfl, ei⟩ := once_place A.species A.once hi' hj' hi hj hsp' hsp ho' ho et
      rw [et, ei]
      exact ⟨⟨v, p2, p4, p5⟩, p3⟩
    · refine ⟨S.heap t, ?_, fun _ => rfl⟩
      intro i j hi hj sp hsp o ho et
      exact absurd ⟨i, j, hi, hj, sp, hsp, o, ho, et⟩ c
  choose heap hp hn using P
  have cells : ∀ i j, i < B.env.domR → j < B.env.domZ → ∀ sp ∈ S.D i j, ∀ o ∈ sp.parts,
      asInt (heap o.tag).cellR = ⌊(heap o.tag).posR / B.env.p.dr⌋ ∧ asInt (heap o.tag).cellZ = ⌊(heap o.tag).posZ / B.env.p.dz⌋ := by
    intro i j hi hj sp hsp o ho
    obtain ⟨⟨v, hv, a1, a2⟩, _⟩ := hp o.tag i j hi hj sp hsp o ho rfl
    by_cases c : B.isBeam sp.id
    · rw [a2 c]
      exact beam_cells h G.big hi hj (A.flying i j hi hj sp hsp c o ho) hv
    · rw [a1 c]
      obtain ⟨⟨_, _, _, p4⟩, _, _, _, q4⟩ := landed_cells h (A.place i j hi hj sp hsp c o ho) hv
      exact ⟨p4, q4⟩
  obtain ⟨D', e2, k1, k2, k3⟩ := handover_any h nd A.species cells
  -- where a listed particle comes from
  have from' : ∀ a b, a < B.env.domR → b < B.env.domZ → ∀ sp ∈ D' a b, ∀ o ∈ sp.parts, ∃ i j, i < B.env.domR ∧ j < B.env.domZ ∧ ∃ sp' ∈ S.D i j,
      sp'.id = sp.id ∧ ∃ o' ∈ sp'.parts, o'.tag = o.tag := by
    intro a b ha hb sp hsp o ho
    have hid : sp.id ∈ ids := by rw [← k1 a b]; exact List.mem_map_of_mem hsp
    have t := (k2 sp.id hid).mem_iff.mp (mem_tags.mpr ⟨a, b, ha, hb, sp, hsp, rfl, o, ho, rfl⟩)
    obtain ⟨i', j', hi', hj', sp', hsp', ei, o', ho', et⟩ := mem_tags.mp (List.mem_filter.mp t).1
    exact ⟨i', j', hi', hj', sp', hsp', ei, o', ho', et⟩
  have stay : ∀ id ∈ ids, ¬ B.isBeam id → (tagsOf B.env D' id).Perm (tagsOf B.env S.D id) := by
    intro id hid nb
    refine (k2 id hid).trans (List.Perm.of_eq ?_)
    rw [List.filter_eq_self]
    intro t ht
    obtain ⟨i, j, hi, hj, sp, hsp, ei, o, ho, rfl⟩ := mem_tags.mp ht
    obtain ⟨⟨v, hv, a1, _⟩, _⟩ := hp o.tag i j hi hj sp hsp o ho rfl
    have nb' : ¬ B.isBeam sp.id := by rw [ei]; exact nb
    obtain ⟨⟨s1, s2, _⟩, s3, s4, _⟩ := landed_range h (A.place i j hi hj sp hsp nb' o ho) hv
    rw [decide_eq_true_eq, a1 nb']
    exact ⟨⟨by linarith, by linarith⟩, by linarith, by linarith⟩
  have plasma : ∀ a b, a < B.env.domR → b < B.env.domZ → ∀ sp ∈ D' a b, ¬ B.isBeam sp.id → ∀ o ∈ sp.parts, InPlace B.env a b (heap o.tag) ∧
      ∀ c, (depositOf c (heap o.tag)).Bound (domCtx B.env.p B.env.domR B.env.domZ B.env.e a b).g ∧
        (depositOf c (heap o.tag)).NearCell (domCtx B.env.p B.env.domR B.env.domZ B.env.e a b).g := by
    intro a b ha hb sp hsp nb o ho
    obtain ⟨i, j, hi, hj, sp', hsp', ei, o', ho', et⟩ := from' a b ha hb sp hsp o ho
    have nb' : ¬ B.isBeam sp'.id := by rw [ei]; exact nb
    obtain ⟨⟨v, hv, a1, _⟩, _⟩ := hp o.tag i j hi hj sp' hsp' o' ho' et
    have C := k3 a b ha hb sp hsp o ho
    rw [a1 nb'] at C ⊢
    have hpl := A.place i j hi hj sp' hsp' nb' o' ho'
    have pl : InPlace B.env a b (landed B.env (S.heap o'.tag) v) := by
      obtain ⟨⟨s1, s2, _⟩, s3, s4, _⟩ := landed_range h hpl hv
      obtain ⟨⟨_, _, p3, _⟩, _, _, q3, _⟩ := landed_cells h hpl hv
      exact ⟨rfl, C, s1, s2, s3, s4, by rw [landed_speed h hpl]; exact hv, p3, q3⟩
    exact ⟨pl, fun c => deposit_ok h hpl hv pl c⟩
  have beams : ∀ a b, a < B.env.domR → b < B.env.domZ → ∀ sp ∈ D' a b, B.isBeam sp.id → ∀ o ∈ sp.parts, BeamPlace B.env a b (heap o.tag) ∧
      ∀ c, (depositOf c (heap o.tag)).Bound (domCtx B.env.p B.env.domR B.env.domZ B.env.e a b).g ∧
        (depositOf c (heap o.tag)).NearCell (domCtx B.env.p B.env.domR B.env.domZ B.env.e a b).g := by
    intro a b ha hb sp hsp nb o ho
    obtain ⟨i, j, hi, hj, sp', hsp', ei, o', ho', et⟩ := from' a b ha hb sp hsp o ho
    have nb' : B.isBeam sp'.id := by rw [ei]; exact nb
    obtain ⟨⟨v, hv, _, a2⟩, _⟩ := hp o.tag i j hi hj sp' hsp' o' ho' et
    have C := k3 a b ha hb sp hsp o ho
    rw [a2 nb'] at C ⊢
    have hpl := A.flying i j hi hj sp' hsp' nb' o' ho'
    exact ⟨(beam_place h hi hj hpl hv C 0).1, fun c => (beam_place h hi hj hpl hv C c).2⟩
  have housed : Housed B.env.p B.env.domR B.env.domZ B.env.e (depositsOf B.env heap D') := by
    intro a b ha hb q hq
    unfold depositsOf at hq
    obtain ⟨sp, hsp, hq⟩ := List.mem_flatMap.mp hq
    obtain ⟨o, ho, rfl⟩ := List.mem_map.mp hq
    by_cases c : B.isBeam sp.id
    · exact (beams a b ha hb sp hsp c o ho).2 _
    · exact (plasma a b ha hb sp hsp c o ho).2 _
  obtain ⟨M', e3, kf⟩ := solve_sound hz B.env.p h.div B.env.e h.good _ housed M1
  refine ⟨⟨M', heap, D'⟩, ?_, ⟨k1, ?_, fun a b ha hb sp hsp c o ho => (plasma a b ha hb sp hsp c o ho).1,
    fun a b ha hb sp hsp c o ho => ready_of_place h (beams a b ha hb sp hsp c o ho).1, m1, ?_⟩,
    fun a b ha hb sp hsp c o ho => (beams a b ha hb sp hsp c o ho).1, k2, stay⟩
  · intro T
    constructor
    · rintro ⟨N1, f1, f2, f3, f4, f5⟩
      obtain rfl := Res.ok.inj (e1.symm.trans f1)
      have eh : T.heap = heap := by
        funext t
        by_cases c : ∃ i j, i < B.env.domR ∧ j < B.env.domZ ∧ ∃ sp ∈ S.D i j, ∃ o ∈ sp.parts, o.tag = t
        · obtain ⟨i, j, hi, hj, sp, hsp, o, ho, rfl⟩ := c
          exact ((hp o.tag i j hi hj sp hsp o ho rfl).2 _).mp (f2 i j hi hj sp hsp o ho)
        · have c' : ∀ i j, i < B.env.domR → j < B.env.domZ → ∀ sp ∈ S.D i j, ∀ o ∈ sp.parts, o.tag ≠ t :=
            fun i j hi hj sp hsp o ho et => c ⟨i, j, hi, hj, sp, hsp, o, ho, et⟩
          rw [f3 t c', hn t c']
      rw [eh] at f4 f5
      have eD := Res.ok.inj (f4.symm.trans e2)
      rw [eD] at f5
      have eM := Res.ok.inj (f5.symm.trans e3)
      cases T
      dsimp only at eh eD eM
      rw [eh, eD, eM]
    · rintro rfl
      refine ⟨M1, e1, ?_, fun t ht => hn t ht, e2, e3⟩
      intro i j hi hj sp hsp o ho
      exact ((hp o.tag i j hi hj sp hsp o ho rfl).2 _).mpr rfl
  · have A1 := A.once
    rw [List.nodup_flatMap] at A1 ⊢
    obtain ⟨n1, n2⟩ := A1
    refine ⟨fun id hid => (k2 id hid).nodup_iff.mpr ((n1 id hid).filter _), ?_⟩
    refine List.Pairwise.imp_of_mem ?_ n2
    intro x y hx hy dj
    refine List.disjoint_left.mpr fun t t1 t2 => ?_
    exact List.disjoint_left.mp dj (List.mem_filter.mp ((k2 x hx).mem_iff.mp t1)).1 (List.mem_filter.mp ((k2 y hy).mem_iff.mp t2)).1
  · intro c hc i j x y ho
    have nj : c ≠ .jr ∧ c ≠ .jp ∧ c ≠ .jz := by
      refine ⟨?_, ?_, ?_⟩ <;> (rintro rfl; exact (nomatch hc))
    show (_ → M' i j c x y = _) ∧ (_ → M' i j c x y = 0)
    rw [kf i j c x y ho.1 ho.2.1 (by unfold isJ; tauto)]
    exact W1 c hc i j x y ho

end

end Pic
end Pico
