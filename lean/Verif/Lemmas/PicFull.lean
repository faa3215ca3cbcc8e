import Verif.Spec.PicFull
import Verif.Lemmas.PicStep
import Verif.Props.CollidePass
import Verif.Props.External

/-! The step of builds with external fields and collisions. -/

set_option linter.unusedSimpArgs false
set_option linter.unusedVariables false
set_option linter.unusedSectionVars false

namespace Pico
namespace Pic

open SMB Yee

/-- Hand-over and currents after any move of slow particles. -/
theorem finish {E : Env} (h : Chamber E) (hz : Sound E.dist) {ids : List Nat} (nd : ids.Nodup) {S : State} (A : Alive E ids S) {heap : Nat → Part ℝ}
    (H : ∀ i j, i < E.domR → j < E.domZ → ∀ sp ∈ S.D i j, ∀ o ∈ sp.parts, ∃ v, v.length2 < E.c ^ 2 ∧ heap o.tag = landed E (S.heap o.tag) v)
    {M1 : Solvers ℝ} (e1 : solveMaxwell (domPar E.p E.domR E.domZ) E.domR E.domZ S.M = .ok M1) :
    ∃ D' M', collect (geoOf E.p E.domR E.domZ) (cellsOf heap S.D) = .ok D' ∧
      solveCurrent E.dist E.p E.domR E.domZ E.e (depositsOf E heap D') M1 = .ok M' ∧ Alive E ids ⟨M', heap, D'⟩ ∧
      ∀ id ∈ ids, (tagsOf E D' id).Perm (tagsOf E S.D id) := by
  obtain ⟨m, W⟩ := A.fields
  obtain ⟨M1', m1, e1', W1, keep⟩ := maxwell_ok E.p h.div W
  obtain rfl := Res.ok.inj (e1'.symm.trans e1)
  obtain ⟨D', e2, k1, k2, k3⟩ := handover h nd A (heap := heap) H
  have housed : Housed E.p E.domR E.domZ E.e (depositsOf E heap D') := by
    intro a b ha hb q hq
    unfold depositsOf at hq
    obtain ⟨sp, hsp, hq⟩ := List.mem_flatMap.mp hq
    obtain ⟨o, ho, rfl⟩ := List.mem_map.mp hq
    have hid : sp.id ∈ ids := by rw [← k1 a b]; exact List.mem_map_of_mem hsp
    have t := (k2 sp.id hid).mem_iff.mp (mem_tags.mpr ⟨a, b, ha, hb, sp, hsp, rfl, o, ho, rfl⟩)
    obtain ⟨i', j', hi', hj', sp', hsp', _, o', ho', et⟩ := mem_tags.mp t
    obtain ⟨v, p1, p2⟩ := H i' j' hi' hj' sp' hsp' o' ho'
    rw [et] at p2
    have place := k3 a b ha hb sp hsp o ho
    rw [p2] at place ⊢
    have := A.place i' j' hi' hj' sp' hsp' o' ho'
    rw [et] at this
    exact deposit_ok h this p1 place _
  obtain ⟨M', e3, kf⟩ := solve_sound hz E.p h.div E.e h.good _ housed M1'
  refine ⟨D', M', e2, e3, ⟨k1, ?_, k3, m1, ?_⟩, k2⟩
  · refine (List.Perm.nodup_iff ?_).mpr A.once
    exact List.Perm.flatMap_left _ fun id hid => k2 id hid
  · intro c hc i j x y ho
    have nj : c ≠ .jr ∧ c ≠ .jp ∧ c ≠ .jz := by
      refine ⟨?_, ?_, ?_⟩ <;> (rintro rfl; exact (nomatch hc))
    show (_ → M' i j c x y = _) ∧ (_ → M' i j c x y = 0)
    rw [kf i j c x y ho.1 ho.2.1 (by unfold isJ; tauto)]
    exact W1 c hc i j x y ho

theorem slow_iff (c : ℝ) (a : Part ℝ) : Coll.Slow c (Coll.vel a) ↔ (vel a).length2 < c ^ 2 := by
  unfold Coll.Slow Coll.vel vel Vec3.length2
  dsimp only
  rw [pow_two, pow_two, pow_two]

section
variable {F : Full} (B : Built F)
include B

/-- A particle in its place can be pushed, with and without external fields. -/
theorem pushed_ok {i j : Nat} (hi : i < F.env.domR) (hj : j < F.env.domZ) {a : Part ℝ} (ha : InPlace F.env i j a) (id : Nat) (m x : Mem ℝ) :
    ∃ v, (∀ w, F.pushed i j m x id a w ↔ w = v) ∧ v.length2 < F.env.c ^ 2 := by
  have h := B.chamber
  unfold Full.pushed
  cases hx : F.ext with
  | none =>
    obtain ⟨v, e1, e2⟩ := push_ok h B.pusher hi hj ha id m
    refine ⟨v, fun w => ⟨?_, ?_⟩, e2⟩
    · rintro ⟨junk, e⟩
      exact (Res.ok.inj ((e1 junk).symm.trans e)).symm
    · rintro rfl
      exact ⟨true, e1 true⟩
  | some o =>
    have e : (F.env.geom i j).dr / 2 ≤ a.posR := by
      rw [geom_eq h]
      exact ha.r1
    have c1 := Interp.C23_electric_partial h.good.pi (geom_good h hi hj) ha.dom e m
    have c2 := Interp.C23_magnetic h.good.pi (geom_good h hi hj) ha.dom e m
    have d1 := Interp.C23_electric_partial h.good.pi (geom_good h hi hj) ha.dom e x
    have d2 := Interp.C23_magnetic h.good.pi (geom_good h hi hj) ha.dom e x
    dsimp only at c1 d1
    have c1 : Interp.getE F.env.e.pi (F.env.geom i j) m a.posR a.posZ = _ := c1
    have c2 : Interp.getH F.env.e.pi (F.env.geom i j) m a.posR a.posZ = _ := c2
    have d1 : Interp.getE F.env.e.pi (F.env.geom i j) x a.posR a.posZ = _ := d1
    have d2 : Interp.getH F.env.e.pi (F.env.geom i j) x a.posR a.posZ = _ := d2
    have same : ∀ junk e b, Pusher.pushV F.env.kind (F.env.pushPar id) junk e b (vel a) = Pusher.pushV F.env.kind (F.env.pushPar id) true e b (vel a) := by
      intro junk e b
      rcases B.pusher with k | k | k <;> rw [k] <;> rfl
    have all : ∀ junk, pushExt F.env.kind (F.env.pushPar id) junk F.env.e.pi (F.env.geom i j) m x a.posR a.posZ (vel a) =
        pushExt F.env.kind (F.env.pushPar id) true F.env.e.pi (F.env.geom i j) m x a.posR a.posZ (vel a) := by
      intro junk
      unfold pushExt
      rw [c1, Res.ok_bind, c2, Res.ok_bind, d1, Res.ok_bind, d2, Res.ok_bind, Res.ok_bind, Res.ok_bind, Res.ok_bind, Res.ok_bind, same]
    obtain ⟨v, e1, e2⟩ : ∃ v, pushExt F.env.kind (F.env.pushPar id) true F.env.e.pi (F.env.geom i j) m x a.posR a.posZ (vel a) = .ok v ∧ v.length2 < F.env.c ^ 2 := by
      unfold pushExt
      rw [c1, Res.ok_bind, c2, Res.ok_bind, d1, Res.ok_bind, d2, Res.ok_bind]
      exact Pusher.C72_step F.env.kind B.pusher (F.env.pushPar id) true h.c _ _ (vel a) ha.slow
    refine ⟨v, fun w => ⟨?_, ?_⟩, e2⟩
    · rintro ⟨junk, e⟩
      dsimp only at e
      rw [all junk] at e
      exact (Res.ok.inj (e1.symm.trans e)).symm
    · rintro rfl
      exact ⟨true, e1⟩

theorem geom_place {i j : Nat} : F.place i j = ⟨F.env.p.dr, F.env.p.dz, low F.env.p.nr F.env.domR i, low F.env.p.nz F.env.domZ j, hgt F.env.p.nr F.env.domR i,
    hgt F.env.p.nz F.env.domZ j⟩ := by
  unfold Full.place
  rw [geom_eq B.chamber]

theorem place_small {i j : Nat} (hi : i < F.env.domR) (hj : j < F.env.domZ) :
    (F.place i j).r0 + (F.place i j).nr + 4 < 2 ^ 31 ∧ (F.place i j).z0 + (F.place i j).nz + 4 < 2 ^ 31 := by
  rw [geom_place B]
  dsimp only
  obtain ⟨⟨b1, b2, b3, b4, b5, b6⟩, c1, c2, c3, c4, c5, c6⟩ := B.chamber.div.bounds hi hj
  have := B.small
  omega

/-- The particles of a domain are as the collisions need them. -/
theorem filled {ids : List Nat} (nd : ids.Nodup) {S : FState} (A : FAlive F ids S) {i j : Nat} (hi : i < F.env.domR) (hj : j < F.env.domZ)
    {h1 : Nat → Part ℝ} (same : ∀ sp ∈ S.s.D i j, ∀ o ∈ sp.parts, ∃ v, h1 o.tag = setVel (S.s.heap o.tag) v) :
    Coll.Filled (F.place i j) (F.species S.s.D i j) h1 := by
  have h := B.chamber
  have dr : 0 < F.env.p.dr := h.good.geo.dr
  have dz : 0 < F.env.p.dz := h.good.geo.dz
  have once := A.alive.once
  have sub : ∀ sp ∈ S.s.D i j, ∀ o ∈ sp.parts, o.tag ∈ ids.flatMap (tagsOf F.env S.s.D) := by
    intro sp hsp o ho
    refine List.mem_flatMap.mpr ⟨sp.id, ?_, mem_tags.mpr ⟨i, j, hi, hj, sp, hsp, rfl, o, ho, rfl⟩⟩
    rw [← A.alive.species i j]
    exact List.mem_map_of_mem hsp
  have nodup : ((F.species S.s.D i j).flatMap Coll.Species.particles).Nodup := by
    unfold Full.species
    rw [List.flatMap_map]
    rw [List.nodup_flatMap] at once ⊢
    obtain ⟨o1, o2⟩ := once
    have mid : ∀ sp ∈ S.s.D i j, sp.id ∈ ids := fun sp hsp => by rw [← A.alive.species i j]; exact List.mem_map_of_mem hsp
    constructor
    · intro sp hsp
      have k := o1 sp.id (mid sp hsp)
      unfold tagsOf at k
      rw [List.nodup_flatMap] at k
      have k := k.1 (i, j) (mem_allDoms.mpr ⟨hi, hj⟩)
      refine List.Nodup.sublist (List.Sublist.map _ ?_) k
      unfold SMB.parts
      have : [sp].Sublist ((S.s.D i j).filter fun s => decide (s.id = sp.id)) :=
        List.singleton_sublist.mpr (List.mem_filter.mpr ⟨hsp, by simp⟩)
      have := List.Sublist.flatMap this Sp.parts
      rw [List.flatMap_singleton] at this
      exact this
    · have p : (S.s.D i j).Pairwise fun a b => a.id ≠ b.id := by
        have := nd
        rw [← A.alive.species i j] at this
        exact List.pairwise_map.mp this
      refine List.Pairwise.imp_of_mem ?_ p
      intro a b ha hb n
      refine List.disjoint_left.mpr fun t ht ht' => ?_
      obtain ⟨o, ho, rfl⟩ := List.mem_map.mp ht
      obtain ⟨o', ho', e⟩ := List.mem_map.mp ht'
      refine List.disjoint_left.mp (disjoint_of o2 (mid a ha) (mid b hb) n) (mem_tags.mpr ⟨i, j, hi, hj, a, ha, rfl, o, ho, rfl⟩)
        (mem_tags.mpr ⟨i, j, hi, hj, b, hb, rfl, o', ho', e⟩)
  have all : ∀ s ∈ F.species S.s.D i j, ∀ p ∈ s.particles, ∃ sp ∈ S.s.D i j, ∃ o ∈ sp.parts, o.tag = p := by
    intro s hs p hp
    obtain ⟨sp, hsp, rfl⟩ := List.mem_map.mp hs
    obtain ⟨o, ho, rfl⟩ := List.mem_map.mp hp
    exact ⟨sp, hsp, o, ho, rfl⟩
  refine ⟨nodup, ?_, ?_, ?_⟩
  · intro s hs p hp
    obtain ⟨sp, hsp, o, ho, rfl⟩ := all s hs p hp
    obtain ⟨v, e⟩ := same sp hsp o ho
    rw [e]
    exact A.weight i j hi hj sp hsp o ho
  · intro s hs p hp
    obtain ⟨sp, hsp, o, ho, rfl⟩ := all s hs p hp
    obtain ⟨v, e⟩ := same sp hsp o ho
    have ip := A.alive.place i j hi hj sp hsp o ho
    have dom := ip.dom
    rw [geom_eq h] at dom
    obtain ⟨d1, d2, d3, d4⟩ := dom
    dsimp only at d1 d2 d3 d4
    unfold Coll.Bound
    rw [e, geom_place B]
    show (_ ≤ (S.s.heap o.tag).cellR ∧ (S.s.heap o.tag).cellR < _) ∧ _ ≤ (S.s.heap o.tag).cellZ ∧ (S.s.heap o.tag).cellZ < _
    dsimp only
    have a1 : ((low F.env.p.nr F.env.domR i : Nat) : Int) ≤ ⌊(S.s.heap o.tag).posR / F.env.p.dr⌋ := by
      rw [Int.le_floor, le_div_iff₀ dr]; exact_mod_cast d1
    have a2 : ⌊(S.s.heap o.tag).posR / F.env.p.dr⌋ < ((low F.env.p.nr F.env.domR i + hgt F.env.p.nr F.env.domR i : Nat) : Int) := by
      rw [Int.floor_lt, div_lt_iff₀ dr]; exact_mod_cast d2
    have a3 : ((low F.env.p.nz F.env.domZ j : Nat) : Int) ≤ ⌊(S.s.heap o.tag).posZ / F.env.p.dz⌋ := by
      rw [Int.le_floor, le_div_iff₀ dz]; exact_mod_cast d3
    have a4 : ⌊(S.s.heap o.tag).posZ / F.env.p.dz⌋ < ((low F.env.p.nz F.env.domZ j + hgt F.env.p.nz F.env.domZ j : Nat) : Int) := by
      rw [Int.floor_lt, div_lt_iff₀ dz]; exact_mod_cast d4
    have := ip.cellR
    have := ip.cellZ
    omega
  · refine lt_of_le_of_lt ?_ A.few
    refine List.Subperm.length_le (List.subperm_of_subset nodup ?_)
    intro t ht
    obtain ⟨s, hs, hp⟩ := List.mem_flatMap.mp ht
    obtain ⟨sp, hsp, o, ho, rfl⟩ := all s hs t hp
    exact sub sp hsp o ho

/-- What push and collisions do: only the velocities change; they are slow unless TA77S is built in. -/
theorem speeds {ids : List Nat} (nd : ids.Nodup) {S : FState} (A : FAlive F ids S) {M1 : Solvers ℝ} {X : Nat → Nat → Mem ℝ} {maps : Nat → Nat → Coll.Maps}
    {H : Nat → Nat → Nat → Part ℝ} (q : Speeds F S M1 X maps H) :
    Each F S (fun i j _ t => H i j t = setVel (S.s.heap t) (vel (H i j t))) ∧
    (NotTA F → Each F S fun i j _ t => (vel (H i j t)).length2 < F.env.c ^ 2) ∧
    ∀ i j, i < F.env.domR → j < F.env.domZ → (maps i j).Shape (F.place i j).nr (F.place i j).nz := by
  obtain ⟨h1, e1, e2, e3, e4⟩ := q
  have sv : ∀ (a : Part ℝ) v, setVel a (vel (setVel a v)) = setVel a v := fun _ _ => rfl
  have psh : Each F S fun i j sp t => ∃ v, v.length2 < F.env.c ^ 2 ∧ h1 t = setVel (S.s.heap t) v := by
    intro i j hi hj sp hsp o ho
    obtain ⟨v, a, b⟩ := e3 i j hi hj sp hsp o ho
    obtain ⟨w, c, d⟩ := pushed_ok B hi hj (A.alive.place i j hi hj sp hsp o ho) sp.id (M1 i j) (X i j)
    rw [(c v).mp a] at b
    exact ⟨w, d, b⟩
  have fil := fun i j (hi : i < F.env.domR) (hj : j < F.env.domZ) => filled B nd A hi hj (h1 := h1) fun sp hsp o ho => by
    obtain ⟨v, _, e⟩ := psh i j hi hj sp hsp o ho; exact ⟨v, e⟩
  have e4 := fun i j hi hj => e4 i j hi hj
  unfold Full.collided at e4
  cases hc : F.coll with
  | none =>
    rw [hc] at e4
    refine ⟨?_, ?_, ?_⟩
    · intro i j hi hj sp hsp o ho
      obtain ⟨v, _, e⟩ := psh i j hi hj sp hsp o ho
      rw [(e4 i j hi hj).1, e, sv]
    · intro _ i j hi hj sp hsp o ho
      obtain ⟨v, d, e⟩ := psh i j hi hj sp hsp o ho
      rw [(e4 i j hi hj).1, e]
      exact d
    · intro i j hi hj
      rw [(e4 i j hi hj).2]
      exact A.maps i j hi hj
  | some c =>
    obtain ⟨M, P, K⟩ := c
    rw [hc] at e4
    have only := fun i j hi hj => Coll.C102_only (place_small B hi hj) (fil i j hi hj) (A.maps i j hi hj) (e4 i j hi hj)
    refine ⟨?_, ?_, ?_⟩
    · intro i j hi hj sp hsp o ho
      obtain ⟨v, _, e⟩ := psh i j hi hj sp hsp o ho
      obtain ⟨w, f⟩ := (only i j hi hj).1 o.tag
      rw [e] at f
      rw [f]
      rfl
    · intro n i j hi hj sp hsp o ho
      have hM : M ≠ .ta77s := by rintro rfl; exact n P K hc
      have lc := B.light M P K hc
      have := Coll.C105_relativistic hM (by rw [lc]; exact B.chamber.c) (place_small B hi hj) (fil i j hi hj) (A.maps i j hi hj) (e4 i j hi hj) (by
        intro s hs t ht
        obtain ⟨sp, hsp, rfl⟩ := List.mem_map.mp hs
        obtain ⟨o, ho, rfl⟩ := List.mem_map.mp ht
        obtain ⟨v, d, e⟩ := psh i j hi hj sp hsp o ho
        rw [slow_iff, e, lc]
        exact d) ⟨F.name sp.id, sp.parts.map (·.tag)⟩ (List.mem_map.mpr ⟨sp, hsp, rfl⟩) o.tag (List.mem_map_of_mem ho)
      rw [slow_iff, lc] at this
      exact this
    · intro i j hi hj
      exact (only i j hi hj).2.2.2

end

end Pic
end Pico
