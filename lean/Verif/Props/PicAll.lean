import Verif.Lemmas.PicAll
import Verif.Props.PicFull

/-! # C130 — whole runs with beams, external fields and collisions together -/

set_option linter.unusedSimpArgs false
set_option linter.unusedVariables false
set_option linter.unusedSectionVars false

namespace Pico
namespace Pic

open SMB Yee

/-! ### The two simpler steps are special cases -/

/-- C130: without beams the step is that of C106. -/
theorem C130_without_beams {G : GEnv} (hb : G.beams = []) (t : ℝ) (S : GState) (F : FState) :
    (∃ T : GState, T.f = F ∧ GStep G t S T) ↔ FStep G.full S.f F := by
  have nb : ∀ id, ¬ G.b.isBeam id := by
    rintro id ⟨b, h, _⟩
    have h : b ∈ G.beams := h
    rw [hb] at h
    exact absurd h List.not_mem_nil
  constructor
  · rintro ⟨T, rfl, rnd, new, S1, M1, H, U, I, q, l, _⟩
    obtain ⟨_, I2, _, _, _, I6, eD, eM⟩ := I
    have es : S1.s = S.f.s := by
      have e1 : S1.s.heap = S.f.s.heap := by
        funext a
        refine I6 a fun i j id _ _ k => ?_
        rw [I2 i j id (nb id)] at k
        exact absurd k List.not_mem_nil
      have e2 : S1.s.D = S.f.s.D := by
        rw [eD]
        funext i j
        refine (List.map_congr_left fun sp _ => ?_).trans (List.map_id _)
        rw [I2 i j sp.id (nb sp.id), List.map_nil, List.append_nil]
        rfl
      have e3 : S1.s.M = S.f.s.M := eM
      cases S1 with
      | mk s bu =>
        cases s
        dsimp only at e1 e2 e3 ⊢
        rw [e1, e2, e3]
    have ea : S.after S1 = S.f := by unfold GState.after; rw [es]
    rw [ea] at q l
    obtain ⟨l1, l2, l3, l4⟩ := l
    exact ⟨M1, H, q, fun i j hi hj sp hsp o ho => (l1 i j hi hj sp hsp o ho).2 (nb _), l2, l3, l4⟩
  · rintro ⟨M1, H, q, l1, l2, l3, l4⟩
    refine ⟨⟨F, S.bunch⟩, rfl, fun _ _ _ _ => (0, 0), fun _ _ _ => [], S.b, M1, H, fun _ _ _ _ => by norm_num, ?_, q, ?_, rfl⟩
    · refine ⟨?_, fun _ _ _ _ => rfl, fun _ _ _ _ _ => List.nodup_nil, fun _ _ _ _ _ _ _ _ _ _ _ k => absurd k List.not_mem_nil,
        fun _ _ _ _ _ _ k => absurd k List.not_mem_nil, fun _ _ => rfl, ?_, rfl⟩
      · intro i j _ _ b h
        have h : b ∈ G.beams := h
        rw [hb] at h
        exact absurd h List.not_mem_nil
      · funext i j
        refine ((List.map_congr_left fun sp _ => ?_).trans (List.map_id _)).symm
        rw [List.map_nil, List.append_nil]
        rfl
    · exact ⟨fun i j hi hj sp hsp o ho => ⟨fun k => absurd k (nb _), fun _ => l1 i j hi hj sp hsp o ho⟩, l2, l3, l4⟩

/-- C130: without external fields and collisions every step is one of C109. -/
theorem C130_plain {G : GEnv} (hx : G.full.ext = none) (hc : G.full.coll = none) {t : ℝ} {S T : GState} (st : GStep G t S T) : BStep G.b t S.b T.b := by
  obtain ⟨rnd, new, S1, M1, H, U, I, ⟨h1, e1, _, e3, e4⟩, ⟨l1, l2, l3, l4⟩, eb⟩ := st
  refine ⟨rnd, new, S1, U, I, ⟨M1, e1, ?_, l2, l3, l4⟩, eb⟩
  intro i j hi hj sp hsp o ho
  obtain ⟨v, ⟨junk, p⟩, eh⟩ := e3 i j hi hj sp hsp o ho
  rw [hx] at p
  have c := e4 i j hi hj
  unfold Full.collided at c
  rw [hc] at c
  have l := l1 i j hi hj sp hsp o ho
  rw [c.1, eh] at l
  exact ⟨junk, v, p, l⟩

theorem injectOne_posR {pi dt : ℝ} {b : Beam.Conf ℝ} {g : Geom ℝ} {rnd : ℝ × ℝ} {p : Part ℝ} (e : Beam.injectOne pi dt b g rnd = .ok p) :
    p.posR = Beam.domainRadius b g * rnd.1 + g.dr / 2 + g.r0 * g.dr := by
  unfold Beam.injectOne at e
  dsimp only at e
  obtain ⟨_, _, e⟩ := Res.bind_ok e
  obtain ⟨_, _, e⟩ := Res.bind_ok e
  rw [← Res.ok.inj e]
  rfl

/-- In a loop that ends well, every pass has ended well. -/
theorem loop_pass {ι σ : Type _} {f : ι → σ → Res σ} {P : σ → Prop} (hP : ∀ i s s', P s → f i s = .ok s' → P s') {l : List ι} {s s' : σ} (hs : P s)
    (e : loop f l s = .ok s') : P s' ∧ ∀ i ∈ l, ∃ a b, P a ∧ f i a = .ok b := by
  induction l generalizing s with
  | nil =>
    obtain rfl := Res.ok.inj e
    exact ⟨hs, fun i hi => absurd hi List.not_mem_nil⟩
  | cons x l ih =>
    rw [loop_cons] at e
    obtain ⟨s1, e1, e2⟩ := Res.bind_ok e
    obtain ⟨p, q⟩ := ih (hP x s s1 hs e1) e2
    refine ⟨p, fun i hi => ?_⟩
    rcases List.mem_cons.mp hi with rfl | hi
    · exact ⟨s, s1, hs, e1⟩
    · exact q i hi

theorem sortOne_shape {heap : Nat → Part ℝ} {r0 z0 nr nz : Nat} {ion : Bool} {p : Nat} {m m' : Coll.Maps} (hm : m.Shape nr nz)
    (e : Coll.sortOne heap r0 z0 ion p m = .ok m') : m'.Shape nr nz := by
  obtain ⟨⟨a1, a2, a3⟩, b1, b2, b3⟩ := hm
  unfold Coll.sortOne at e
  dsimp only at e
  split at e
  · obtain ⟨g, e1, e2⟩ := Res.bind_ok e
    obtain ⟨c1, c2, c3⟩ := Grid.shape_upd e1
    obtain rfl := Res.ok.inj e2
    exact ⟨⟨a1, a2, a3⟩, by rw [← b1, ← c1], by rw [← b2, ← c2], by rw [← b3, ← c3]⟩
  · obtain ⟨g, e1, e2⟩ := Res.bind_ok e
    obtain ⟨c1, c2, c3⟩ := Grid.shape_upd e1
    obtain rfl := Res.ok.inj e2
    exact ⟨⟨by rw [← a1, ← c1], by rw [← a2, ← c2], by rw [← a3, ← c3]⟩, b1, b2, b3⟩

/-- A species of any name with a particle whose axial cell number is beyond the overlay cannot be sorted. -/
theorem sorted_fails {g : Coll.Place} {sp : List Coll.Species} {h : Coll.Heap} {m m' : Coll.Maps} {els ions : Nat → Nat → List Nat}
    (hs : g.r0 + g.nr + 4 < 2 ^ 31 ∧ g.z0 + g.nz + 4 < 2 ^ 31) (hm : m.Shape g.nr g.nz) {s : Coll.Species} (hsp : s ∈ sp) {p : Nat} (hp : p ∈ s.particles)
    (far : g.z0 + g.nz + 2 ≤ (h p).cellZ) (small : (h p).cellZ < 2 ^ 31) : ¬ Coll.Sorted g sp h m m' els ions := by
  rintro ⟨m1, e, _, _⟩
  obtain ⟨m0, e0, e1⟩ := Res.bind_ok e
  have h0 : m0.Shape g.nr g.nz := by
    obtain ⟨d, k, _⟩ := Coll.clear_ok (nr := g.nr) (nz := g.nz) (by omega) (m.el.cell, m.ion.cell)
    rw [Coll.shape_mk hm] at e0
    obtain rfl := Res.ok.inj (k.symm.trans e0)
    exact ⟨⟨rfl, rfl, rfl⟩, rfl, rfl, rfl⟩
  have pass : ∀ (s : Coll.Species) (a b : Coll.Maps), a.Shape g.nr g.nz → loop (Coll.sortOne h g.r0 g.z0 (Coll.isIon s.name)) s.particles a = .ok b →
      b.Shape g.nr g.nz ∧ ∀ i ∈ s.particles, ∃ c d, c.Shape g.nr g.nz ∧ Coll.sortOne h g.r0 g.z0 (Coll.isIon s.name) i c = .ok d := fun s a b ha e =>
    loop_pass (P := fun m : Coll.Maps => m.Shape g.nr g.nz) (fun _ _ _ => sortOne_shape) ha e
  obtain ⟨_, q⟩ := loop_pass (P := fun m : Coll.Maps => m.Shape g.nr g.nz) (fun s a b ha e => (pass s a b ha e).1) h0 e1
  obtain ⟨a, b, ha, e2⟩ := q s hsp
  obtain ⟨c, d, hc, e3⟩ := (pass s a b ha e2).2 p hp
  rw [Coll.C41_outside_fails h hs (Coll.isIon s.name) p far small hc] at e3
  cases e3

section
variable {G : GEnv} (Q : GBuilt G)
include Q

/-! ### The injection -/

/-- Where an injected particle comes from. -/
theorem injected_one {ids : List Nat} {S S1 : BState} {t : ℝ} {rnd : Nat → Nat → Nat → Nat → ℝ × ℝ} {new : Nat → Nat → Nat → List Nat}
    (U : Uniform01 rnd) (I : Injects G.b t rnd new S S1) {i j : Nat} (hi : i < G.full.env.domR) (hj : j < G.full.env.domZ) {b : Beam.Conf ℝ} (hb : b ∈ G.beams)
    {a : Nat} (ha : a ∈ new i j b.id) : low G.full.env.p.nz G.full.env.domZ j = 0 ∧ (low G.full.env.p.nr G.full.env.domR i : ℝ) * G.full.env.p.dr < b.radius ∧
      Beam.Fresh b (G.full.env.geom i j) G.full.env.p.dt (S1.s.heap a) ∧
      ((S1.s.heap a).cellR : Int) = ⌊(S1.s.heap a).posR / G.full.env.p.dr⌋ ∧ ((S1.s.heap a).cellZ : Int) = ⌊(S1.s.heap a).posR / G.full.env.p.dz⌋ ∧
      (S1.s.heap a).cellZ < 2 ^ 31 ∧ ∃ k, (S1.s.heap a).posR = Beam.domainRadius b (G.full.env.geom i j) * (rnd i j b.id k).1 + G.full.env.p.dr / 2 +
        low G.full.env.p.nr G.full.env.domR i * G.full.env.p.dr := by
  have C := Q.chamber
  have h : Chamber G.full.env := C.chamber
  have dr : 0 < G.full.env.p.dr := h.good.geo.dr
  have dz : 0 < G.full.env.p.dz := h.good.geo.dz
  have set : Beam.Setting G.full.env.e.pi G.full.env.p.dt b (G.full.env.geom i j) (fun _ => rnd i j b.id) := beam_setting C hb hi hj U
  have e : Beam.manage G.full.env.e.pi G.full.env.p.dt b (G.full.env.geom i j) t (rnd i j b.id) ⟨S.bunch i j b.id, []⟩ =
      .ok ⟨S1.bunch i j b.id, (new i j b.id).map S1.s.heap⟩ := I.1 i j hi hj b hb
  have me := List.mem_map_of_mem (f := S1.s.heap) ha
  unfold Beam.manage at e
  by_cases z0 : (G.full.env.geom i j).z0 = 0
  · rw [if_pos z0] at e
    unfold Beam.inject at e
    by_cases c0 : (⟨S.bunch i j b.id, []⟩ : Beam.St ℝ).bunch < b.bunches
    · rw [if_pos c0] at e
      dsimp only at e
      obtain ⟨s1, e1, e2⟩ := Res.bind_ok e
      have e2 := Res.ok.inj e2
      have e5 : s1.particles = (new i j b.id).map S1.s.heap := by
        have := congrArg Beam.St.particles e2
        dsimp only at this
        rw [← this]
        split <;> rfl
      split at e1
      · rename_i c
        obtain ⟨nw, e3, e4⟩ := Res.bind_ok e1
        have e4 := Res.ok.inj e4
        have m : S1.s.heap a ∈ nw := by
          rw [← e4] at e5
          have t : nw = (new i j b.id).map S1.s.heap := by simpa using e5
          rw [t]
          exact me
        obtain ⟨x, hx, ex⟩ := collect_mem e3 m
        obtain ⟨k, _, ek⟩ := List.mem_map.mp hx
        obtain ⟨p, e6, f, _, cr, cz⟩ := Beam.injectOne_ok set z0 c.1 0 k
        have kp := injectOne_posR (ek.trans ex)
        obtain rfl := Res.ok.inj ((ek.trans ex).symm.trans e6)
        have c1 := c.1
        have big := C.big
        have cl := C.cells
        have f1 := f.rlo
        have f2 := f.rhi
        have edge : Beam.beamEdge b (G.full.env.geom i j) ≤ _ := min_le_right _ _
        obtain ⟨⟨b1, b2, b3, b4, b5, b6⟩, _⟩ := h.div.bounds hi hj
        rw [geom_eq h] at z0 c1 cr cz f1 f2 edge
        dsimp only at z0 c1 cr cz f1 f2 edge
        have l0 : (0 : ℝ) ≤ low G.full.env.p.nr G.full.env.domR i * G.full.env.p.dr := mul_nonneg (Nat.cast_nonneg _) dr.le
        have top : ((low G.full.env.p.nr G.full.env.domR i + hgt G.full.env.p.nr G.full.env.domR i : Nat) : ℝ) * G.full.env.p.dr ≤ G.full.env.p.nr * G.full.env.p.dr := by
          refine mul_le_mul_of_nonneg_right ?_ dr.le
          have : low G.full.env.p.nr G.full.env.domR i + hgt G.full.env.p.nr G.full.env.domR i ≤ G.full.env.p.nr := by
            by_cases k : i = G.full.env.domR - 1
            · have := b5 k; omega
            · have := b6 k; omega
          exact_mod_cast this
        have rhi : (S1.s.heap a).posR < ((G.full.env.p.nr : ℝ) + 1) * G.full.env.p.dr := by linarith
        have g1 : 0 ≤ ⌊(S1.s.heap a).posR / G.full.env.p.dr⌋ := Int.floor_nonneg.mpr (div_nonneg (by linarith) dr.le)
        have g2 : 0 ≤ ⌊(S1.s.heap a).posR / G.full.env.p.dz⌋ := Int.floor_nonneg.mpr (div_nonneg (by linarith) dz.le)
        have g3 : ⌊(S1.s.heap a).posR / G.full.env.p.dr⌋ < 2 ^ 31 := by
          rw [Int.floor_lt, div_lt_iff₀ dr]
          refine lt_of_lt_of_le rhi (mul_le_mul_of_nonneg_right ?_ dr.le)
          have big : G.full.env.p.nr + 2 ≤ 2 ^ 31 := big
          have : ((G.full.env.p.nr : ℝ) + 2) ≤ 2 ^ 31 := by exact_mod_cast big
          push_cast
          linarith
        have g4 : ⌊(S1.s.heap a).posR / G.full.env.p.dz⌋ < 2 ^ 31 := by
          rw [Int.floor_lt, div_lt_iff₀ dz]
          push_cast
          have cl : ((G.full.env.p.nr : ℝ) + 1) * G.full.env.p.dr ≤ 2 ^ 31 * G.full.env.p.dz := cl
          linarith
        have q1 : ((S1.s.heap a).cellR : Int) = ⌊(S1.s.heap a).posR / G.full.env.p.dr⌋ := by
          rw [cr]
          unfold Part.toSizeT
          rw [Int.emod_eq_of_lt g1 (by omega)]
          omega
        have q2 : ((S1.s.heap a).cellZ : Int) = ⌊(S1.s.heap a).posR / G.full.env.p.dz⌋ := by
          rw [cz]
          unfold Part.toSizeT
          rw [Int.emod_eq_of_lt g2 (by omega)]
          omega
        refine ⟨z0, c1, f, q1, q2, by omega, k, ?_⟩
        rw [geom_eq h] at kp
        rw [geom_eq h]
        exact kp
      · obtain rfl := Res.ok.inj e1
        rw [← e5] at me
        exact absurd me List.not_mem_nil
    · rw [if_neg c0] at e
      have e := congrArg Beam.St.particles (Res.ok.inj e)
      dsimp only at e
      rw [← e] at me
      exact absurd me List.not_mem_nil
  · rw [if_neg z0] at e
    have e := congrArg Beam.St.particles (Res.ok.inj e)
    dsimp only at e
    rw [← e] at me
    exact absurd me List.not_mem_nil

/-- Every particle after the injection was there before, or is a new one. -/
theorem injected_or {S S1 : BState} {t : ℝ} {rnd : Nat → Nat → Nat → Nat → ℝ × ℝ} {new : Nat → Nat → Nat → List Nat}
    (I : Injects G.b t rnd new S S1) {i j : Nat} {sp1 : Sp} (h1 : sp1 ∈ S1.s.D i j) {o : Prt} (ho : o ∈ sp1.parts) :
    ∃ sp ∈ S.s.D i j, sp.id = sp1.id ∧ (o ∈ sp.parts ∨ o.tag ∈ new i j sp.id ∧ ∃ b ∈ G.beams, b.id = sp.id) := by
  obtain ⟨_, I2, _, _, _, _, eD, _⟩ := I
  rw [eD] at h1
  obtain ⟨sp, hsp, rfl⟩ := List.mem_map.mp h1
  refine ⟨sp, hsp, rfl, ?_⟩
  rcases List.mem_append.mp ho with k | k
  · exact .inl k
  · obtain ⟨a, ha, rfl⟩ := List.mem_map.mp k
    refine .inr ⟨ha, ?_⟩
    by_contra c
    have : ¬ G.b.isBeam sp.id := c
    rw [I2 i j sp.id this] at ha
    exact absurd ha List.not_mem_nil

/-- What the injection gives: a state as the rest of the step needs it. -/
theorem after_ready {ids : List Nat} (nd : ids.Nodup) {S : GState} {S1 : BState} {t : ℝ} {rnd : Nat → Nat → Nat → Nat → ℝ × ℝ} {new : Nat → Nat → Nat → List Nat}
    (A : GAlive G ids S) (U : Uniform01 rnd) (I : Injects G.b t rnd new S.b S1) :
    BReady G.b ids (S.after S1).s ∧ Each G.full (S.after S1) (fun _ _ _ t => 0 < ((S.after S1).s.heap t).weight) ∧
    ∀ i j, i < G.full.env.domR → j < G.full.env.domZ → ((S.after S1).maps i j).Shape (G.full.place i j).nr (G.full.place i j).nz := by
  obtain ⟨r1, r2, r3⟩ := injects_ready Q.chamber nd A.alive U I
  refine ⟨r1, ?_, A.maps⟩
  intro i j hi hj sp1 h1 o ho
  obtain ⟨sp, hsp, ei, k | ⟨k, b, hb, eb⟩⟩ := injected_or Q I h1 ho
  · show 0 < (S1.s.heap o.tag).weight
    rw [r3 i j hi hj sp hsp o k]
    exact A.weight i j hi hj sp hsp o k
  · rw [← eb] at k
    exact (injected_one Q (ids := ids) U I hi hj hb k).2.2.1.weight

/-- C130: ... and the other way round, from a sane state. -/
theorem C130_plain_back (hx : G.full.ext = none) (hc : G.full.coll = none) {ids : List Nat} (nd : ids.Nodup) {S : GState} (A : GAlive G ids S) {t : ℝ} {T : BState}
    (st : BStep G.b t S.b T) : GStep G t S ⟨⟨T.s, S.f.X, S.f.maps⟩, T.bunch⟩ := by
  obtain ⟨rnd, new, S1, U, I, ⟨M1, e1, e2, l2, l3, l4⟩, eb⟩ := st
  obtain ⟨R, _, _⟩ := after_ready Q nd A U I
  have e2 : ∀ i j, i < G.full.env.domR → j < G.full.env.domZ → ∀ sp ∈ S1.s.D i j, ∀ o ∈ sp.parts, BMoves G.b i j (M1 i j) sp.id (S1.s.heap o.tag) (T.s.heap o.tag) := e2
  have P : ∀ t, ∃ v, ∀ i j, i < G.full.env.domR → j < G.full.env.domZ → ∀ sp ∈ S1.s.D i j, ∀ o ∈ sp.parts, o.tag = t →
      (∃ junk, Pusher.push G.full.env.kind (G.full.env.pushPar sp.id) junk G.full.env.e.pi (G.full.env.geom i j) (M1 i j) (S1.s.heap t).posR (S1.s.heap t).posZ (vel (S1.s.heap t)) = .ok v) ∧
      (G.b.isBeam sp.id → BeamAdvance G.full.env.p.dt (G.full.env.geom i j) (G.full.env.walls i j) (setVel (S1.s.heap t) v) (T.s.heap t)) ∧
      (¬ G.b.isBeam sp.id → Part.Advance G.full.env.p.dt (G.full.env.geom i j) (G.full.env.walls i j) (setVel (S1.s.heap t) v) (T.s.heap t)) := by
    intro t
    by_cases c : ∃ i j, i < G.full.env.domR ∧ j < G.full.env.domZ ∧ ∃ sp ∈ S1.s.D i j, ∃ o ∈ sp.parts, o.tag = t
    · obtain ⟨i, j, hi, hj, sp, hsp, o, ho, rfl⟩ := c
      obtain ⟨junk, v, p, a1, a2⟩ := e2 i j hi hj sp hsp o ho
      refine ⟨v, fun i' j' hi' hj' sp' hsp' o' ho' et => ?_⟩
      obtain ⟨rfl, rfl, ei⟩ := once_place R.species R.once hi' hj' hi hj hsp' hsp ho' ho et
      rw [ei]
      exact ⟨⟨junk, p⟩, a1, a2⟩
    · exact ⟨⟨0, 0, 0⟩, fun i j hi hj sp hsp o ho et => absurd ⟨i, j, hi, hj, sp, hsp, o, ho, et⟩ c⟩
  choose v hv using P
  refine ⟨rnd, new, S1, M1, fun _ _ t => setVel (S1.s.heap t) (v t), U, I, ⟨fun t => setVel (S1.s.heap t) (v t), e1, ?_, ?_, ?_⟩, ⟨?_, l2, l3, l4⟩, eb⟩
  · intro i j _ _
    unfold Full.applied
    rw [hx]
    rfl
  · intro i j hi hj sp hsp o ho
    obtain ⟨⟨junk, p⟩, _⟩ := hv o.tag i j hi hj sp hsp o ho rfl
    refine ⟨_, ⟨junk, ?_⟩, rfl⟩
    rw [hx]
    exact p
  · intro i j _ _
    unfold Full.collided
    rw [hc]
    exact ⟨rfl, rfl⟩
  · intro i j hi hj sp hsp o ho
    exact (hv o.tag i j hi hj sp hsp o ho rfl).2

/-- C130: beams narrower than the domains of the first row are high and those of the first column are long get cell numbers of their
domains, so that the collisions can sort them. -/
theorem C130_sortable_partial (nr : Narrow G) {ids : List Nat} (nd : ids.Nodup) {S : GState} {S1 : BState} {t : ℝ} {rnd : Nat → Nat → Nat → Nat → ℝ × ℝ}
    {new : Nat → Nat → Nat → List Nat} (A : GAlive G ids S) (U : Uniform01 rnd) (I : Injects G.b t rnd new S.b S1)
    (few : (ids.flatMap (tagsOf G.full.env S1.s.D)).length < 2 ^ 24) : Sortable G ids (S.after S1) := by
  intro _
  refine ⟨few, ?_⟩
  have h : Chamber G.full.env := Q.chamber.chamber
  have dr : 0 < G.full.env.p.dr := h.good.geo.dr
  have dz : 0 < G.full.env.p.dz := h.good.geo.dz
  obtain ⟨r1, r2, r3⟩ := injects_ready Q.chamber nd A.alive U I
  -- a particle in its domain, with the cell numbers of its position
  have own : ∀ i j (a : Part ℝ), (G.full.env.geom i j).Contains a.posR a.posZ → (a.cellR : Int) = ⌊a.posR / G.full.env.p.dr⌋ → (a.cellZ : Int) = ⌊a.posZ / G.full.env.p.dz⌋ →
      Coll.Bound (G.full.place i j).r0 (G.full.place i j).z0 (G.full.place i j).nr (G.full.place i j).nz a := by
    intro i j a dom cr cz
    rw [geom_eq h] at dom
    obtain ⟨d1, d2, d3, d4⟩ := dom
    dsimp only at d1 d2 d3 d4
    unfold Coll.Bound
    rw [geom_place Q.built]
    dsimp only
    have a1 : ((low G.full.env.p.nr G.full.env.domR i : Nat) : Int) ≤ ⌊a.posR / G.full.env.p.dr⌋ := by
      rw [Int.le_floor, le_div_iff₀ dr]; exact_mod_cast d1
    have a2 : ⌊a.posR / G.full.env.p.dr⌋ < ((low G.full.env.p.nr G.full.env.domR i + hgt G.full.env.p.nr G.full.env.domR i : Nat) : Int) := by
      rw [Int.floor_lt, div_lt_iff₀ dr]; exact_mod_cast d2
    have a3 : ((low G.full.env.p.nz G.full.env.domZ j : Nat) : Int) ≤ ⌊a.posZ / G.full.env.p.dz⌋ := by
      rw [Int.le_floor, le_div_iff₀ dz]; exact_mod_cast d3
    have a4 : ⌊a.posZ / G.full.env.p.dz⌋ < ((low G.full.env.p.nz G.full.env.domZ j + hgt G.full.env.p.nz G.full.env.domZ j : Nat) : Int) := by
      rw [Int.floor_lt, div_lt_iff₀ dz]; exact_mod_cast d4
    omega
  intro i j hi hj sp1 h1 o ho
  obtain ⟨sp, hsp, ei, k | ⟨k, b, hb, eb⟩⟩ := injected_or Q I h1 ho
  · show Coll.Bound _ _ _ _ (S1.s.heap o.tag)
    rw [r3 i j hi hj sp hsp o k]
    by_cases c : G.b.isBeam sp.id
    · have := A.alive.flying i j hi hj sp hsp c o k
      exact own i j _ this.dom this.cellR this.cellZ
    · have := A.alive.place i j hi hj sp hsp c o k
      exact own i j _ this.dom this.cellR this.cellZ
  · rw [← eb] at k
    obtain ⟨z0, c1, f, cr, cz, _⟩ := injected_one Q (ids := ids) U I hi hj hb k
    obtain ⟨n1, n2⟩ := nr b hb
    have f1 := f.rlo
    have f2 := f.rhi
    have edge : Beam.beamEdge b (G.full.env.geom i j) ≤ b.radius := min_le_left _ _
    obtain ⟨⟨b1, b2, b3, b4, b5, b6⟩, d1, d2, d3, d4, d5, d6⟩ := h.div.bounds hi hj
    have i0 : i = 0 := by
      by_contra ne
      have : hgt G.full.env.p.nr G.full.env.domR 0 ≤ low G.full.env.p.nr G.full.env.domR i := by
        have := low_hgt h h.div.r1 h.div.r2 (i := 0)
        rw [low_zero, Nat.zero_add] at this
        rw [this]
        exact low_mono (by omega)
      have : (hgt G.full.env.p.nr G.full.env.domR 0 : ℝ) * G.full.env.p.dr ≤ low G.full.env.p.nr G.full.env.domR i * G.full.env.p.dr :=
        mul_le_mul_of_nonneg_right (by exact_mod_cast this) dr.le
      linarith
    have j0 : j = 0 := by
      by_contra ne
      have := d4 ne
      omega
    subst i0 j0
    rw [geom_eq h] at f1 f2 edge
    dsimp only at f1 f2 edge
    rw [low_zero, Nat.cast_zero, zero_mul] at f1
    show Coll.Bound _ _ _ _ (S1.s.heap o.tag)
    unfold Coll.Bound
    rw [geom_place Q.built]
    dsimp only
    rw [low_zero, low_zero]
    have a1 : 0 ≤ ⌊(S1.s.heap o.tag).posR / G.full.env.p.dr⌋ := Int.floor_nonneg.mpr (div_nonneg (by linarith) dr.le)
    have a2 : ⌊(S1.s.heap o.tag).posR / G.full.env.p.dr⌋ < (hgt G.full.env.p.nr G.full.env.domR 0 : Int) := by
      rw [Int.floor_lt, div_lt_iff₀ dr]
      push_cast
      linarith
    have a3 : 0 ≤ ⌊(S1.s.heap o.tag).posR / G.full.env.p.dz⌋ := Int.floor_nonneg.mpr (div_nonneg (by linarith) dz.le)
    have a4 : ⌊(S1.s.heap o.tag).posR / G.full.env.p.dz⌋ < (hgt G.full.env.p.nz G.full.env.domZ 0 : Int) := by
      rw [Int.floor_lt, div_lt_iff₀ dz]
      push_cast
      linarith
    omega

/-! ### One step -/

open Classical in
/-- C130, one step that has been made from a sane state, with any random numbers, in a build without collisions or with one of the
relativistic methods: the state after it is sane again; every species of the plasma has the same particles; a beam has the particles it had
and those it has injected, without those that have arrived outside the chamber.
Missing: particles that arrive exactly at the border of a domain or on the axis, beams that the collisions cannot sort. -/
theorem C130_step_partial (hz : Scheme G.full.env.dist) (n : NotTA G.full) {ids : List Nat} (nd : ids.Nodup) {S T : GState} (A : GAlive G ids S)
    {t : ℝ} {rnd : Nat → Nat → Nat → Nat → ℝ × ℝ} {new : Nat → Nat → Nat → List Nat} {S1 : BState} (U : Uniform01 rnd) (I : Injects G.b t rnd new S.b S1)
    (so : Sortable G ids (S.after S1)) (cl : ClearAll G (S.after S1)) {M1 : Solvers ℝ} {H : Nat → Nat → Nat → Part ℝ}
    (q : Speeds G.full (S.after S1) M1 T.f.X T.f.maps H) (l : Lands G (S.after S1) M1 H T.f.s) :
    GAlive G ids T ∧ (∀ id ∈ ids, ¬ G.b.isBeam id → (tagsOf G.full.env T.f.s.D id).Perm (tagsOf G.full.env S.f.s.D id)) ∧
    ∀ id ∈ ids, G.b.isBeam id → (tagsOf G.full.env T.f.s.D id).Perm
      ((tagsOf G.full.env S.f.s.D id ++ injected G.b new id).filter fun a => decide (Inside G.full.env (T.f.s.heap a))) := by
  have h : Chamber G.full.env := Q.chamber.chamber
  obtain ⟨R, wt, mp⟩ := after_ready Q nd A U I
  obtain ⟨q1, q2, q3⟩ := gspeeds Q nd R wt mp so q
  obtain ⟨l1, l2, l3, l4⟩ := l
  have land : ∀ i j, i < G.full.env.domR → j < G.full.env.domZ → ∀ sp ∈ S1.s.D i j, ∀ o ∈ sp.parts, ∃ v, v.length2 < G.full.env.c ^ 2 ∧
      (¬ G.b.isBeam sp.id → T.f.s.heap o.tag = landed G.full.env (S1.s.heap o.tag) v) ∧
      (G.b.isBeam sp.id → T.f.s.heap o.tag = beamLanded G.full.env (S1.s.heap o.tag) v) := by
    intro i j hi hj sp hsp o ho
    have s := q2 n i j hi hj sp hsp o ho
    obtain ⟨c1, c2⟩ := cl M1 T.f.X T.f.maps H q i j hi hj sp hsp o ho
    obtain ⟨a1, a2⟩ := l1 i j hi hj sp hsp o ho
    rw [q1 i j hi hj sp hsp o ho] at a1 a2
    refine ⟨_, s, fun nb => ?_, fun nb => ?_⟩
    · exact (advance_iff h hi hj (R.place i j hi hj sp hsp nb o ho) s (c1 nb) _).mp (a2 nb)
    · exact (beam_iff h Q.chamber.big hi hj (R.flying i j hi hj sp hsp nb o ho) s (c2 nb) _).mp (a1 nb)
  obtain ⟨h1, e1, _⟩ := id q
  obtain ⟨D', M', f1, f2, f3, f4, f5, f6⟩ := lands_ok Q.chamber (scheme_sound hz) nd R land e1
  obtain rfl := Res.ok.inj (f1.symm.trans l3)
  obtain rfl := Res.ok.inj (f2.symm.trans l4)
  refine ⟨⟨⟨A.alive.beams, f3.species, f3.once, f3.place, f4, f3.fields⟩, ?_, q3⟩, ?_, ?_⟩
  · intro a b ha hb sp hsp o ho
    have hid : sp.id ∈ ids := by rw [← f3.species a b]; exact List.mem_map_of_mem hsp
    have t := (f5 sp.id hid).mem_iff.mp (mem_tags.mpr ⟨a, b, ha, hb, sp, hsp, rfl, o, ho, rfl⟩)
    obtain ⟨i', j', hi', hj', sp', hsp', _, o', ho', et⟩ := mem_tags.mp (List.mem_filter.mp t).1
    obtain ⟨v, _, p2, p3⟩ := land i' j' hi' hj' sp' hsp' o' ho'
    have w : 0 < (S1.s.heap o'.tag).weight := wt i' j' hi' hj' sp' hsp' o' ho'
    show 0 < (T.f.s.heap o.tag).weight
    rw [← et]
    by_cases c : G.b.isBeam sp'.id
    · rw [p3 c]; exact w
    · rw [p2 c]; exact w
  · intro id hid nb
    refine (f6 id hid nb).trans ((injects_tags Q.chamber nd A.alive I hid).trans (List.Perm.of_eq ?_))
    have : injected G.b new id = [] := by
      unfold injected
      rw [List.flatMap_eq_nil_iff]
      intro q _
      exact I.2.1 q.1 q.2 id nb
    rw [this, List.append_nil]
    rfl
  · intro id hid _
    exact (f5 id hid).trans ((injects_tags Q.chamber nd A.alive I hid).filter _)

/-- C130, the step can be completed: whatever push and collisions have made of the velocities. -/
theorem C130_next_partial (hz : Scheme G.full.env.dist) (n : NotTA G.full) {ids : List Nat} (nd : ids.Nodup) {S : GState} (A : GAlive G ids S)
    {t : ℝ} {rnd : Nat → Nat → Nat → Nat → ℝ × ℝ} {new : Nat → Nat → Nat → List Nat} {S1 : BState} (U : Uniform01 rnd) (I : Injects G.b t rnd new S.b S1)
    (so : Sortable G ids (S.after S1)) (cl : ClearAll G (S.after S1)) {M1 : Solvers ℝ} {X : Nat → Nat → Mem ℝ} {maps : Nat → Nat → Coll.Maps}
    {H : Nat → Nat → Nat → Part ℝ} (q : Speeds G.full (S.after S1) M1 X maps H) : ∃ s, GStep G t S ⟨⟨s, X, maps⟩, S1.bunch⟩ := by
  have h : Chamber G.full.env := Q.chamber.chamber
  obtain ⟨R, wt, mp⟩ := after_ready Q nd A U I
  obtain ⟨q1, q2, q3⟩ := gspeeds Q nd R wt mp so q
  have P : ∀ t, ∃ b, (∀ i j, i < G.full.env.domR → j < G.full.env.domZ → ∀ sp ∈ S1.s.D i j, ∀ o ∈ sp.parts, o.tag = t →
      (¬ G.b.isBeam sp.id → b = landed G.full.env (S1.s.heap t) (vel (H i j t))) ∧ (G.b.isBeam sp.id → b = beamLanded G.full.env (S1.s.heap t) (vel (H i j t)))) ∧
      ((∀ i j, i < G.full.env.domR → j < G.full.env.domZ → ∀ sp ∈ S1.s.D i j, ∀ o ∈ sp.parts, o.tag ≠ t) → b = S1.s.heap t) := by
    intro t
    by_cases c : ∃ i j, i < G.full.env.domR ∧ j < G.full.env.domZ ∧ ∃ sp ∈ S1.s.D i j, ∃ o ∈ sp.parts, o.tag = t
    · obtain ⟨i, j, hi, hj, sp, hsp, o, ho, rfl⟩ := c
      by_cases nb : G.b.isBeam sp.id
      · refine ⟨beamLanded G.full.env (S1.s.heap o.tag) (vel (H i j o.tag)), ?_, fun k => absurd rfl (k i j hi hj sp hsp o ho)⟩
        intro i' j' hi' hj' sp' hsp' o' ho' et
        obtain ⟨rfl, rfl, ei⟩ := once_place R.species R.once hi' hj' hi hj hsp' hsp ho' ho et
        rw [ei]
        exact ⟨fun k => absurd nb k, fun _ => rfl⟩
      · refine ⟨landed G.full.env (S1.s.heap o.tag) (vel (H i j o.tag)), ?_, fun k => absurd rfl (k i j hi hj sp hsp o ho)⟩
        intro i' j' hi' hj' sp' hsp' o' ho' et
        obtain ⟨rfl, rfl, ei⟩ := once_place R.species R.once hi' hj' hi hj hsp' hsp ho' ho et
        rw [ei]
        exact ⟨fun _ => rfl, fun k => absurd k nb⟩
    · exact ⟨S1.s.heap t, fun i j hi hj sp hsp o ho et => absurd ⟨i, j, hi, hj, sp, hsp, o, ho, et⟩ c, fun _ => rfl⟩
  choose heap hp hn using P
  have land : ∀ i j, i < G.full.env.domR → j < G.full.env.domZ → ∀ sp ∈ S1.s.D i j, ∀ o ∈ sp.parts, ∃ v, v.length2 < G.full.env.c ^ 2 ∧
      (¬ G.b.isBeam sp.id → heap o.tag = landed G.full.env (S1.s.heap o.tag) v) ∧ (G.b.isBeam sp.id → heap o.tag = beamLanded G.full.env (S1.s.heap o.tag) v) := by
    intro i j hi hj sp hsp o ho
    exact ⟨_, q2 n i j hi hj sp hsp o ho, hp o.tag i j hi hj sp hsp o ho rfl⟩
  obtain ⟨h1, e1, _⟩ := id q
  obtain ⟨D', M', f1, f2, _⟩ := lands_ok Q.chamber (scheme_sound hz) nd R land e1
  refine ⟨⟨M', heap, D'⟩, rnd, new, S1, M1, H, U, I, q, ⟨?_, fun a k => hn a k, f1, f2⟩, rfl⟩
  intro i j hi hj sp hsp o ho
  have s := q2 n i j hi hj sp hsp o ho
  obtain ⟨c1, c2⟩ := cl M1 X maps H q i j hi hj sp hsp o ho
  obtain ⟨p1, p2⟩ := hp o.tag i j hi hj sp hsp o ho rfl
  rw [q1 i j hi hj sp hsp o ho]
  constructor
  · intro nb
    exact (beam_iff h Q.chamber.big hi hj (R.flying i j hi hj sp hsp nb o ho) s (c2 nb) _).mpr (p2 nb)
  · intro nb
    exact (advance_iff h hi hj (R.place i j hi hj sp hsp nb o ho) s (c1 nb) _).mpr (p1 nb)

/-- C130: without collisions, fields and push of every step are defined after every injection. -/
theorem C130_speeds {ids : List Nat} (hx : ExtWorks G.full) (hc : G.full.coll = none) {S : FState} (A : BReady G.b ids S.s) :
    ∃ M1 X H, Speeds G.full S M1 X S.maps H := by
  have h : Chamber G.full.env := Q.chamber.chamber
  obtain ⟨m, W⟩ := A.fields
  obtain ⟨M1, m1, e1, W1, keep⟩ := maxwell_ok G.full.env.p h.div W
  have ex : ∀ i j, ∃ x, i < G.full.env.domR → j < G.full.env.domZ → G.full.applied i j (S.X i j) x := by
    intro i j
    by_cases c : i < G.full.env.domR ∧ j < G.full.env.domZ
    · unfold Full.applied
      cases ho : G.full.ext with
      | none => exact ⟨_, fun _ _ => rfl⟩
      | some o =>
        obtain ⟨⟨b1, b2, _⟩, c1, c2, _⟩ := h.div.bounds c.1 c.2
        have p1 : (domPar G.full.env.p G.full.env.domR G.full.env.domZ i j).nr = hgt G.full.env.p.nr G.full.env.domR i := by rw [domPar_eq h.div]; exact winPar_nr ..
        have p2 : (domPar G.full.env.p G.full.env.domR G.full.env.domZ i j).nz = hgt G.full.env.p.nz G.full.env.domZ j := by rw [domPar_eq h.div]; exact winPar_nz ..
        have r3 := h.div.r3
        have z3 := h.div.z3
        obtain ⟨x, e⟩ := apply_total (domPar G.full.env.p G.full.env.domR G.full.env.domZ i j) (by omega) (by omega) (by omega) (by omega) o (hx o ho) (S.X i j)
        exact ⟨x, fun _ _ => e⟩
    · exact ⟨S.X i j, fun hi hj => absurd ⟨hi, hj⟩ c⟩
  choose X hX using ex
  have P : ∀ t, ∃ b, ∀ i j, i < G.full.env.domR → j < G.full.env.domZ → ∀ sp ∈ S.s.D i j, ∀ o ∈ sp.parts, o.tag = t →
      ∃ v, G.full.pushed i j (M1 i j) (X i j) sp.id (S.s.heap t) v ∧ b = setVel (S.s.heap t) v := by
    intro t
    by_cases c : ∃ i j, i < G.full.env.domR ∧ j < G.full.env.domZ ∧ ∃ sp ∈ S.s.D i j, ∃ o ∈ sp.parts, o.tag = t
    · obtain ⟨i, j, hi, hj, sp, hsp, o, ho, rfl⟩ := c
      obtain ⟨v, p1, p2⟩ := each_pushed Q A hi hj hsp ho (M1 i j) (X i j)
      refine ⟨setVel (S.s.heap o.tag) v, ?_⟩
      intro i' j' hi' hj' sp' hsp' o' ho' et
      obtain ⟨rfl, rfl, ei⟩ := once_place A.species A.once hi' hj' hi hj hsp' hsp ho' ho et
      exact ⟨v, by rw [ei]; exact (p1 v).mpr rfl, rfl⟩
    · exact ⟨S.s.heap t, fun i j hi hj sp hsp o ho et => absurd ⟨i, j, hi, hj, sp, hsp, o, ho, et⟩ c⟩
  choose h1 hh using P
  refine ⟨M1, X, fun _ _ => h1, h1, e1, hX, fun i j hi hj sp hsp o ho => hh o.tag i j hi hj sp hsp o ho rfl, fun i j _ _ => ?_⟩
  unfold Full.collided
  rw [hc]
  exact ⟨rfl, rfl⟩

/-- In an undivided chamber in which light travels at most half a cell per step no particle arrives exactly at a border or on the axis. -/
theorem clear_all (n : NotTA G.full) (h1 : G.full.env.domR = 1) (h2 : G.full.env.domZ = 1) (hc : HalfCell G.full.env) {ids : List Nat} (nd : ids.Nodup) {S : FState}
    (A : BReady G.b ids S.s) (wt : Each G.full S fun _ _ _ t => 0 < (S.s.heap t).weight)
    (mp : ∀ i j, i < G.full.env.domR → j < G.full.env.domZ → (S.maps i j).Shape (G.full.place i j).nr (G.full.place i j).nz)
    (so : Sortable G ids S) : ClearAll G S := by
  intro M1 X maps H q i j hi hj sp hsp o ho
  obtain ⟨_, q2, _⟩ := gspeeds Q nd A wt mp so q
  have p2 : (vel (H i j o.tag)).length2 < G.full.env.c ^ 2 := q2 n i j hi hj sp hsp o ho
  have h : Chamber G.full.env := Q.chamber.chamber
  have dt : 0 < G.full.env.p.dt := h.good.dt
  have ct : 0 < G.full.env.c * G.full.env.p.dt := mul_pos h.c dt
  have i0 : i = 0 := by omega
  have j0 : j = 0 := by omega
  show (_ → Clear G.full.env i j (S.s.heap o.tag) (vel (H i j o.tag))) ∧ (_ → landR G.full.env (S.s.heap o.tag) (vel (H i j o.tag)) ≠ 0)
  generalize vel (H i j o.tag) = v' at p2 ⊢
  have sq : (v'.x * G.full.env.p.dt) ^ 2 + (v'.y * G.full.env.p.dt) ^ 2 + (v'.z * G.full.env.p.dt) ^ 2 < (G.full.env.c * G.full.env.p.dt) ^ 2 := by
    unfold Vec3.length2 at p2
    have := mul_lt_mul_of_pos_right p2 (pow_pos dt 2)
    nlinarith
  constructor
  · intro nb
    have ha : InPlace G.full.env i j (S.s.heap o.tag) := A.place i j hi hj sp hsp nb o ho
    generalize S.s.heap o.tag = a at ha ⊢
    subst i0 j0
    have q1 := ha.r1
    have q2 := ha.z1
    unfold Clear
    rw [low_zero, low_zero, Nat.cast_zero, zero_mul, zero_mul]
    constructor
    · have := radius_change (r := a.posR) (u := v'.x * G.full.env.p.dt) (v := v'.y * G.full.env.p.dt) (by linarith [hc.1]) ct.le
        (by nlinarith [sq_nonneg (v'.z * G.full.env.p.dt)])
      rw [abs_lt] at this
      unfold landR
      rw [ha.phi, zero_add]
      intro e
      rw [e] at this
      linarith [hc.1]
    · have := abs_lt_of_sq_lt_sq (show (v'.z * G.full.env.p.dt) ^ 2 < (G.full.env.c * G.full.env.p.dt) ^ 2 by
        nlinarith [sq_nonneg (v'.x * G.full.env.p.dt), sq_nonneg (v'.y * G.full.env.p.dt)]) ct.le
      rw [abs_lt] at this
      unfold landZ
      intro e
      linarith [hc.2]
  · intro nb
    have ha : Ready G.full.env i j (S.s.heap o.tag) := A.flying i j hi hj sp hsp nb o ho
    generalize S.s.heap o.tag = a at ha ⊢
    have half : G.full.env.p.dr / 2 ≤ a.posR := by have := ha.reach.half; rwa [geom_eq h] at this
    have := radius_change (r := a.posR) (u := v'.x * G.full.env.p.dt) (v := v'.y * G.full.env.p.dt) (by linarith [hc.1]) ct.le
        (by nlinarith [sq_nonneg (v'.z * G.full.env.p.dt)])
    rw [abs_lt] at this
    unfold landR
    rw [ha.phi, zero_add]
    intro e
    rw [e] at this
    linarith [hc.1]

/-! ### Runs -/

/-- What is known of every step of such a run. -/
theorem single_step (hz : Scheme G.full.env.dist) (n : NotTA G.full) (h1 : G.full.env.domR = 1) (h2 : G.full.env.domZ = 1) (hc : HalfCell G.full.env)
    (nr : G.full.coll ≠ none → Narrow G) {ids : List Nat} (nd : ids.Nodup) {S T : GState} (A : GAlive G ids S) {t : ℝ}
    (few : G.full.coll ≠ none → ∀ rnd new S1, Uniform01 rnd → Injects G.b t rnd new S.b S1 → (ids.flatMap (tagsOf G.full.env S1.s.D)).length < 2 ^ 24)
    (st : GStep G t S T) : GAlive G ids T ∧ ∀ id ∈ ids, ¬ G.b.isBeam id → (tagsOf G.full.env T.f.s.D id).Perm (tagsOf G.full.env S.f.s.D id) := by
  obtain ⟨rnd, new, S1, M1, H, U, I, q, l, _⟩ := st
  have so : Sortable G ids (S.after S1) := fun c => C130_sortable_partial Q (nr c) nd A U I (few c rnd new S1 U I) c
  obtain ⟨R, wt, mp⟩ := after_ready Q nd A U I
  obtain ⟨a, b, _⟩ := C130_step_partial Q hz n nd A U I so (clear_all Q n h1 h2 hc nd R wt mp so) q l
  exact ⟨a, b⟩

/-- **C130** for an undivided chamber in which light travels at most half a cell per step, with any beams, any external fields, and without
collisions or, if the beams are narrow and the particles fewer than `2^24`, with one of the relativistic methods: every state of every run,
for all random numbers and any number of steps, is sane: all particles of the plasma between the walls, those of the beams that have not left
in the chamber, all slower than light and in their cells; none of the plasma lost, doubled or in another species. -/
theorem C130_single (hz : Scheme G.full.env.dist) (nta : NotTA G.full) (h1 : G.full.env.domR = 1) (h2 : G.full.env.domZ = 1) (hc : HalfCell G.full.env)
    (nr : G.full.coll ≠ none → Narrow G) {ids : List Nat} (nd : ids.Nodup) {S : GState} (A : GAlive G ids S) (n : Nat)
    (few : G.full.coll ≠ none → ∀ k S' rnd new S1, k < n → GRun G S k S' → Uniform01 rnd → Injects G.b (k * G.full.env.p.dt) rnd new S'.b S1 →
      (ids.flatMap (tagsOf G.full.env S1.s.D)).length < 2 ^ 24) {T : GState} (r : GRun G S n T) :
    GAlive G ids T ∧ ∀ id ∈ ids, ¬ G.b.isBeam id → (tagsOf G.full.env T.f.s.D id).Perm (tagsOf G.full.env S.f.s.D id) := by
  induction n generalizing T with
  | zero =>
    cases r
    exact ⟨A, fun _ _ _ => .refl _⟩
  | succ n ih =>
    cases r with
    | step ra rb =>
      obtain ⟨A1, p1⟩ := ih (fun c k S' rnd new S1 hk => few c k S' rnd new S1 (by omega)) ra
      obtain ⟨A2, p2⟩ := single_step Q hz nta h1 h2 hc nr nd A1 (fun c rnd new S1 U I => few c n _ rnd new S1 (by omega) ra U I) rb
      exact ⟨A2, fun id hid nb => (p2 id hid nb).trans (p1 id hid nb)⟩

/-- **C130**: without collisions such a run goes on for as many steps as wanted, whatever beams and external fields there are and whatever the
random numbers are. -/
theorem C130_external (hz : Scheme G.full.env.dist) (hn : G.full.coll = none) (hx : ExtWorks G.full) (h1 : G.full.env.domR = 1) (h2 : G.full.env.domZ = 1)
    (hc : HalfCell G.full.env) {ids : List Nat} (nd : ids.Nodup) {S : GState} (A : GAlive G ids S) (n : Nat) :
    (∃ T, GRun G S n T) ∧ ∀ T, GRun G S n T → ∀ rnd, Uniform01 rnd → ∃ new S1 s X,
      Injects G.b (n * G.full.env.p.dt) rnd new T.b S1 ∧ GStep G (n * G.full.env.p.dt) T ⟨⟨s, X, T.f.maps⟩, S1.bunch⟩ := by
  have nta : NotTA G.full := fun P K k => by rw [hn] at k; cases k
  have alive : ∀ n T, GRun G S n T → GAlive G ids T := fun n T r =>
    (C130_single Q hz nta h1 h2 hc (fun c => absurd hn c) nd A n (fun c => absurd hn c) r).1
  have go : ∀ n T, GRun G S n T → ∀ rnd, Uniform01 rnd → ∃ new S1 s X,
      Injects G.b (n * G.full.env.p.dt) rnd new T.b S1 ∧ GStep G (n * G.full.env.p.dt) T ⟨⟨s, X, T.f.maps⟩, S1.bunch⟩ := by
    intro n T r rnd U
    have A' := alive n T r
    obtain ⟨new, S1, I⟩ := C109_inject Q.chamber A'.alive (n * G.full.env.p.dt) U
    obtain ⟨R, wt, mp⟩ := after_ready Q nd A' U I
    have so : Sortable G ids (T.after S1) := fun c => absurd hn c
    obtain ⟨M1, X, H, q⟩ := C130_speeds Q hx hn R
    obtain ⟨s, st⟩ := C130_next_partial Q hz nta nd A' U I so (clear_all Q nta h1 h2 hc nd R wt mp so) q
    exact ⟨new, S1, s, X, I, st⟩
  refine ⟨?_, fun T r => go n T r⟩
  induction n with
  | zero => exact ⟨S, .start⟩
  | succ n ih =>
    obtain ⟨T, r⟩ := ih
    obtain ⟨_, _, _, _, _, st⟩ := go n T r (fun _ _ _ _ => (0, 0)) (fun _ _ _ _ => by norm_num)
    exact ⟨_, .step r st⟩

/-! ### Where it fails: beams and collisions in one build -/

/-- C130 fails for beams in a build with collisions: freshly injected particles get their axial cell number from their **radial** position
(`/repo/src/beamP.cpp:136-137`), and the collisions of the same step sort by this number.  A particle injected farther from the axis than the
domain and its border are long makes them write outside of their lists: undefined behaviour, whatever the fields, the velocities and the
random numbers of the collisions are. -/
theorem C130_collisions_fails (hc : G.full.coll ≠ none) {ids : List Nat} (nd : ids.Nodup) {S : GState} (A : GAlive G ids S)
    {t : ℝ} {rnd : Nat → Nat → Nat → Nat → ℝ × ℝ} {new : Nat → Nat → Nat → List Nat} {S1 : BState} (U : Uniform01 rnd) (I : Injects G.b t rnd new S.b S1)
    {i j : Nat} (hi : i < G.full.env.domR) (hj : j < G.full.env.domZ) {b : Beam.Conf ℝ} (hb : b ∈ G.beams) {a : Nat} (ha : a ∈ new i j b.id)
    (far : ((hgt G.full.env.p.nz G.full.env.domZ j : ℝ) + 2) * G.full.env.p.dz ≤ (S1.s.heap a).posR) :
    ¬ ∃ M1 X maps H, Speeds G.full (S.after S1) M1 X maps H := by
  rintro ⟨M1, X, maps, H, h1, _, _, e3, e4⟩
  have h : Chamber G.full.env := Q.chamber.chamber
  have dz : 0 < G.full.env.p.dz := h.good.geo.dz
  obtain ⟨z0, _, _, _, cz, small, _⟩ := injected_one Q (ids := ids) U I hi hj hb ha
  -- the species of the beam
  have hid : b.id ∈ (S.f.s.D i j).map (·.id) := by
    rw [show (S.f.s.D i j).map (·.id) = ids from A.alive.species i j]
    exact A.alive.beams b hb
  obtain ⟨sp, hsp, es⟩ := List.mem_map.mp hid
  have hsp1 : ({ sp with parts := sp.parts ++ (new i j sp.id).map fun a => ⟨0, 0, a⟩ } : Sp) ∈ S1.s.D i j := by
    rw [I.2.2.2.2.2.2.1]
    exact List.mem_map.mpr ⟨sp, hsp, rfl⟩
  have ho : (⟨0, 0, a⟩ : Prt) ∈ sp.parts ++ (new i j sp.id).map fun a => ⟨0, 0, a⟩ := by
    rw [es]
    exact List.mem_append_right _ (List.mem_map_of_mem ha)
  obtain ⟨v, _, eh⟩ := e3 i j hi hj _ hsp1 _ ho
  dsimp only at eh
  have c := e4 i j hi hj
  unfold Full.collided at c
  cases hk : G.full.coll with
  | none => exact hc hk
  | some k =>
    obtain ⟨M, P, K⟩ := k
    rw [hk] at c
    obtain ⟨els, ions, _, so, _⟩ := c
    refine sorted_fails (place_small Q.built hi hj) (A.maps i j hi hj) (List.mem_map_of_mem hsp1) (p := a) (List.mem_map.mpr ⟨_, ho, rfl⟩) ?_ ?_ so
    · rw [eh]
      show _ ≤ (S1.s.heap a).cellZ
      rw [geom_place Q.built]
      show low G.full.env.p.nz G.full.env.domZ j + hgt G.full.env.p.nz G.full.env.domZ j + 2 ≤ _
      have : ((hgt G.full.env.p.nz G.full.env.domZ j + 2 : Nat) : Int) ≤ ⌊(S1.s.heap a).posR / G.full.env.p.dz⌋ := by
        rw [Int.le_floor, le_div_iff₀ dz]
        exact_mod_cast far
      omega
    · rw [eh]
      exact small

/-- A domain that a bunch enters injects particles. -/
theorem enters_some {S S1 : BState} {t : ℝ} {rnd : Nat → Nat → Nat → Nat → ℝ × ℝ} {new : Nat → Nat → Nat → List Nat} (U : Uniform01 rnd)
    (I : Injects G.b t rnd new S S1) {i : Nat} (hi : i < G.full.env.domR) {b : Beam.Conf ℝ} (hb : b ∈ G.beams)
    (wide : (low G.full.env.p.nr G.full.env.domR i : ℝ) * G.full.env.p.dr < b.radius) (en : Beam.Entering b (S.bunch i 0 b.id) t)
    (am : b.bunches ≤ b.amount) : new i 0 b.id ≠ [] := by
  intro k
  have C := Q.chamber
  have h : Chamber G.full.env := C.chamber
  have dr : 0 < G.full.env.p.dr := h.good.geo.dr
  have hj : 0 < G.full.env.domZ := h.div.z1
  have set : Beam.Setting G.full.env.e.pi G.full.env.p.dt b (G.full.env.geom i 0) (fun _ => rnd i 0 b.id) := beam_setting C hb hi hj U
  have z0 : (G.full.env.geom i 0).z0 = 0 := by rw [geom_eq h]; exact low_zero _ _
  have reach : ((G.full.env.geom i 0).r0 : ℝ) * (G.full.env.geom i 0).dr < b.radius := by rw [geom_eq h]; exact wide
  obtain ⟨s', e', y, _⟩ := Beam.manage_spec set t 0 ⟨S.bunch i 0 b.id, []⟩
  obtain ⟨nw, q1, q2, _⟩ := y z0 reach en
  have e : Beam.manage G.full.env.e.pi G.full.env.p.dt b (G.full.env.geom i 0) t (rnd i 0 b.id) ⟨S.bunch i 0 b.id, []⟩ =
      .ok ⟨S1.bunch i 0 b.id, (new i 0 b.id).map S1.s.heap⟩ := I.1 i 0 hi hj b hb
  have es := Res.ok.inj (e.symm.trans e')
  rw [← es, k] at q1
  have : nw = [] := by simpa using q1.symm
  rw [this] at q2
  obtain ⟨g1, _, _⟩ := C.beams b hb
  obtain ⟨⟨b1, _⟩, _⟩ := h.div.bounds hi hj
  have edge : (low G.full.env.p.nr G.full.env.domR i : ℝ) * G.full.env.p.dr < Beam.beamEdge b (G.full.env.geom i 0) := by
    rw [geom_eq h]
    refine lt_min wide (mul_lt_mul_of_pos_right ?_ dr)
    exact_mod_cast (by omega : low G.full.env.p.nr G.full.env.domR i < low G.full.env.p.nr G.full.env.domR i + hgt G.full.env.p.nr G.full.env.domR i)
  have pos : 0 < Beam.macroPerStep b (G.full.env.geom i 0) G.full.env.p.dt := by
    have n1 : (1 : ℝ) ≤ ((b.amount / b.bunches : Nat) : ℝ) := by
      exact_mod_cast Nat.div_pos am g1.bunches
    unfold Beam.macroPerStep
    refine mul_pos (mul_pos (by linarith) (div_pos ?_ g1.radius)) (div_pos h.good.dt (div_pos g1.length g1.velocity))
    rw [geom_eq h] at edge ⊢
    exact sub_pos.mpr edge
  rw [List.length_nil, Nat.cast_zero] at q2
  linarith

/-- C130 fails, in a divided chamber for **all** random numbers: when a bunch enters and reaches a row of domains farther from the axis than a
domain of the first column and its border are long, the step cannot be made. -/
theorem C130_rows_fails (hc : G.full.coll ≠ none) {ids : List Nat} (nd : ids.Nodup) {S : GState} (A : GAlive G ids S) {t : ℝ} {i : Nat}
    (hi : i < G.full.env.domR) {b : Beam.Conf ℝ} (hb : b ∈ G.beams) (wide : (low G.full.env.p.nr G.full.env.domR i : ℝ) * G.full.env.p.dr < b.radius)
    (en : Beam.Entering b (S.bunch i 0 b.id) t) (am : b.bunches ≤ b.amount)
    (far : ((hgt G.full.env.p.nz G.full.env.domZ 0 : ℝ) + 2) * G.full.env.p.dz ≤ low G.full.env.p.nr G.full.env.domR i * G.full.env.p.dr + G.full.env.p.dr / 2) :
    ¬ ∃ T, GStep G t S T := by
  rintro ⟨T, rnd, new, S1, M1, H, U, I, q, _⟩
  have h : Chamber G.full.env := Q.chamber.chamber
  obtain ⟨a, ha⟩ := List.exists_mem_of_ne_nil _ (enters_some Q U I hi hb wide en am)
  have f := (injected_one Q (ids := ids) U I hi h.div.z1 hb ha).2.2.1.rlo
  rw [geom_eq h] at f
  exact C130_collisions_fails Q hc nd A U I hi h.div.z1 hb ha (far.trans f) ⟨M1, _, _, H, q⟩

/-- ... and in any chamber for random numbers that place the particles that far from the axis. -/
theorem C130_numbers_fails (hc : G.full.coll ≠ none) {ids : List Nat} (nd : ids.Nodup) {S : GState} (A : GAlive G ids S) {t : ℝ} {i : Nat}
    (hi : i < G.full.env.domR) {b : Beam.Conf ℝ} (hb : b ∈ G.beams) (wide : (low G.full.env.p.nr G.full.env.domR i : ℝ) * G.full.env.p.dr < b.radius)
    (en : Beam.Entering b (S.bunch i 0 b.id) t) (am : b.bunches ≤ b.amount) {rnd : Nat → Nat → Nat → Nat → ℝ × ℝ} (U : Uniform01 rnd)
    (far : ∀ k, ((hgt G.full.env.p.nz G.full.env.domZ 0 : ℝ) + 2) * G.full.env.p.dz ≤
      Beam.domainRadius b (G.full.env.geom i 0) * (rnd i 0 b.id k).1 + G.full.env.p.dr / 2 + low G.full.env.p.nr G.full.env.domR i * G.full.env.p.dr) :
    (∃ new S1, Injects G.b t rnd new S.b S1) ∧ ∀ new S1, Injects G.b t rnd new S.b S1 → ¬ ∃ M1 X maps H, Speeds G.full (S.after S1) M1 X maps H := by
  have h : Chamber G.full.env := Q.chamber.chamber
  refine ⟨C109_inject Q.chamber A.alive t U, fun new S1 I => ?_⟩
  obtain ⟨a, ha⟩ := List.exists_mem_of_ne_nil _ (enters_some Q U I hi hb wide en am)
  obtain ⟨_, _, _, _, _, _, k, e⟩ := injected_one Q (ids := ids) U I hi h.div.z1 hb ha
  exact C130_collisions_fails Q hc nd A U I hi h.div.z1 hb ha (by rw [e]; exact far k)

/-- C130 fails where the sorting works, too: a particle injected at least two cells (of length `dz`) from the axis is sorted into, and collides
in, a cell farther down the chamber than it is. -/
theorem C130_cell_fails (nr : Narrow G) {ids : List Nat} (nd : ids.Nodup) {S : GState} (A : GAlive G ids S)
    {t : ℝ} {rnd : Nat → Nat → Nat → Nat → ℝ × ℝ} {new : Nat → Nat → Nat → List Nat} {S1 : BState} (U : Uniform01 rnd) (I : Injects G.b t rnd new S.b S1)
    (few : (ids.flatMap (tagsOf G.full.env S1.s.D)).length < 2 ^ 24) (hc : G.full.coll ≠ none) {b : Beam.Conf ℝ} (hb : b ∈ G.beams)
    (name : G.full.name b.id ≠ "ions" ∧ G.full.name b.id ≠ "Ions") {a : Nat} (ha : a ∈ new 0 0 b.id) (far : 2 * G.full.env.p.dz ≤ (S1.s.heap a).posR)
    {h1 : Nat → Part ℝ} (same : ∀ p, (h1 p).cellR = (S1.s.heap p).cellR ∧ (h1 p).cellZ = (S1.s.heap p).cellZ)
    {m' : Coll.Maps} {els ions : Nat → Nat → List Nat}
    (so : Coll.Sorted (G.full.place 0 0) (G.full.species S1.s.D 0 0) h1 (S.f.maps 0 0) m' els ions) :
    ∃ r z, r < (G.full.place 0 0).nr ∧ z < (G.full.place 0 0).nz ∧ a ∈ els r z ∧ (S1.s.heap a).posZ < z * G.full.env.p.dz := by
  have h : Chamber G.full.env := Q.chamber.chamber
  have dz : 0 < G.full.env.p.dz := h.good.geo.dz
  have hi : 0 < G.full.env.domR := h.div.r1
  have hj : 0 < G.full.env.domZ := h.div.z1
  have bd := (C130_sortable_partial Q nr nd A U I few hc).2
  obtain ⟨z0, _, f, _, cz, _⟩ := injected_one Q (ids := ids) U I hi hj hb ha
  have hid : b.id ∈ (S.f.s.D 0 0).map (·.id) := by
    rw [show (S.f.s.D 0 0).map (·.id) = ids from A.alive.species 0 0]
    exact A.alive.beams b hb
  obtain ⟨sp, hsp, es⟩ := List.mem_map.mp hid
  have hsp1 : ({ sp with parts := sp.parts ++ (new 0 0 sp.id).map fun a => ⟨0, 0, a⟩ } : Sp) ∈ S1.s.D 0 0 := by
    rw [I.2.2.2.2.2.2.1]
    exact List.mem_map.mpr ⟨sp, hsp, rfl⟩
  have ho : (⟨0, 0, a⟩ : Prt) ∈ sp.parts ++ (new 0 0 sp.id).map fun a => ⟨0, 0, a⟩ := by
    rw [es]
    exact List.mem_append_right _ (List.mem_map_of_mem ha)
  have ba := bd 0 0 hi hj _ hsp1 _ ho
  have ba : Coll.Bound _ _ _ _ (S1.s.heap a) := ba
  have bb : ∀ s ∈ G.full.species S1.s.D 0 0, ∀ p ∈ s.particles, Coll.Bound (G.full.place 0 0).r0 (G.full.place 0 0).z0 (G.full.place 0 0).nr (G.full.place 0 0).nz (h1 p) := by
    intro s hs p hp
    obtain ⟨sp', hsp', rfl⟩ := List.mem_map.mp hs
    obtain ⟨o, ho', rfl⟩ := List.mem_map.mp hp
    have := bd 0 0 hi hj sp' hsp' o ho'
    unfold Coll.Bound at this ⊢
    rw [(same o.tag).1, (same o.tag).2]
    exact this
  have perm := fun {i j} => Coll.sorted_perm (place_small Q.built hi hj) bb (A.maps 0 0 hi hj) so (i := i) (j := j)
  rw [geom_place Q.built] at ba perm ⊢
  unfold Coll.Bound at ba
  dsimp only at ba perm ⊢
  rw [low_zero, low_zero] at ba perm
  obtain ⟨⟨_, b2⟩, _, b4⟩ := ba
  rw [Nat.zero_add] at b2 b4
  refine ⟨(S1.s.heap a).cellR, (S1.s.heap a).cellZ, b2, b4, ?_, ?_⟩
  · refine (perm b2 b4).2.symm.mem_iff.mp ?_
    unfold Coll.boundTo
    rw [List.mem_filter, List.mem_flatMap]
    refine ⟨⟨_, List.mem_filter.mpr ⟨List.mem_map_of_mem hsp1, ?_⟩, List.mem_map.mpr ⟨_, ho, rfl⟩⟩, ?_⟩
    · dsimp only
      rw [es]
      simp [name.1, name.2]
    · rw [(same a).1, (same a).2, Nat.zero_add, Nat.zero_add]
      simp
  · have z := f.zhi
    rw [geom_eq h] at z
    dsimp only at z
    obtain ⟨g1, g2, g3⟩ := Q.chamber.beams b hb
    have vt : b.velocity * G.full.env.p.dt ≤ G.full.env.p.dz := by
      have h1 : b.velocity * G.full.env.p.dt ≤ G.full.env.c * G.full.env.p.dt := mul_le_mul_of_nonneg_right (le_of_lt g3) h.good.dt.le
      linarith [h.cz]
    have two : (2 : Int) ≤ ⌊(S1.s.heap a).posR / G.full.env.p.dz⌋ := by
      rw [Int.le_floor, le_div_iff₀ dz]
      exact_mod_cast far
    have : 2 ≤ (S1.s.heap a).cellZ := by omega
    have : (2 : ℝ) * G.full.env.p.dz ≤ (S1.s.heap a).cellZ * G.full.env.p.dz := mul_le_mul_of_nonneg_right (by exact_mod_cast this) dz.le
    linarith

end

/-! ### Non-vacuity -/

namespace Mixed

/-- A chamber of 4 × 4 cells, twice as high as long, with electrons (7) and a beam (8). -/
noncomputable def env : Env := { exEnv 1 1 1 with p := ⟨1, 1/2, 1/4, 1, 0, 4, 4, ⟨true, true, true, true⟩⟩ }

noncomputable def all (ext : Option (Ext.Obj ℝ)) (M : Option Coll.Method) (r : ℝ) : GEnv :=
  ⟨⟨env, ext, M.map fun M => (M, ⟨⟨3, 1, 1, 1, 1, 1, 1⟩, 1, 1/4⟩, ⟨1, 2000, -1, 1⟩), fun id => if id = 8 then "beam" else "electrons"⟩, [exBeam r]⟩

noncomputable def state : GState where
  f := {
    s := ⟨fun _ _ => exMedium, fun t => if t = 0 then exPart (3/2) (5/4) (1/2) (1/3) 1 2 else exPart (1/2) (5/4) (-2/3) (1/3) 0 2,
      fun _ _ => [⟨7, [⟨0, 0, 0⟩]⟩, ⟨8, [⟨0, 0, 1⟩]⟩]⟩
    X := fun _ _ _ _ _ => 0
    maps := fun _ _ => Coll.newMaps 4 4 }
  bunch := fun _ _ _ => 0

theorem chamber : Chamber env where
  r0 := rfl
  walls := rfl
  div := ⟨ex_div1.r1, ex_div1.z1, ex_div1.r2, ex_div1.z2, ex_div1.r3, ex_div1.z3, ex_div1.r4, ex_div1.z4, ex_div1.shape⟩
  good := by refine ⟨⟨?_, ?_, ?_, ?_⟩, ?_, ?_, ?_⟩ <;> norm_num [ctxOf, env, exEnv]
  c := by norm_num [env, exEnv]
  cr := by norm_num [env, exEnv]
  cz := by norm_num [env, exEnv]
  mass := fun _ => by norm_num [env, exEnv]

theorem geom0 : env.geom 0 0 = ⟨1, 1/2, 0, 0, 4, 4⟩ := by
  rw [geom_eq chamber]
  norm_num [env, exEnv, low, hgt]

theorem built (ext : Option (Ext.Obj ℝ)) (M : Option Coll.Method) {r : ℝ} (hr : 0 < r) : GBuilt (all ext M r) where
  built := {
    chamber := chamber
    pusher := .inl rfl
    small := by norm_num [all, env, exEnv]
    light := by
      intro M' P K h
      cases M with
      | none => cases h
      | some M =>
        injection h with h
        injection h with _ h
        injection h with h _
        subst h
        rfl
    physical := by
      intro M' P K h i j hi hj
      obtain rfl : i = 0 := by have : i < 1 := hi; omega
      obtain rfl : j = 0 := by have : j < 1 := hj; omega
      cases M with
      | none => cases h
      | some M =>
        injection h with h
        injection h with _ h
        injection h with h1 h2
        subst h1 h2
        have g : (all ext (some M) r).full.place 0 0 = ⟨1, 1/2, 0, 0, 4, 4⟩ := by
          show (⟨(env.geom 0 0).dr, (env.geom 0 0).dz, (env.geom 0 0).r0, (env.geom 0 0).z0, (env.geom 0 0).nr, (env.geom 0 0).nz⟩ : Coll.Place) = _
          rw [geom0]
        rw [g]
        constructor <;> norm_num }
  chamber := {
    chamber := chamber
    beams := by
      intro b hb
      obtain rfl := List.mem_singleton.mp hb
      refine ⟨⟨?_, hr, ?_, ?_, ?_, ?_, ?_⟩, ?_, ?_⟩ <;> norm_num [exBeam, GEnv.b, all, env, exEnv]
    ids := List.nodup_singleton _
    big := by norm_num [GEnv.b, all, env]
    cells := by norm_num [GEnv.b, all, env] }

theorem isBeam (ext : Option (Ext.Obj ℝ)) (M : Option Coll.Method) {r : ℝ} {id : Nat} : (all ext M r).b.isBeam id ↔ id = 8 := by
  unfold BEnv.isBeam GEnv.b all
  simp [exBeam, eq_comm]

theorem alive (ext : Option (Ext.Obj ℝ)) (M : Option Coll.Method) {r : ℝ} (hr : 0 < r) : GAlive (all ext M r) [7, 8] state where
  alive := {
    beams := by
      intro b hb
      obtain rfl := List.mem_singleton.mp hb
      simp [exBeam]
    species := fun _ _ => rfl
    once := by
      have : [7, 8].flatMap (tagsOf env state.f.s.D) = [0, 1] := by rfl
      show ([7, 8].flatMap (tagsOf env state.f.s.D)).Nodup
      rw [this]
      decide
    place := by
      intro i j hi hj sp hsp nb o ho
      obtain rfl : i = 0 := by have : i < 1 := hi; omega
      obtain rfl : j = 0 := by have : j < 1 := hj; omega
      rcases List.mem_cons.mp hsp with rfl | k
      · obtain rfl := List.mem_singleton.mp ho
        show InPlace env 0 0 (exPart (3/2) (5/4) (1/2) (1/3) 1 2)
        refine ⟨rfl, ?_, ?_, ?_, ?_, ?_, ?_, ?_, ?_⟩
        · rw [geom0]
          constructor <;> norm_num [exPart]
        all_goals norm_num [env, exEnv, exPart, vel, Vec3.length2, Int.floor_eq_iff]
      · obtain rfl := List.mem_singleton.mp k
        exact absurd ((isBeam ext M).mpr rfl) nb
    flying := by
      intro i j hi hj sp hsp nb o ho
      obtain rfl : i = 0 := by have : i < 1 := hi; omega
      obtain rfl : j = 0 := by have : j < 1 := hj; omega
      rcases List.mem_cons.mp hsp with rfl | k
      · exact absurd ((isBeam ext M).mp nb) (by decide)
      · obtain rfl := List.mem_singleton.mp k
        obtain rfl := List.mem_singleton.mp ho
        show BeamPlace env 0 0 (exPart (1/2) (5/4) (-2/3) (1/3) 0 2)
        refine ⟨rfl, ?_, ?_, ?_, ?_, ?_⟩
        · rw [geom0]
          constructor <;> norm_num [exPart]
        all_goals norm_num [env, exEnv, exPart, vel, Vec3.length2, Int.floor_eq_iff]
    fields := ⟨exMedium, fun c hc i j x y _ => ⟨fun _ => rfl, fun _ => if_neg (fun k => by rw [k] at hc; exact (nomatch hc))⟩⟩ }
  weight := by
    intro i j _ _ sp hsp o ho
    show 0 < (if o.tag = 0 then exPart (3/2) (5/4) (1/2) (1/3) 1 2 else exPart (1/2) (5/4) (-2/3) (1/3) 0 2).weight
    split_ifs <;> norm_num [exPart]
  maps := by
    intro i j hi hj
    obtain rfl : i = 0 := by have : i < 1 := hi; omega
    obtain rfl : j = 0 := by have : j < 1 := hj; omega
    show Coll.Maps.Shape (env.geom 0 0).nr (env.geom 0 0).nz _
    rw [geom0]
    exact ⟨⟨rfl, rfl, rfl⟩, rfl, rfl, rfl⟩

theorem half : HalfCell env := by unfold HalfCell env exEnv; norm_num

/-- A beam and an external field, no collisions: the run goes on. -/
example (n : Nat) : ∃ T, GRun (all (some ⟨1, 3, [], [5]⟩) none 4) state n T :=
  (C130_external (built _ _ (by norm_num)) (.inr rfl) rfl (ext_works (el := "none") (mag := "const_z") (ep := []) (mp := [5])
    (fun o h => by injection h with h; subst h; rfl) (by simp)) rfl rfl half (by decide) (alive _ _ (by norm_num)) n).1

/-- A narrow beam, an external field and collisions: the states of the runs are sane. -/
example (n : Nat) (T : GState)
    (few : ∀ k S' rnd new S1, k < n → GRun (all (some ⟨1, 3, [], [5]⟩) (some .p12) 1) state k S' → Uniform01 rnd →
      Injects (all (some ⟨1, 3, [], [5]⟩) (some .p12) 1).b (k * (1/4)) rnd new S'.b S1 → ([7, 8].flatMap (tagsOf env S1.s.D)).length < 2 ^ 24)
    (r : GRun (all (some ⟨1, 3, [], [5]⟩) (some .p12) 1) state n T) : GAlive (all (some ⟨1, 3, [], [5]⟩) (some .p12) 1) [7, 8] T :=
  (C130_single (built _ _ (by norm_num)) (.inr rfl) (fun P K k => by injection k with k; injection k with k; cases k) rfl rfl half (fun _ b hb => by
    obtain rfl := List.mem_singleton.mp hb
    have e : hgt (all (some ⟨1, 3, [], [5]⟩) (some .p12) 1).full.env.p.nr 1 0 = 4 ∧ hgt (all (some ⟨1, 3, [], [5]⟩) (some .p12) 1).full.env.p.nz 1 0 = 4 := ⟨rfl, rfl⟩
    show (1 : ℝ) + 1 / 2 ≤ (4 : Nat) * 1 ∧ (1 : ℝ) + 1 / 2 ≤ (4 : Nat) * (1 / 2)
    norm_num) (by decide) (alive _ _ (by norm_num)) n (fun _ => few) r).1

/-- A beam as wide as the chamber and collisions: with random numbers like these the first step cannot be made. -/
example : (∃ new S1, Injects (all none (some .p12) 4).b 0 (fun _ _ _ _ => (3/4, 0)) new state.b S1) ∧
    ∀ new S1, Injects (all none (some .p12) 4).b 0 (fun _ _ _ _ => (3/4, 0)) new state.b S1 →
      ¬ ∃ M1 X maps H, Speeds (all none (some .p12) 4).full (state.after S1) M1 X maps H := by
  refine C130_numbers_fails (built none (some .p12) (by norm_num)) (by simp [all]) (by decide) (alive none (some .p12) (by norm_num)) (i := 0) Nat.one_pos
    (List.mem_singleton.mpr rfl) ?_ ?_ ?_ (fun _ _ _ _ => by norm_num) fun k => ?_
  · rw [low_zero]
    norm_num [exBeam]
  · show Beam.Entering (exBeam 4) 0 0
    unfold Beam.Entering Beam.bunchStart Beam.bunchEnd
    norm_num [exBeam, Beam.bunchStart]
  · norm_num [exBeam]
  · rw [show (all none (some .p12) 4).full.env.geom 0 0 = ⟨1, 1/2, 0, 0, 4, 4⟩ from geom0, low_zero]
    show (((4 : Nat) : ℝ) + 2) * (1 / 2) ≤ Beam.domainRadius (exBeam 4) ⟨1, 1/2, 0, 0, 4, 4⟩ * (3 / 4) + 1 / 2 + ((0 : Nat) : ℝ) * 1
    unfold Beam.domainRadius
    norm_num [exBeam]

end Mixed

end Pic
end Pico
