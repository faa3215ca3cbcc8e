import Verif.Lemmas.PicBeamStep
import Verif.Props.Pic
import Verif.Lemmas.Dump
import Verif.Spec.PicLaws

/-! # C109 — whole runs with beams -/

set_option linter.unusedSimpArgs false
set_option linter.unusedVariables false
set_option linter.unusedSectionVars false

namespace Pico
namespace Pic

open SMB Yee

section
variable {B : BEnv} (G : BeamChamber B)
include G

/-- The domains satisfy what the injection needs. -/
theorem beam_setting {b : Beam.Conf ℝ} (hb : b ∈ B.beams) {i j : Nat} (hi : i < B.env.domR) (hj : j < B.env.domZ)
    {rnd : Nat → Nat → Nat → Nat → ℝ × ℝ} (U : Uniform01 rnd) :
    Beam.Setting B.env.e.pi B.env.p.dt b (B.env.geom i j) (fun _ => rnd i j b.id) := by
  have h := G.chamber
  have dr : 0 < B.env.p.dr := h.good.geo.dr
  obtain ⟨g1, g2, g3⟩ := G.beams b hb
  obtain ⟨⟨b1, _, _, _, b5, b6⟩, _⟩ := h.div.bounds hi hj
  refine ⟨h.good.pi, h.good.dt, g1, g2, geom_good h hi hj, ?_, ?_, fun n k => U i j b.id k⟩
  · rw [geom_eq h]
    show 1 ≤ hgt B.env.p.nr B.env.domR i
    omega
  · rw [geom_eq h]
    refine le_trans (mul_le_mul_of_nonneg_right ?_ dr.le) G.cells
    have : low B.env.p.nr B.env.domR i + hgt B.env.p.nr B.env.domR i ≤ B.env.p.nr := by
      by_cases k : i = B.env.domR - 1
      · have := b5 k; omega
      · have := b6 k; omega
    have : ((low B.env.p.nr B.env.domR i + hgt B.env.p.nr B.env.domR i : Nat) : ℝ) ≤ B.env.p.nr := by exact_mod_cast this
    linarith

theorem fresh_ready {b : Beam.Conf ℝ} (hb : b ∈ B.beams) {i j : Nat} (hi : i < B.env.domR) (hj : j < B.env.domZ) (hz : (B.env.geom i j).z0 = 0)
    {a : Part ℝ} (f : Beam.Fresh b (B.env.geom i j) B.env.p.dt a) : Ready B.env i j a := by
  have h := G.chamber
  have dr : 0 < B.env.p.dr := h.good.geo.dr
  have dz : 0 < B.env.p.dz := h.good.geo.dz
  have dt : 0 < B.env.p.dt := h.good.dt
  obtain ⟨g1, g2, g3⟩ := G.beams b hb
  obtain ⟨_, c1, _⟩ := h.div.bounds hi hj
  have r1 := f.rlo
  have r2 := f.rhi
  have z1 := f.zlo
  have z2 := f.zhi
  have edge : Beam.beamEdge b (B.env.geom i j) ≤ _ := min_le_right _ _
  rw [geom_eq h] at r1 r2 z1 z2 edge hz
  dsimp only at r1 r2 z1 z2 edge hz
  have v := g1.velocity
  have vd : b.velocity * B.env.p.dt ≤ B.env.p.dz := le_trans (mul_le_mul_of_nonneg_right g3.le dt.le) h.cz
  have l0 : (0 : ℝ) ≤ low B.env.p.nr B.env.domR i * B.env.p.dr := mul_nonneg (Nat.cast_nonneg _) dr.le
  have two : (2 : ℝ) * B.env.p.dz ≤ hgt B.env.p.nz B.env.domZ j * B.env.p.dz := mul_le_mul_of_nonneg_right (by exact_mod_cast c1) dz.le
  refine ⟨f.phi, ?_, ?_⟩
  · rw [geom_eq h]
    push_cast at edge
    refine ⟨?_, ?_, ?_, ?_, ?_⟩
    · show B.env.p.dr / 2 ≤ _; linarith
    · show (low B.env.p.nr B.env.domR i : ℝ) * B.env.p.dr ≤ _; linarith
    · push_cast; linarith
    · show ((low B.env.p.nz B.env.domZ j : Nat) : ℝ) * B.env.p.dz ≤ _
      rw [hz]; push_cast; linarith
    · show _ < ((low B.env.p.nz B.env.domZ j + hgt B.env.p.nz B.env.domZ j : Nat) : ℝ) * B.env.p.dz
      rw [hz]; push_cast; linarith
  · unfold vel Vec3.length2
    dsimp only
    rw [f.velR, f.velPhi, f.velZ]
    nlinarith

end

/-- Appending to the species of one domain. -/
theorem parts_append (L : List Sp) (f : Nat → List Nat) (nd : (L.map Sp.id).Nodup) (x : Nat) :
    (((L.map fun sp => { sp with parts := sp.parts ++ (f sp.id).map fun a => (⟨0, 0, a⟩ : Prt) }).filter fun sp => sp.id = x).flatMap Sp.parts).map (·.tag) =
      ((L.filter fun sp => sp.id = x).flatMap Sp.parts).map (·.tag) ++ if x ∈ L.map Sp.id then f x else [] := by
  induction L with
  | nil => simp
  | cons a L ih =>
    rw [List.map_cons, List.nodup_cons] at nd
    obtain ⟨n1, n2⟩ := nd
    have ih := ih n2
    by_cases c : a.id = x
    · have no : x ∉ L.map Sp.id := by rw [← c]; exact n1
      rw [if_neg no, List.append_nil] at ih
      have e0 : (L.filter fun sp => sp.id = x) = [] := by
        rw [List.filter_eq_nil_iff]
        intro b hb k
        rw [decide_eq_true_eq] at k
        exact no (by rw [← k]; exact List.mem_map_of_mem hb)
      rw [e0] at ih
      rw [List.map_cons, List.filter_cons_of_pos (by simp [c]), List.flatMap_cons, List.map_append, ih, List.filter_cons_of_pos (by simp [c]), List.flatMap_cons, e0,
        if_pos (by rw [List.map_cons, c]; exact List.mem_cons_self)]
      simp [c, Function.comp_def]
    · rw [List.map_cons, List.filter_cons_of_neg (by simp [c]), ih, List.filter_cons_of_neg (by simp [c])]
      congr 1
      by_cases k : x ∈ L.map Sp.id
      · rw [if_pos k, if_pos (by rw [List.map_cons]; exact List.mem_cons_of_mem _ k)]
      · rw [if_neg k, if_neg]
        rw [List.map_cons, List.mem_cons]
        rintro (q | q)
        · exact c q.symm
        · exact k q

section
variable {B : BEnv} (G : BeamChamber B)
include G

/-- The particles after the injection. -/
theorem injects_tags {ids : List Nat} (nd : ids.Nodup) {S S1 : BState} {t : ℝ} {rnd : Nat → Nat → Nat → Nat → ℝ × ℝ} {new : Nat → Nat → Nat → List Nat}
    (A : BAlive B ids S) (I : Injects B t rnd new S S1) {id : Nat} (hid : id ∈ ids) :
    (tagsOf B.env S1.s.D id).Perm (tagsOf B.env S.s.D id ++ injected B new id) := by
  obtain ⟨_, _, _, _, _, _, eD, _⟩ := I
  unfold tagsOf injected
  rw [eD]
  have e : (fun q : Nat × Nat => (SMB.parts (fun i j => (S.s.D i j).map fun sp => { sp with parts := sp.parts ++ (new i j sp.id).map fun a => (⟨0, 0, a⟩ : Prt) })
      q.1 q.2 id).map (·.tag)) = fun q => (SMB.parts S.s.D q.1 q.2 id).map (·.tag) ++ new q.1 q.2 id := by
    funext q
    unfold SMB.parts
    rw [parts_append (S.s.D q.1 q.2) (new q.1 q.2) (by rw [A.species]; exact nd) id, if_pos (by rw [A.species]; exact hid)]
  rw [e]
  exact (List.flatMap_append_perm _ _ _).symm

/-- What the injection gives. -/
theorem injects_ready {ids : List Nat} (nd : ids.Nodup) {S S1 : BState} {t : ℝ} {rnd : Nat → Nat → Nat → Nat → ℝ × ℝ} {new : Nat → Nat → Nat → List Nat}
    (A : BAlive B ids S) (U : Uniform01 rnd) (I : Injects B t rnd new S S1) :
    BReady B ids S1.s ∧
    (∀ i j, i < B.env.domR → j < B.env.domZ → ∀ b ∈ B.beams, ∀ a ∈ new i j b.id, Beam.Fresh b (B.env.geom i j) B.env.p.dt (S1.s.heap a) ∧
      (B.env.geom i j).z0 = 0 ∧ Beam.Entering b (S.bunch i j b.id) t) ∧
    ∀ i j, i < B.env.domR → j < B.env.domZ → ∀ sp ∈ S.s.D i j, ∀ o ∈ sp.parts, S1.s.heap o.tag = S.s.heap o.tag := by
  have h := G.chamber
  have tags := fun {id : Nat} (hid : id ∈ ids) => injects_tags G nd A I hid
  obtain ⟨I1, I2, I3, I4, I5, I6, eD, eM⟩ := I
  have keep : ∀ i j, i < B.env.domR → j < B.env.domZ → ∀ sp ∈ S.s.D i j, ∀ o ∈ sp.parts, S1.s.heap o.tag = S.s.heap o.tag := by
    intro i j hi hj sp hsp o ho
    exact I6 _ fun i' j' id hi' hj' k => I5 i' j' hi' hj' id _ k i j hi hj sp hsp o ho rfl
  have fresh : ∀ i j, i < B.env.domR → j < B.env.domZ → ∀ b ∈ B.beams, ∀ a ∈ new i j b.id, Beam.Fresh b (B.env.geom i j) B.env.p.dt (S1.s.heap a) ∧
      (B.env.geom i j).z0 = 0 ∧ Beam.Entering b (S.bunch i j b.id) t := by
    intro i j hi hj b hb a ha
    obtain ⟨s', e, y, n, _⟩ := Beam.manage_spec (beam_setting G hb hi hj U) t 0 ⟨S.bunch i j b.id, []⟩
    have e' := I1 i j hi hj b hb
    have es := Res.ok.inj (e'.symm.trans e)
    by_cases c : (B.env.geom i j).z0 = 0 ∧ ((B.env.geom i j).r0 : ℝ) * (B.env.geom i j).dr < b.radius ∧ Beam.Entering b (S.bunch i j b.id) t
    · obtain ⟨nw, e1, _, _, f⟩ := y c.1 c.2.1 c.2.2
      rw [← es, List.nil_append] at e1
      exact ⟨f _ (by rw [← e1]; exact List.mem_map_of_mem ha), c.1, c.2.2⟩
    · have e1 := n c
      rw [← es] at e1
      have : new i j b.id = [] := List.map_eq_nil_iff.mp e1
      rw [this] at ha
      exact absurd ha List.not_mem_nil
  have mem : ∀ i j, ∀ sp1 ∈ S1.s.D i j, ∃ sp ∈ S.s.D i j, sp.id = sp1.id ∧ ∀ o ∈ sp1.parts, o ∈ sp.parts ∨ o.tag ∈ new i j sp.id := by
    intro i j sp1 h1
    rw [eD] at h1
    obtain ⟨sp, hsp, rfl⟩ := List.mem_map.mp h1
    refine ⟨sp, hsp, rfl, fun o ho => ?_⟩
    rcases List.mem_append.mp ho with k | k
    · exact .inl k
    · obtain ⟨a, ha, rfl⟩ := List.mem_map.mp k
      exact .inr ha
  refine ⟨⟨?_, ?_, ?_, ?_, ?_⟩, fresh, keep⟩
  · intro i j
    rw [eD]
    dsimp only
    rw [List.map_map]
    exact A.species i j
  · have nj : ∀ id, (injected B new id).Nodup := by
      intro id
      unfold injected
      rw [List.nodup_flatMap]
      refine ⟨fun q hq => I3 q.1 q.2 id (mem_allDoms.mp hq).1 (mem_allDoms.mp hq).2, ?_⟩
      refine List.Pairwise.imp_of_mem ?_ (nodup_idx2 _ _ _ _)
      intro q q' hq hq' ne
      refine List.disjoint_left.mpr fun x x1 x2 => ne ?_
      obtain ⟨a1, a2, _⟩ := I4 q.1 q.2 id q'.1 q'.2 id x (mem_allDoms.mp hq).1 (mem_allDoms.mp hq).2 (mem_allDoms.mp hq').1 (mem_allDoms.mp hq').2 x1 x2
      exact Prod.ext a1 a2
    have old : ∀ id id' x, x ∈ tagsOf B.env S.s.D id → x ∉ injected B new id' := by
      intro id id' x hx hx'
      obtain ⟨i, j, hi, hj, sp, hsp, _, o, ho, rfl⟩ := mem_tags.mp hx
      obtain ⟨q, hq, hx'⟩ := List.mem_flatMap.mp hx'
      exact I5 q.1 q.2 (mem_allDoms.mp hq).1 (mem_allDoms.mp hq).2 id' _ hx' i j hi hj sp hsp o ho rfl
    have dj : ∀ id id' x, x ∈ injected B new id → x ∈ injected B new id' → id = id' := by
      intro id id' x hx hx'
      obtain ⟨q, hq, hx⟩ := List.mem_flatMap.mp hx
      obtain ⟨q', hq', hx'⟩ := List.mem_flatMap.mp hx'
      exact (I4 q.1 q.2 id q'.1 q'.2 id' x (mem_allDoms.mp hq).1 (mem_allDoms.mp hq).2 (mem_allDoms.mp hq').1 (mem_allDoms.mp hq').2 hx hx').2.2
    have A1 := A.once
    rw [List.nodup_flatMap] at A1 ⊢
    obtain ⟨n1, n2⟩ := A1
    refine ⟨fun id hid => (tags hid).nodup_iff.mpr ?_, ?_⟩
    · rw [List.nodup_append']
      exact ⟨n1 id hid, nj id, List.disjoint_left.mpr fun x hx => old id id x hx⟩
    · have n3 := n2.and nd
      refine List.Pairwise.imp_of_mem ?_ n3
      rintro x y hx hy ⟨d1, ne⟩
      refine List.disjoint_left.mpr fun u u1 u2 => ?_
      rcases List.mem_append.mp ((tags hx).mem_iff.mp u1) with k | k <;> rcases List.mem_append.mp ((tags hy).mem_iff.mp u2) with k' | k'
      · exact List.disjoint_left.mp d1 k k'
      · exact old _ _ _ k k'
      · exact old _ _ _ k' k
      · exact ne (dj _ _ _ k k')
  · intro i j hi hj sp1 h1 nb o ho
    obtain ⟨sp, hsp, ei, m⟩ := mem i j sp1 h1
    have nb' : ¬ B.isBeam sp.id := by rw [ei]; exact nb
    rcases m o ho with k | k
    · rw [keep i j hi hj sp hsp o k]
      exact A.place i j hi hj sp hsp nb' o k
    · rw [I2 i j sp.id nb'] at k
      exact absurd k List.not_mem_nil
  · intro i j hi hj sp1 h1 nb o ho
    obtain ⟨sp, hsp, ei, m⟩ := mem i j sp1 h1
    have nb' : B.isBeam sp.id := by rw [ei]; exact nb
    rcases m o ho with k | k
    · rw [keep i j hi hj sp hsp o k]
      exact ready_of_place h (A.flying i j hi hj sp hsp nb' o k)
    · obtain ⟨b, hb, eb⟩ := nb'
      rw [← eb] at k
      obtain ⟨f, hz, _⟩ := fresh i j hi hj b hb _ k
      exact fresh_ready G hb hi hj hz f
  · rw [eM]
    exact A.fields

end

theorem collect_mem {α : Type _} {l : List (Res α)} {as : List α} (e : Beam.collect l = .ok as) {a : α} (ha : a ∈ as) : ∃ x ∈ l, x = .ok a := by
  induction l generalizing as with
  | nil =>
    obtain rfl := Res.ok.inj e
    exact absurd ha List.not_mem_nil
  | cons x l ih =>
    obtain ⟨y, e1, e2⟩ := Res.bind_ok e
    obtain ⟨ys, e3, e4⟩ := Res.bind_ok e2
    obtain rfl := Res.ok.inj e4
    rcases List.mem_cons.mp ha with rfl | k
    · exact ⟨x, List.mem_cons_self, e1⟩
    · obtain ⟨x', hx, e⟩ := ih e3 k
      exact ⟨x', List.mem_cons_of_mem _ hx, e⟩

theorem bound_exists (l : List Nat) : ∃ N, ∀ t ∈ l, t < N := by
  induction l with
  | nil => exact ⟨0, fun t ht => absurd ht List.not_mem_nil⟩
  | cons a l ih =>
    obtain ⟨N, hN⟩ := ih
    refine ⟨max N (a + 1), fun t ht => ?_⟩
    rcases List.mem_cons.mp ht with rfl | k
    · omega
    · have := hN t k; omega

section
variable {B : BEnv} (G : BeamChamber B)
include G

/-- C109, injection: it can be made from every sane state, for all random numbers. -/
theorem C109_inject {ids : List Nat} {S : BState} (A : BAlive B ids S) (t : ℝ) {rnd : Nat → Nat → Nat → Nat → ℝ × ℝ} (U : Uniform01 rnd) :
    ∃ new S1, Injects B t rnd new S S1 := by
  classical
  obtain ⟨N, hN⟩ := bound_exists (ids.flatMap (tagsOf B.env S.s.D))
  have P : ∀ i j, ∀ id, ∃ s' : Beam.St ℝ, i < B.env.domR → j < B.env.domZ → ∀ b ∈ B.beams, b.id = id →
      Beam.manage B.env.e.pi B.env.p.dt b (B.env.geom i j) t (rnd i j b.id) ⟨S.bunch i j b.id, []⟩ = .ok s' := by
    intro i j id
    by_cases c : i < B.env.domR ∧ j < B.env.domZ ∧ ∃ b ∈ B.beams, b.id = id
    · obtain ⟨hi, hj, b, hb, rfl⟩ := c
      obtain ⟨s', e, _⟩ := Beam.manage_spec (beam_setting G hb hi hj U) t 0 ⟨S.bunch i j b.id, []⟩
      refine ⟨s', fun _ _ b' hb' eb => ?_⟩
      have : b' = b := List.inj_on_of_nodup_map G.ids hb' hb eb
      rw [this]
      exact e
    · exact ⟨⟨0, []⟩, fun hi hj b hb eb => absurd ⟨hi, hj, b, hb, eb⟩ c⟩
  choose st hst using P
  let code : Nat → Nat → Nat → Nat → Nat := fun i j id k => N + Nat.pair i (Nat.pair j (Nat.pair id k))
  have inj : ∀ {i j id k i' j' id' k'}, code i j id k = code i' j' id' k' → i = i' ∧ j = j' ∧ id = id' ∧ k = k' := by
    intro i j id k i' j' id' k' e
    have e := Nat.add_left_cancel e
    obtain ⟨e1, e⟩ := Nat.pair_eq_pair.mp e
    obtain ⟨e2, e⟩ := Nat.pair_eq_pair.mp e
    obtain ⟨e3, e4⟩ := Nat.pair_eq_pair.mp e
    exact ⟨e1, e2, e3, e4⟩
  let len : Nat → Nat → Nat → Nat := fun i j id => if B.isBeam id then (st i j id).particles.length else 0
  let new : Nat → Nat → Nat → List Nat := fun i j id => (List.range (len i j id)).map (code i j id)
  let heap : Nat → Part ℝ := fun a =>
    if c : ∃ q : Nat × Nat × Nat × Nat, a = code q.1 q.2.1 q.2.2.1 q.2.2.2 ∧ (q.1 < B.env.domR ∧ q.2.1 < B.env.domZ) ∧ q.2.2.2 < len q.1 q.2.1 q.2.2.1 then
      ((st c.choose.1 c.choose.2.1 c.choose.2.2.1).particles[c.choose.2.2.2]?).getD (S.s.heap a)
    else S.s.heap a
  refine ⟨new, ⟨⟨S.s.M, heap, fun i j => (S.s.D i j).map fun sp => { sp with parts := sp.parts ++ (new i j sp.id).map fun a => ⟨0, 0, a⟩ }⟩,
    fun i j id => (st i j id).bunch⟩, ?_, ?_, ?_, ?_, ?_, ?_, rfl, rfl⟩
  · intro i j hi hj b hb
    rw [hst i j b.id hi hj b hb rfl]
    congr 1
    have bm : B.isBeam b.id := ⟨b, hb, rfl⟩
    have el : len i j b.id = (st i j b.id).particles.length := if_pos bm
    have : (new i j b.id).map heap = (st i j b.id).particles := by
      apply List.ext_getElem
      · simp [new, el]
      · intro n h1 h2
        simp only [new, List.getElem_map, List.getElem_range]
        have c : ∃ q : Nat × Nat × Nat × Nat, code i j b.id n = code q.1 q.2.1 q.2.2.1 q.2.2.2 ∧ (q.1 < B.env.domR ∧ q.2.1 < B.env.domZ) ∧ q.2.2.2 < len q.1 q.2.1 q.2.2.1 :=
          ⟨(i, j, b.id, n), rfl, ⟨hi, hj⟩, by show n < len i j b.id; rw [el]; exact h2⟩
        show (if c : _ then _ else _) = _
        rw [dif_pos c]
        obtain ⟨e1, e2, e3, e4⟩ := inj c.choose_spec.1
        rw [← e1, ← e2, ← e3, ← e4, List.getElem?_eq_getElem h2]
        rfl
    show _ = Beam.St.mk _ ((new i j b.id).map heap)
    rw [this]
  · intro i j id nb
    show (List.range (len i j id)).map _ = []
    have : len i j id = 0 := if_neg nb
    rw [this]
    rfl
  · intro i j id _ _
    exact List.Nodup.map (fun x y e => (inj e).2.2.2) List.nodup_range
  · intro i j id i' j' id' a _ _ _ _ h1 h2
    obtain ⟨k, _, e1⟩ := List.mem_map.mp h1
    obtain ⟨k', _, e2⟩ := List.mem_map.mp h2
    obtain ⟨a1, a2, a3, _⟩ := inj (e1.trans e2.symm)
    exact ⟨a1, a2, a3⟩
  · intro i j hi hj id a ha i' j' hi' hj' sp hsp o ho e
    obtain ⟨k, _, e1⟩ := List.mem_map.mp ha
    have hid : sp.id ∈ ids := by rw [← A.species i' j']; exact List.mem_map_of_mem hsp
    have := hN o.tag (List.mem_flatMap.mpr ⟨sp.id, hid, mem_tags.mpr ⟨i', j', hi', hj', sp, hsp, rfl, o, ho, rfl⟩⟩)
    rw [e, ← e1] at this
    exact absurd this (by show ¬ N + _ < N; omega)
  · intro a ha
    refine dif_neg ?_
    rintro ⟨q, e, ⟨hi, hj⟩, hk⟩
    exact ha q.1 q.2.1 q.2.2.1 hi hj (List.mem_map.mpr ⟨q.2.2.2, List.mem_range.mpr hk, e.symm⟩)

open Classical in
/-- C109, one step that has been made from a sane state, with any random numbers: the state after it is sane again; every species of the plasma has
the same particles; a beam has the particles it had and those it has injected, without those that have arrived outside the chamber.
Missing: particles that arrive exactly at the border of a domain or on the axis. -/
theorem C109_step_partial (hk : Pusher.Relativistic B.env.kind) (hz : Scheme B.env.dist) {ids : List Nat} (nd : ids.Nodup) {S T : BState} (A : BAlive B ids S)
    {t : ℝ} {rnd : Nat → Nat → Nat → Nat → ℝ × ℝ} {new : Nat → Nat → Nat → List Nat} {S1 : BState} (U : Uniform01 rnd) (I : Injects B t rnd new S S1)
    (N : NoBorderB B S1.s) (f : Flies B S1.s T.s) :
    BAlive B ids T ∧ (∀ id ∈ ids, ¬ B.isBeam id → (tagsOf B.env T.s.D id).Perm (tagsOf B.env S.s.D id)) ∧
    ∀ id ∈ ids, B.isBeam id → (tagsOf B.env T.s.D id).Perm
      ((tagsOf B.env S.s.D id ++ injected B new id).filter fun a => decide (Inside B.env (T.s.heap a))) := by
  obtain ⟨R, _, _⟩ := injects_ready G nd A U I
  obtain ⟨S', q1, q2, q3, q4, q5⟩ := flies_all G hk (scheme_sound hz) nd R N
  obtain rfl := (q1 _).mp f
  refine ⟨⟨A.beams, q2.species, q2.once, q2.place, q3, q2.fields⟩, ?_, ?_⟩
  · intro id hid nb
    refine (q5 id hid nb).trans ((injects_tags G nd A I hid).trans (List.Perm.of_eq ?_))
    have : injected B new id = [] := by
      unfold injected
      rw [List.flatMap_eq_nil_iff]
      intro q _
      exact I.2.1 q.1 q.2 id nb
    rw [this, List.append_nil]
  · intro id hid _
    exact (q4 id hid).trans ((injects_tags G nd A I hid).filter _)

/-- C109, one step: it can be made from every sane state, for all random numbers. -/
theorem C109_next_partial (hk : Pusher.Relativistic B.env.kind) (hz : Scheme B.env.dist) {ids : List Nat} (nd : ids.Nodup) {S : BState} (A : BAlive B ids S)
    {t : ℝ} {rnd : Nat → Nat → Nat → Nat → ℝ × ℝ} {new : Nat → Nat → Nat → List Nat} {S1 : BState} (U : Uniform01 rnd) (I : Injects B t rnd new S S1)
    (N : NoBorderB B S1.s) : ∃ T, BStep B t S T ∧ Flies B S1.s T.s := by
  obtain ⟨R, _, _⟩ := injects_ready G nd A U I
  obtain ⟨S', q1, _⟩ := flies_all G hk (scheme_sound hz) nd R N
  have f := (q1 S').mpr rfl
  exact ⟨⟨S', S1.bunch⟩, ⟨rnd, new, S1, U, I, f, rfl⟩, f⟩

/-- C109, any number of steps: as long as no particle arrives exactly at a border or on the axis, every run can go on, and in every state of every
run all is sane and the plasma has its particles. -/
theorem C109_run_partial (hk : Pusher.Relativistic B.env.kind) (hz : Scheme B.env.dist) {ids : List Nat} (nd : ids.Nodup) {S : BState} (A : BAlive B ids S) (n : Nat)
    (N : ∀ k T rnd new T1, k < n → BRun B S k T → Uniform01 rnd → Injects B (k * B.env.p.dt) rnd new T T1 → NoBorderB B T1.s) :
    (∃ T, BRun B S n T) ∧ ∀ k T, k ≤ n → BRun B S k T →
      BAlive B ids T ∧ (∀ id ∈ ids, ¬ B.isBeam id → (tagsOf B.env T.s.D id).Perm (tagsOf B.env S.s.D id)) ∧ (k < n → ∃ T', BStep B (k * B.env.p.dt) T T') := by
  have key : ∀ k T, k ≤ n → BRun B S k T → BAlive B ids T ∧ ∀ id ∈ ids, ¬ B.isBeam id → (tagsOf B.env T.s.D id).Perm (tagsOf B.env S.s.D id) := by
    intro k
    induction k with
    | zero =>
      intro T _ r
      cases r
      exact ⟨A, fun _ _ _ => .refl _⟩
    | succ k ih =>
      intro T hn r
      cases r with
      | step ra rb =>
        obtain ⟨A1, p1⟩ := ih _ (by omega) ra
        obtain ⟨rnd, new, S1, U, I, f, _⟩ := rb
        obtain ⟨A2, p2, _⟩ := C109_step_partial G hk hz nd A1 U I (N k _ rnd new S1 (by omega) ra U I) f
        exact ⟨A2, fun id hid nb => (p2 id hid nb).trans (p1 id hid nb)⟩
  have go : ∀ k T, k < n → BRun B S k T → ∃ T', BStep B (k * B.env.p.dt) T T' := by
    intro k T hn r
    obtain ⟨A1, _⟩ := key k T hn.le r
    have U : Uniform01 fun _ _ _ _ => (0, 0) := fun _ _ _ _ => by norm_num
    obtain ⟨new, S1, I⟩ := C109_inject G A1 (k * B.env.p.dt) U
    obtain ⟨T', s, _⟩ := C109_next_partial G hk hz nd A1 U I (N k T _ new S1 hn r U I)
    exact ⟨T', s⟩
  refine ⟨?_, fun k T hn r => ⟨(key k T hn r).1, (key k T hn r).2, fun h => go k T h r⟩⟩
  have : ∀ k, k ≤ n → ∃ T, BRun B S k T := by
    intro k
    induction k with
    | zero => exact fun _ => ⟨S, .start⟩
    | succ k ih =>
      intro hn
      obtain ⟨T, r⟩ := ih (by omega)
      obtain ⟨T', s⟩ := go k T (by omega) r
      exact ⟨T', .step r s⟩
  exact this n le_rfl

theorem beam_no_border (hk : Pusher.Relativistic B.env.kind) (h1 : B.env.domR = 1) (h2 : B.env.domZ = 1) (hc : HalfCell B.env) {ids : List Nat} {S : State}
    (A : BReady B ids S) : NoBorderB B S := by
  intro M1 e1 i j hi hj sp hsp o ho junk v ev
  have h := G.chamber
  have dt : 0 < B.env.p.dt := h.good.dt
  have ct : 0 < B.env.c * B.env.p.dt := mul_pos h.c dt
  have i0 : i = 0 := by omega
  have j0 : j = 0 := by omega
  constructor
  · intro nb
    have ha := A.place i j hi hj sp hsp nb o ho
    obtain ⟨v', p1, p2⟩ := push_ok h hk hi hj ha sp.id (M1 i j)
    obtain rfl := Res.ok.inj ((p1 junk).symm.trans ev)
    generalize S.heap o.tag = a at ha p2
    have sq : (v'.x * B.env.p.dt) ^ 2 + (v'.y * B.env.p.dt) ^ 2 + (v'.z * B.env.p.dt) ^ 2 < (B.env.c * B.env.p.dt) ^ 2 := by
      unfold Vec3.length2 at p2
      have := mul_lt_mul_of_pos_right p2 (pow_pos dt 2)
      nlinarith
    subst i0 j0
    have q1 := ha.r1
    have q2 := ha.z1
    unfold Clear
    rw [low_zero, low_zero, Nat.cast_zero, zero_mul, zero_mul]
    constructor
    · have := radius_change (r := a.posR) (u := v'.x * B.env.p.dt) (v := v'.y * B.env.p.dt) (by linarith [hc.1]) ct.le
        (by nlinarith [sq_nonneg (v'.z * B.env.p.dt)])
      rw [abs_lt] at this
      unfold landR
      rw [ha.phi, zero_add]
      intro e
      rw [e] at this
      linarith [hc.1]
    · have := abs_lt_of_sq_lt_sq (show (v'.z * B.env.p.dt) ^ 2 < (B.env.c * B.env.p.dt) ^ 2 by
        nlinarith [sq_nonneg (v'.x * B.env.p.dt), sq_nonneg (v'.y * B.env.p.dt)]) ct.le
      rw [abs_lt] at this
      unfold landZ
      intro e
      linarith [hc.2]
  · intro nb
    have ha := A.flying i j hi hj sp hsp nb o ho
    obtain ⟨v', p1, p2⟩ := ready_push h hk hi hj ha sp.id (M1 i j)
    obtain rfl := Res.ok.inj ((p1 junk).symm.trans ev)
    generalize S.heap o.tag = a at ha p2
    have sq : (v'.x * B.env.p.dt) ^ 2 + (v'.y * B.env.p.dt) ^ 2 + (v'.z * B.env.p.dt) ^ 2 < (B.env.c * B.env.p.dt) ^ 2 := by
      unfold Vec3.length2 at p2
      have := mul_lt_mul_of_pos_right p2 (pow_pos dt 2)
      nlinarith
    have half : B.env.p.dr / 2 ≤ a.posR := by have := ha.reach.half; rwa [geom_eq h] at this
    have := radius_change (r := a.posR) (u := v'.x * B.env.p.dt) (v := v'.y * B.env.p.dt) (by linarith [hc.1]) ct.le
        (by nlinarith [sq_nonneg (v'.z * B.env.p.dt)])
    rw [abs_lt] at this
    unfold landR
    rw [ha.phi, zero_add]
    intro e
    rw [e] at this
    linarith [hc.1]

/-- **C109** for an undivided chamber and time steps in which light travels at most half a cell: with any beams and all random numbers the simulation
goes on for ever from every sane state; all particles of the plasma stay, those of the beams that have not left the chamber are in it. -/
theorem C109_single (hk : Pusher.Relativistic B.env.kind) (hz : Scheme B.env.dist) (h1 : B.env.domR = 1) (h2 : B.env.domZ = 1) (hc : HalfCell B.env)
    {ids : List Nat} (nd : ids.Nodup) {S : BState} (A : BAlive B ids S) (n : Nat) :
    (∃ T, BRun B S n T) ∧ ∀ T, BRun B S n T →
      BAlive B ids T ∧ (∀ id ∈ ids, ¬ B.isBeam id → (tagsOf B.env T.s.D id).Perm (tagsOf B.env S.s.D id)) ∧ ∃ T', BStep B (n * B.env.p.dt) T T' := by
  have alive : ∀ n T, BRun B S n T → BAlive B ids T := by
    intro n
    induction n with
    | zero =>
      intro T r
      cases r
      exact A
    | succ n ih =>
      intro T r
      cases r with
      | step ra rb =>
        obtain ⟨rnd, new, S1, U, I, f, _⟩ := rb
        have A1 := ih _ ra
        exact (C109_step_partial G hk hz nd A1 U I (beam_no_border G hk h1 h2 hc (injects_ready G nd A1 U I).1) f).1
  obtain ⟨r, q⟩ := C109_run_partial G hk hz nd A (n + 1) fun k T rnd new T1 _ r U I =>
    beam_no_border G hk h1 h2 hc (injects_ready G nd (alive k T r) U I).1
  obtain ⟨T, r⟩ := r
  refine ⟨?_, fun T r => ?_⟩
  · cases r with
    | step ra _ => exact ⟨_, ra⟩
  · obtain ⟨a, b, c⟩ := q n T (by omega) r
    exact ⟨a, b, c (by omega)⟩

/-! ### What goes wrong -/

/-- A particle without charge keeps its velocity. -/
theorem ready_neutral (hk : B.env.kind = .borisRelativistic) {i j : Nat} (hi : i < B.env.domR) (hj : j < B.env.domZ) {a : Part ℝ} (ha : Ready B.env i j a)
    {id : Nat} (hq : B.env.charge id = 0) (m : Mem ℝ) (junk : Bool) :
    Pusher.push B.env.kind (B.env.pushPar id) junk B.env.e.pi (B.env.geom i j) m a.posR a.posZ (vel a) = .ok (vel a) := by
  have h := G.chamber
  obtain ⟨⟨x, c1⟩, y, c2⟩ := Interp.reach_read h.good.pi (geom_good h hi hj) ha.reach m
  have c1 : Interp.getE B.env.e.pi (B.env.geom i j) m a.posR a.posZ = _ := c1
  have c2 : Interp.getH B.env.e.pi (B.env.geom i j) m a.posR a.posZ = _ := c2
  unfold Pusher.push
  rw [c1, Res.ok_bind, c2, Res.ok_bind, hk]
  show Pusher.borisRel _ _ _ _ = _
  obtain ⟨γ, eg, hg, hγ, R⟩ := Pusher.boris_eq (B.env.pushPar id) h.c x y (vel a) ha.slow
  have k0 : (B.env.pushPar id).k = 0 := by
    unfold Pusher.Par.k
    show B.env.charge id * _ / _ = 0
    rw [hq, zero_mul, zero_div]
  have s0 : ∀ w : Vec3 ℝ, w.smul 0 = Vec3.zero := fun w => by simp [Vec3.smul, Vec3.zero]
  dsimp only at R
  rw [R, k0, zero_mul, s0, s0, Pusher.add_zero', Pusher.add_zero', Pusher.smul_zero', Pusher.rotate_zero, Rel.len2_smul,
    Rel.smul_smul', mul_comm γ, Rel.inv_of_lorenz (c := (B.env.pushPar id).c) h.c (Rel.len2_nonneg _) hg hγ, Rel.smul_one']

/-- A particle that has been injected beyond the outer wall is lost in the very step in which it was injected. -/
theorem outside_lost (hk : B.env.kind = .borisRelativistic) (hz : Scheme B.env.dist) {ids : List Nat} (nd : ids.Nodup) {S T : BState} (A : BAlive B ids S)
    {t : ℝ} {rnd : Nat → Nat → Nat → Nat → ℝ × ℝ} {new : Nat → Nat → Nat → List Nat} {S1 : BState} (U : Uniform01 rnd) (I : Injects B t rnd new S S1)
    (N : NoBorderB B S1.s) (f : Flies B S1.s T.s) {b : Beam.Conf ℝ} (hb : b ∈ B.beams) (hq : B.env.charge b.id = 0) {i j : Nat} (hi : i < B.env.domR)
    (hj : j < B.env.domZ) {a : Nat} (ha : a ∈ new i j b.id) (out : B.env.p.nr * B.env.p.dr ≤ (S1.s.heap a).posR) :
    a ∉ tagsOf B.env T.s.D b.id := by
  classical
  have h := G.chamber
  have dr : 0 < B.env.p.dr := h.good.geo.dr
  obtain ⟨R, fr, _⟩ := injects_ready G nd A U I
  obtain ⟨_, _, p⟩ := C109_step_partial G (.inl hk) hz nd A U I N f
  intro m
  have m := (p b.id (A.beams b hb) ⟨b, hb, rfl⟩).mem_iff.mp m
  have ins := of_decide_eq_true (List.mem_filter.mp m).2
  obtain ⟨fb, z0, _⟩ := fr i j hi hj b hb a ha
  have rd := fresh_ready G hb hi hj z0 fb
  obtain ⟨M1, e1, e2, _⟩ := f
  have hsp : ∃ sp ∈ S1.s.D i j, sp.id = b.id ∧ (⟨0, 0, a⟩ : Prt) ∈ sp.parts := by
    have hm : b.id ∈ (S.s.D i j).map Sp.id := by rw [A.species]; exact A.beams b hb
    obtain ⟨sp, hsp, e⟩ := List.mem_map.mp hm
    refine ⟨{ sp with parts := sp.parts ++ (new i j sp.id).map fun a => ⟨0, 0, a⟩ }, ?_, e, ?_⟩
    · rw [I.2.2.2.2.2.2.1]
      exact List.mem_map_of_mem hsp
    · refine List.mem_append_right _ (List.mem_map.mpr ⟨a, ?_, rfl⟩)
      rw [e]
      exact ha
  obtain ⟨sp, hsp, ei, ho⟩ := hsp
  obtain ⟨junk, v, ev, ad, _⟩ := e2 i j hi hj sp hsp _ ho
  have ad := ad ⟨b, hb, ei.symm⟩
  dsimp only at ev ad
  obtain rfl := Res.ok.inj ((ready_neutral G hk hi hj rd (id := sp.id) (by rw [ei]; exact hq) (M1 i j) junk).symm.trans ev)
  have lr : landR B.env (S1.s.heap a) (vel (S1.s.heap a)) = (S1.s.heap a).posR := by
    unfold landR
    show Real.sqrt (((S1.s.heap a).posR + (S1.s.heap a).velR * B.env.p.dt) ^ 2 + ((S1.s.heap a).posPhi + (S1.s.heap a).velPhi * B.env.p.dt) ^ 2) = _
    rw [fb.velR, fb.velPhi, fb.phi, zero_mul, add_zero, add_zero, zero_pow two_ne_zero, add_zero, Real.sqrt_sq]
    have := h.good.geo.nr
    have : (0 : ℝ) ≤ B.env.p.nr * B.env.p.dr := mul_nonneg (Nat.cast_nonneg _) dr.le
    linarith
  have half : B.env.p.dr / 2 ≤ (S1.s.heap a).posR := by have := rd.reach.half; rwa [geom_eq h] at this
  have e := (beam_iff h G.big hi hj rd rd.slow (by rw [lr]; linarith) _).mp ad
  rw [e] at ins
  have := ins.1.2
  unfold beamLanded at this
  dsimp only at this
  rw [lr, if_neg (by linarith)] at this
  linarith

/-- C109 fails for beams as wide as the chamber (here of neutral particles, so that no field matters): with random numbers near one, a domain at the
outer wall injects particles, and all of them are lost in the very step in which they were injected. -/
theorem C109_radius_fails (hk : B.env.kind = .borisRelativistic) (hz : Scheme B.env.dist) {ids : List Nat} (nd : ids.Nodup) {S T : BState} (A : BAlive B ids S)
    {t : ℝ} {rnd : Nat → Nat → Nat → Nat → ℝ × ℝ} {new : Nat → Nat → Nat → List Nat} {S1 : BState} (U : Uniform01 rnd) (I : Injects B t rnd new S S1)
    (N : NoBorderB B S1.s) (f : Flies B S1.s T.s) {b : Beam.Conf ℝ} (hb : b ∈ B.beams) (hq : B.env.charge b.id = 0) {i : Nat} (hi : i + 1 = B.env.domR)
    (wide : b.radius = B.env.p.nr * B.env.p.dr) (en : Beam.Entering b (S.bunch i 0 b.id) t) (am : b.bunches ≤ b.amount)
    (hu : ∀ k, 1 - B.env.p.dr / 2 / (b.radius - low B.env.p.nr B.env.domR i * B.env.p.dr) < (rnd i 0 b.id k).1) :
    new i 0 b.id ≠ [] ∧ ∀ a ∈ new i 0 b.id, a ∉ tagsOf B.env T.s.D b.id := by
  have h := G.chamber
  have dr : 0 < B.env.p.dr := h.good.geo.dr
  have hj : 0 < B.env.domZ := h.div.z1
  have hi' : i < B.env.domR := by omega
  obtain ⟨⟨b1, _, _, _, b5, _⟩, _⟩ := h.div.bounds hi' hj
  have top := b5 (by omega)
  have set := beam_setting G hb hi' hj U
  have top' : (low B.env.p.nr B.env.domR i : ℝ) + hgt B.env.p.nr B.env.domR i = B.env.p.nr := by exact_mod_cast top
  have reach : ((B.env.geom i 0).r0 : ℝ) * (B.env.geom i 0).dr < b.radius := by
    rw [geom_eq h, wide]
    refine mul_lt_mul_of_pos_right ?_ dr
    show (low B.env.p.nr B.env.domR i : ℝ) < _
    have : (2 : ℝ) ≤ hgt B.env.p.nr B.env.domR i := by exact_mod_cast b1
    linarith
  have z0 : (B.env.geom i 0).z0 = 0 := by rw [geom_eq h]; exact low_zero _ _
  have e := I.1 i 0 hi' hj b hb
  constructor
  · intro k
    obtain ⟨s', e', y, _⟩ := Beam.manage_spec set t 0 ⟨S.bunch i 0 b.id, []⟩
    obtain ⟨nw, q1, q2, _⟩ := y z0 reach en
    have es := Res.ok.inj (e.symm.trans e')
    rw [← es, k] at q1
    have : nw = [] := by simpa using q1.symm
    rw [this] at q2
    have pos : 0 < Beam.macroPerStep b (B.env.geom i 0) B.env.p.dt := by
      obtain ⟨g1, _, _⟩ := G.beams b hb
      have e1 : Beam.beamEdge b (B.env.geom i 0) = b.radius := by
        refine min_eq_left ?_
        rw [geom_eq h, wide]
        show _ ≤ ((low B.env.p.nr B.env.domR i + hgt B.env.p.nr B.env.domR i : Nat) : ℝ) * _
        rw [top]
      have n1 : (1 : ℝ) ≤ ((b.amount / b.bunches : Nat) : ℝ) := by
        exact_mod_cast Nat.div_pos am g1.bunches
      unfold Beam.macroPerStep
      rw [e1]
      refine mul_pos (mul_pos (by linarith) (div_pos (by linarith) g1.radius)) (div_pos h.good.dt (div_pos g1.length g1.velocity))
    rw [List.length_nil, Nat.cast_zero] at q2
    linarith
  · intro a ha
    refine outside_lost G hk hz nd A U I N f hb hq hi' hj ha ?_
    have : ∃ k, Beam.injectOne B.env.e.pi B.env.p.dt b (B.env.geom i 0) (rnd i 0 b.id k) = .ok (S1.s.heap a) := by
      have := List.mem_map_of_mem (f := S1.s.heap) ha
      unfold Beam.manage Beam.inject at e
      rw [if_pos z0, if_pos en.1] at e
      dsimp only at e
      obtain ⟨s1, e1, e2⟩ := Res.bind_ok e
      split at e1
      · obtain ⟨nw, e3, e4⟩ := Res.bind_ok e1
        have e4 := Res.ok.inj e4
        have e2 := Res.ok.inj e2
        have : s1.particles = (new i 0 b.id).map S1.s.heap := by
          have := congrArg Beam.St.particles e2
          dsimp only at this
          rw [← this]
          split <;> rfl
        have m : S1.s.heap a ∈ nw := by
          rw [← e4] at this
          have t : nw = (new i 0 b.id).map S1.s.heap := by simpa using this
          rw [t]
          exact List.mem_map_of_mem ha
        obtain ⟨x, hx, ex⟩ := collect_mem e3 m
        obtain ⟨k, _, ek⟩ := List.mem_map.mp hx
        exact ⟨k, ek.trans ex⟩
      · rename_i c
        exact absurd ⟨reach, by have := en.2; unfold Beam.bunchEnd Beam.bunchStart at this; rw [← add_div, mul_comm] at this; exact this⟩ c
    obtain ⟨k, ek⟩ := this
    obtain ⟨p, ep, out⟩ := Beam.C34_radius_fails set z0 reach (by
      rw [geom_eq h, wide]
      show _ ≤ ((low B.env.p.nr B.env.domR i + hgt B.env.p.nr B.env.domR i : Nat) : ℝ) * _
      rw [top]) 0 k (by rw [geom_eq h]; exact hu k)
    obtain rfl := Res.ok.inj (ek.symm.trans ep)
    rw [wide] at out
    exact out.le

/-- C109 fails for a particle of a beam that arrives exactly on the axis: the step has no result (division by its radius). -/
theorem C109_axis_fails (hk : Pusher.Relativistic B.env.kind) {ids : List Nat} {S : State} (A : BReady B ids S) {M1 : Solvers ℝ}
    (e1 : solveMaxwell (domPar B.env.p B.env.domR B.env.domZ) B.env.domR B.env.domZ S.M = .ok M1) {i j : Nat} (hi : i < B.env.domR) (hj : j < B.env.domZ)
    {sp : Sp} (hsp : sp ∈ S.D i j) (hb : B.isBeam sp.id) {o : Prt} (ho : o ∈ sp.parts) {v : Vec3 ℝ}
    (ev : Pusher.push B.env.kind (B.env.pushPar sp.id) true B.env.e.pi (B.env.geom i j) (M1 i j) (S.heap o.tag).posR (S.heap o.tag).posZ
      (vel (S.heap o.tag)) = .ok v) (hl : landR B.env (S.heap o.tag) v = 0) (T : State) : ¬ Flies B S T := by
  rintro ⟨L1, g1, g2, _⟩
  obtain rfl := Res.ok.inj (e1.symm.trans g1)
  have ha := A.flying i j hi hj sp hsp hb o ho
  obtain ⟨v', q1, _⟩ := ready_push G.chamber hk hi hj ha sp.id (M1 i j)
  obtain rfl := Res.ok.inj ((q1 true).symm.trans ev)
  obtain ⟨junk, w, ew, ad, _⟩ := g2 i j hi hj sp hsp o ho
  obtain rfl := Res.ok.inj ((q1 junk).symm.trans ew)
  obtain ⟨a, e, _⟩ := ad hb
  have k : Real.sqrt (((setVel (S.heap o.tag) v').dumpOld.move B.env.p.dt).posR * ((setVel (S.heap o.tag) v').dumpOld.move B.env.p.dt).posR +
      ((setVel (S.heap o.tag) v').dumpOld.move B.env.p.dt).posPhi * ((setVel (S.heap o.tag) v').dumpOld.move B.env.p.dt).posPhi) = 0 := by
    rw [← hl, ← pow_two, ← pow_two]
    rfl
  unfold Part.backPos at e
  dsimp only at e
  rw [k, if_pos rfl] at e
  exact (nomatch e)

end

/-- Charge that the injection brings to the node `(X, Y)`. -/
noncomputable def injectedCharge (B : BEnv) (new : Nat → Nat → Nat → List Nat) (S1 : BState) (X Y : Int) : ℝ :=
  ∑ i ∈ Finset.range B.env.domR, ∑ j ∈ Finset.range B.env.domZ, ((S1.s.D i j).map fun sp => ((new i j sp.id).map fun a =>
    VB.nodeCharge (ctxOf B.env.p 0 B.env.e).g (B.env.charge sp.id * (S1.s.heap a).weight) (S1.s.heap a).posR (S1.s.heap a).posZ X Y).sum).sum

/-- Gauss's law does not survive an injection: the charge of the new particles appears in the volume, the fields stay as they are.  So the difference
between the divergence of `eps E` and the charge density, which the rest of the step keeps (`C100_gauss_partial`), changes by exactly the charge that has
been injected. -/
theorem C109_gauss_fails {B : BEnv} {t : ℝ} {rnd : Nat → Nat → Nat → Nat → ℝ × ℝ} {new : Nat → Nat → Nat → List Nat} {S S1 : BState}
    (I : Injects B t rnd new S S1) (X Y : Int) :
    (divElectric B.env.p (displacement (glue B.env S1.s.M) .er) (displacement (glue B.env S1.s.M) .ez) X Y - density B.env S1.s X Y) -
      (divElectric B.env.p (displacement (glue B.env S.s.M) .er) (displacement (glue B.env S.s.M) .ez) X Y - density B.env S.s X Y) =
      - (injectedCharge B new S1 X Y / (VB.faceZ B.env.e.pi (ctxOf B.env.p 0 B.env.e).g X * B.env.p.dz)) := by
  obtain ⟨_, _, _, _, I5, I6, eD, eM⟩ := I
  rw [eM]
  have c : chargeAt B.env S1.s X Y = chargeAt B.env S.s X Y + injectedCharge B new S1 X Y := by
    unfold chargeAt injectedCharge
    rw [← Finset.sum_add_distrib]
    refine Finset.sum_congr rfl fun i hi => ?_
    rw [← Finset.sum_add_distrib]
    refine Finset.sum_congr rfl fun j hj => ?_
    have hi := Finset.mem_range.mp hi
    have hj := Finset.mem_range.mp hj
    have keep : ∀ sp ∈ S.s.D i j, ∀ o ∈ sp.parts, S1.s.heap o.tag = S.s.heap o.tag := by
      intro sp hsp o ho
      exact I6 _ fun i' j' id hi' hj' k => I5 i' j' hi' hj' id _ k i j hi hj sp hsp o ho rfl
    rw [eD]
    dsimp only
    rw [List.map_map, List.map_map, ← List.sum_map_add]
    congr 1
    refine List.map_congr_left fun sp hsp => ?_
    dsimp only [Function.comp]
    rw [List.map_append, List.sum_append, List.map_map]
    congr 2
    refine List.map_congr_left fun o ho => ?_
    rw [keep sp hsp o ho]
  unfold density
  rw [c]
  ring

/-! ### Non-vacuity -/

/-- A beam of the given radius, at half the speed of light. -/
noncomputable def exBeam (r : ℝ) : Beam.Conf ℝ := ⟨8, 10, 0, r, 1, 1, 2, 0, 1/2⟩

/-- A chamber of 4 × 4 cells with plasma (species 7) and a beam (species 8); light travels `d` cells per step. -/
noncomputable def exBEnv (d q r : ℝ) : BEnv := ⟨{ exEnv 1 1 q with p := ⟨1, 1, d, 1, 0, 4, 4, ⟨true, true, true, true⟩⟩ }, [exBeam r]⟩

/-- One particle of the plasma and one of the beam; no fields. -/
noncomputable def exBState (a b : Part ℝ) : BState where
  s := ⟨fun _ _ => exMedium, fun t => if t = 0 then a else b, fun _ _ => [⟨7, [⟨0, 0, 0⟩]⟩, ⟨8, [⟨0, 0, 1⟩]⟩]⟩
  bunch := fun _ _ _ => 0

theorem exB_chamber {d q r : ℝ} (d0 : 0 < d) (d1 : d ≤ 1) (hr : 0 < r) : BeamChamber (exBEnv d q r) where
  chamber := {
    r0 := rfl
    walls := rfl
    div := ⟨ex_div1.r1, ex_div1.z1, ex_div1.r2, ex_div1.z2, ex_div1.r3, ex_div1.z3, ex_div1.r4, ex_div1.z4, ex_div1.shape⟩
    good := by refine ⟨⟨?_, ?_, ?_, ?_⟩, ?_, ?_, ?_⟩ <;> norm_num [ctxOf, exBEnv, exEnv, d0]
    c := by norm_num [exBEnv, exEnv]
    cr := by norm_num [exBEnv, exEnv, d1]
    cz := by norm_num [exBEnv, exEnv, d1]
    mass := fun _ => by norm_num [exBEnv, exEnv] }
  beams := by
    intro b hb
    obtain rfl := List.mem_singleton.mp hb
    refine ⟨⟨?_, hr, ?_, ?_, ?_, ?_, ?_⟩, ?_, ?_⟩ <;> norm_num [exBeam, exBEnv, exEnv]
  ids := List.nodup_singleton _
  big := by norm_num [exBEnv]
  cells := by norm_num [exBEnv]

theorem exB_isBeam {d q r : ℝ} {id : Nat} : (exBEnv d q r).isBeam id ↔ id = 8 := by
  unfold BEnv.isBeam exBEnv
  simp [exBeam, eq_comm]

theorem exB_alive {d q r : ℝ} {a b : Part ℝ} (ha : InPlace (exBEnv d q r).env 0 0 a) (hb : BeamPlace (exBEnv d q r).env 0 0 b) :
    BAlive (exBEnv d q r) [7, 8] (exBState a b) where
  beams := by
    intro b hb
    obtain rfl := List.mem_singleton.mp hb
    simp [exBeam]
  species := fun _ _ => rfl
  once := by
    have : [7, 8].flatMap (tagsOf (exBEnv d q r).env (exBState a b).s.D) = [0, 1] := by rfl
    rw [this]
    decide
  place := by
    intro i j hi hj sp hsp nb o ho
    obtain rfl : i = 0 := by have : i < 1 := hi; omega
    obtain rfl : j = 0 := by have : j < 1 := hj; omega
    rcases List.mem_cons.mp hsp with rfl | k
    · obtain rfl := List.mem_singleton.mp ho
      exact ha
    · obtain rfl := List.mem_singleton.mp k
      exact absurd (exB_isBeam.mpr rfl) nb
  flying := by
    intro i j hi hj sp hsp nb o ho
    obtain rfl : i = 0 := by have : i < 1 := hi; omega
    obtain rfl : j = 0 := by have : j < 1 := hj; omega
    rcases List.mem_cons.mp hsp with rfl | k
    · exact absurd (exB_isBeam.mp nb) (by decide)
    · obtain rfl := List.mem_singleton.mp k
      obtain rfl := List.mem_singleton.mp ho
      exact hb
  fields := ⟨exMedium, fun c hc i j x y _ => ⟨fun _ => rfl, fun _ => if_neg (fun k => by rw [k] at hc; exact (nomatch hc))⟩⟩

theorem exB_place {d q r : ℝ} (d0 : 0 < d) (d1 : d ≤ 1) (hr : 0 < r) : InPlace (exBEnv d q r).env 0 0 (exPart (3/2) (5/2) (1/2) (1/3) 1 2) := by
  refine ⟨rfl, ?_, ?_, ?_, ?_, ?_, ?_, ?_, ?_⟩
  · rw [geom_eq (exB_chamber d0 d1 hr).chamber]
    constructor <;> norm_num [exBEnv, exEnv, exPart, low, hgt]
  all_goals norm_num [exBEnv, exEnv, exPart, vel, Vec3.length2, Int.floor_eq_iff]

theorem exB_flying {d q r : ℝ} (d0 : 0 < d) (d1 : d ≤ 1) (hr : 0 < r) : BeamPlace (exBEnv d q r).env 0 0 (exPart (1/2) (5/2) (-2/3) (1/3) 0 2) := by
  refine ⟨rfl, ?_, ?_, ?_, ?_, ?_⟩
  · rw [geom_eq (exB_chamber d0 d1 hr).chamber]
    constructor <;> norm_num [exBEnv, exEnv, exPart, low, hgt]
  all_goals norm_num [exBEnv, exEnv, exPart, vel, Vec3.length2, Int.floor_eq_iff]

theorem exB_half (q r : ℝ) : HalfCell (exBEnv (1/2) q r).env := by unfold HalfCell exBEnv exEnv; norm_num

/-- The hypotheses of `C109_single`: charged plasma, a charged beam. -/
example : BeamChamber (exBEnv (1/2) 1 2) ∧ HalfCell (exBEnv (1/2) 1 2).env ∧
    BAlive (exBEnv (1/2) 1 2) [7, 8] (exBState (exPart (3/2) (5/2) (1/2) (1/3) 1 2) (exPart (1/2) (5/2) (-2/3) (1/3) 0 2)) :=
  ⟨exB_chamber (by norm_num) (by norm_num) (by norm_num), exB_half _ _,
    exB_alive (exB_place (by norm_num) (by norm_num) (by norm_num)) (exB_flying (by norm_num) (by norm_num) (by norm_num))⟩

/-- C109 fails: a concrete step in which a beam loses all particles that it injects. -/
example : ∃ (S T S1 : BState) (new : Nat → Nat → Nat → List Nat) (rnd : Nat → Nat → Nat → Nat → ℝ × ℝ), BAlive (exBEnv (1/2) 0 4) [7, 8] S ∧
    Uniform01 rnd ∧ Injects (exBEnv (1/2) 0 4) 0 rnd new S S1 ∧ Flies (exBEnv (1/2) 0 4) S1.s T.s ∧
    new 0 0 8 ≠ [] ∧ ∀ a ∈ new 0 0 8, a ∉ tagsOf (exBEnv (1/2) 0 4).env T.s.D 8 := by
  have G : BeamChamber (exBEnv (1/2) 0 4) := exB_chamber (by norm_num) (by norm_num) (by norm_num)
  have A : BAlive (exBEnv (1/2) 0 4) [7, 8] (exBState (exPart (3/2) (5/2) (1/2) (1/3) 1 2) (exPart (1/2) (5/2) (-2/3) (1/3) 0 2)) :=
    exB_alive (exB_place (by norm_num) (by norm_num) (by norm_num)) (exB_flying (by norm_num) (by norm_num) (by norm_num))
  have U : Uniform01 fun _ _ _ _ => (99/100, 1/2) := fun _ _ _ _ => by norm_num
  obtain ⟨new, S1, I⟩ := C109_inject G A 0 U
  have N := beam_no_border G (.inl rfl) rfl rfl (exB_half _ _) (injects_ready G (by decide) A U I).1
  obtain ⟨T, _, f⟩ := C109_next_partial G (.inl rfl) (.inr rfl) (by decide) A U I N
  refine ⟨_, T, S1, new, _, A, U, I, f, ?_⟩
  refine C109_radius_fails G rfl (.inr rfl) (by decide) A U I N f (b := exBeam 4) List.mem_cons_self rfl (i := 0) rfl ?_ ?_ ?_ ?_
  · norm_num [exBeam, exBEnv]
  · refine ⟨Nat.zero_lt_one, ?_, ?_⟩ <;> norm_num [exBeam, exBState, Beam.bunchStart, Beam.bunchEnd]
  · norm_num [exBeam]
  · intro k
    norm_num [exBeam, exBEnv, low_zero]

/-- C109 fails: a concrete beam particle that reaches the axis; the next step does not exist. -/
example (T : State) : ¬ Flies (exBEnv (3/4) 0 2) (exBState (exPart (3/2) (5/2) (1/2) (1/3) 1 2) (exPart (1/2) (5/2) (-2/3) (1/3) 0 2)).s T := by
  intro f
  have G : BeamChamber (exBEnv (3/4) 0 2) := exB_chamber (by norm_num) (by norm_num) (by norm_num)
  have pl : BeamPlace (exBEnv (3/4) 0 2).env 0 0 (exPart (1/2) (5/2) (-2/3) (1/3) 0 2) := exB_flying (by norm_num) (by norm_num) (by norm_num)
  have A : BAlive (exBEnv (3/4) 0 2) [7, 8] (exBState (exPart (3/2) (5/2) (1/2) (1/3) 1 2) (exPart (1/2) (5/2) (-2/3) (1/3) 0 2)) :=
    exB_alive (exB_place (by norm_num) (by norm_num) (by norm_num)) pl
  have R : BReady (exBEnv (3/4) 0 2) [7, 8] (exBState (exPart (3/2) (5/2) (1/2) (1/3) 1 2) (exPart (1/2) (5/2) (-2/3) (1/3) 0 2)).s :=
    ⟨A.species, A.once, A.place, fun i j hi hj sp hsp nb o ho => ready_of_place G.chamber (A.flying i j hi hj sp hsp nb o ho), A.fields⟩
  obtain ⟨M1, e1, _⟩ := id f
  refine C109_axis_fails G (.inl rfl) R e1 (i := 0) (j := 0) (by decide) (by decide) (sp := ⟨8, [⟨0, 0, 1⟩]⟩) (by simp [exBState]) (exB_isBeam.mpr rfl)
    (o := ⟨0, 0, 1⟩) (by simp) (v := vel (exPart (1/2) (5/2) (-2/3) (1/3) 0 2)) (ready_neutral G rfl (by decide) (by decide) (ready_of_place G.chamber pl) rfl (M1 0 0) true) ?_ T f
  unfold landR
  rw [Real.sqrt_eq_zero (by positivity)]
  norm_num [exBEnv, exEnv, exPart, exBState, vel]

end Pic
end Pico
