import Verif.Lemmas.CollidePass
import Verif.Props.CollideRel

/-! Properties C102 to C105: whole collision steps. -/

set_option linter.unusedSectionVars false
set_option linter.unusedSimpArgs false
set_option linter.unusedVariables false

namespace Pico
namespace Coll

/-! ### C102: a collision step runs through and changes nothing but velocities -/

theorem loop_total {ι σ : Type _} (P : σ → Prop) (body : ι → σ → Res σ) (l : List ι)
    (hb : ∀ i ∈ l, ∀ g, P g → ∃ g', body i g = .ok g' ∧ P g') : ∀ g, P g → ∃ g', loop body l g = .ok g' ∧ P g' := by
  induction l with
  | nil => intro g hg; exact ⟨g, rfl, hg⟩
  | cons a l ih =>
    intro g hg
    obtain ⟨g1, e, h1⟩ := hb a List.mem_cons_self g hg
    rw [loop_cons, e, Res.ok_bind]
    exact ih (fun i hi => hb i (List.mem_cons_of_mem _ hi)) g1 h1

theorem Filled.few_bound {g : Place} {sp : List Species} {h : Heap} (F : Filled g sp h) (ion : Bool) (r z : Nat) :
    (boundTo h ion sp r z).length < 2 ^ 24 := by
  refine lt_of_le_of_lt ?_ F.few
  unfold boundTo
  exact (List.filter_sublist.trans (List.Sublist.flatMap List.filter_sublist _)).length_le

theorem Filled.weight_bound {g : Place} {sp : List Species} {h : Heap} (F : Filled g sp h) {ion : Bool} {r z t : Nat}
    (m : t ∈ boundTo h ion sp r z) : 0 < (h t).weight := by
  obtain ⟨⟨s, hs, ht⟩, _⟩ := boundTo_mem m
  exact F.weight s hs t ht

/-- The lists without any shuffling. -/
theorem sorted_exists {g : Place} {sp : List Species} {h : Heap} {m : Maps} (hs : g.r0 + g.nr + 4 < 2 ^ 31 ∧ g.z0 + g.nz + 4 < 2 ^ 31)
    (hb : ∀ s ∈ sp, ∀ p ∈ s.particles, Bound g.r0 g.z0 g.nr g.nz (h p)) (hm : m.Shape g.nr g.nz) :
    ∃ m', Sorted g sp h m m' (fun i j => boundTo h false sp (g.r0 + i) (g.z0 + j)) (fun i j => boundTo h true sp (g.r0 + i) (g.z0 + j)) := by
  have hs' : g.nr + 4 < 2 ^ 31 ∧ g.nz + 4 < 2 ^ 31 := by omega
  obtain ⟨c, e1, hc⟩ := clear_ok hs' (m.el.cell, m.ion.cell)
  obtain ⟨d, e2, hd⟩ := sort_ok h hs sp hb c
  refine ⟨mk g.nr g.nz d, mk g.nr g.nz d, by rw [shape_mk hm, e1, Res.ok_bind, e2], ⟨⟨rfl, rfl⟩, ?_⟩, ?_⟩
  · intro i j hi hj
    exact ⟨⟨_, _, get_mk_el hs' d hi hj, get_mk_el hs' d hi hj, .refl _⟩, ⟨_, _, get_mk_ion hs' d hi hj, get_mk_ion hs' d hi hj, .refl _⟩⟩
  · intro i j hi hj
    rw [get_mk_el hs' d hi hj, get_mk_ion hs' d hi hj, (hd i j).1, (hd i j).2, (hc i j hi hj).1, (hc i j hi hj).2]
    exact ⟨rfl, rfl⟩

/-- C102 for TA77S: for all positive masses, constants and weights, with particles bound to cells of the domain, the sorting
succeeds, and after every shuffling and for all random numbers the collisions and the correction run through: no fatal error, no
undefined behaviour. -/
theorem C102_TA77S {P : Phys} {K : Kinds} {g : Place} {sp : List Species} {h : Heap} {m : Maps} (ph : Physical P K g) (F : Filled g sp h)
    (hm : m.Shape g.nr g.nz) :
    (∃ m' els ions, Sorted g sp h m m' els ions) ∧
    ∀ m' els ions, Sorted g sp h m m' els ions → ∀ rnd, ∃ h', collideAll .ta77s P rnd K g els ions h = .ok h' := by
  have hs : g.r0 + g.nr + 4 < 2 ^ 31 ∧ g.z0 + g.nz + 4 < 2 ^ 31 := ⟨ph.rows, ph.cols⟩
  constructor
  · obtain ⟨m', S⟩ := sorted_exists hs F.bound hm
    exact ⟨m', _, _, S⟩
  · intro m' els ions S rnd
    have pp := fun {i j} => sorted_perm hs F.bound hm S (i := i) (j := j)
    unfold collideAll
    have ok : ∃ s', collide .ta77s P rnd K g els ions h = .ok s' ∧ ∀ t, OnlyVel (h t) (s'.1 t) := by
      unfold collide
      refine loop_total (fun s : St => ∀ t, OnlyVel (h t) (s.1 t)) _ _ ?_ (h, 0) (fun t => .refl _)
      rintro ⟨i, j⟩ hc s hp
      rw [C37_partial] at hc
      obtain ⟨⟨hi, hj⟩, nrm⟩ := hc
      have nrm := nrm j (le_refl j)
      have pm := pp hi hj
      have we : ∀ t ∈ els i j, 0 < (h t).weight := fun t ht => F.weight_bound (pm.2.mem_iff.mp ht)
      have wi : ∀ t ∈ ions i j, 0 < (h t).weight := fun t ht => F.weight_bound (pm.1.mem_iff.mp ht)
      have we' : ∀ p ∈ (els i j).map h, 0 < p.weight := by
        intro p hp; obtain ⟨t, ht, rfl⟩ := List.mem_map.mp hp; exact we t ht
      have wi' : ∀ p ∈ (ions i j).map h, 0 < p.weight := by
        intro p hp; obtain ⟨t, ht, rfl⟩ := List.mem_map.mp hp; exact wi t ht
      have ne : (els i j).map h ≠ [] := by
        intro k; rw [k] at nrm; simp [normal, amountTot] at nrm
      have ni : (ions i j).map h ≠ [] := by
        intro k; rw [k] at nrm; simp [normal, amountTot] at nrm
      have de := density_pos (k := P.k) (r0 := g.r0) (i := i) ph.pi ph.dr ph.dz we' ne
      have di := density_pos (k := P.k) (r0 := g.r0) (i := i) ph.pi ph.dr ph.dz wi' ni
      unfold collideCell cellDebye debyeLength
      rw [if_pos nrm, if_neg (not_le.mpr de), if_neg (not_le.mpr di), Res.ok_bind, Res.ok_bind]
      refine loop_total (fun s : St => ∀ t, OnlyVel (h t) (s.1 t)) _ _ ?_ s hp
      intro pr hpr s hp
      have rg := cellPairs_range (by rw [pm.1.length_eq]; exact F.few_bound ..) (by rw [pm.2.length_eq]; exact F.few_bound ..) pr hpr
      have step : ∀ (a : Args) (l l' : List Nat) (x y : Nat), 0 < a.ma → 0 < a.mb → a.qa ≠ 0 → a.qb ≠ 0 → 0 < a.na → 0 < a.nb →
          x < l.length → y < l'.length → (∀ t ∈ l, 0 < (h t).weight) → (∀ t ∈ l', 0 < (h t).weight) →
          ∃ s', hit .ta77s P rnd a l[x]? l'[y]? s = .ok s' ∧ ∀ t, OnlyVel (h t) (s'.1 t) := by
        intro a l l' x y h1 h2 h3 h4 h5 h6 hx hy w w'
        rw [List.getElem?_eq_getElem hx, List.getElem?_eq_getElem hy]
        obtain ⟨q, e⟩ := taFull_ok (k := P.k) (dt := P.dt) (debye := a.debye) (n := (rnd s.2).x) (phi := (rnd s.2).phi) (dzeta := (rnd s.2).y)
          (pa := s.1 l[x]) (pb := s.1 l'[y]) ph.pi ph.eps ph.dt h1 h2 h3 h4 h5 h6
          (by rw [(hp _).weight]; exact w _ (List.getElem_mem hx)) (by rw [(hp _).weight]; exact w' _ (List.getElem_mem hy))
        have e' : hit .ta77s P rnd a (some l[x]) (some l'[y]) s = .ok (put (put s.1 l[x] q.1) l'[y] q.2, s.2 + 1) := by
          show (single .ta77s P a (rnd s.2) (s.1 l[x]) (s.1 l'[y]) >>= _) = _
          rw [show single .ta77s P a (rnd s.2) (s.1 l[x]) (s.1 l'[y]) = .ok q from e, Res.ok_bind]
        exact ⟨_, e', fun t => (hp t).trans ((hit_moved (S := fun _ => True) (fun _ _ => trivial) (fun _ _ => trivial) e').1 t)⟩
      cases pr with
      | ii a b => exact step _ _ _ a b ph.massIon ph.massIon ph.chargeIon ph.chargeIon di di rg.1 rg.2 wi wi
      | ee a b => exact step _ _ _ a b ph.massEl ph.massEl ph.chargeEl ph.chargeEl de de rg.1 rg.2 we we
      | ei a b => exact step _ _ _ a b ph.massEl ph.massIon ph.chargeEl ph.chargeIon de di rg.1 rg.2 we wi
    obtain ⟨s', e, _⟩ := ok
    rw [e, Res.ok_bind]
    exact ⟨_, rfl⟩

/-- C102 for all three methods: a collision step that runs through changes nothing but the velocities of particles of the domain. -/
theorem C102_only {M : Method} {P : Phys} {K : Kinds} {g : Place} {sp : List Species} {h h' : Heap} {m m' : Maps}
    (hs : g.r0 + g.nr + 4 < 2 ^ 31 ∧ g.z0 + g.nz + 4 < 2 ^ 31) (F : Filled g sp h) (hm : m.Shape g.nr g.nz) (p : Pass M P K g sp h m h' m') :
    (∀ t, OnlyVel (h t) (h' t)) ∧ (∀ t, (∀ s ∈ sp, t ∉ s.particles) → h' t = h t) ∧ Filled g sp h' ∧ m'.Shape g.nr g.nz := by
  obtain ⟨els, ions, rnd, S, e⟩ := p
  have ap := sorted_apart hs F.nodup F.bound hm S
  have pp := fun {i j} => sorted_perm hs F.bound hm S (i := i) (j := j)
  unfold collideAll at e
  obtain ⟨s, e1, e2⟩ := Res.bind_ok e
  have mv := collide_moved e1
  have lists : ∀ t, (∀ s ∈ sp, t ∉ s.particles) → ∀ i j, i < g.nr → j < g.nz → t ∉ els i j ∧ t ∉ ions i j := by
    intro t n i j hi hj
    constructor
    · intro k
      obtain ⟨⟨s, hs, ht⟩, _⟩ := boundTo_mem ((pp hi hj).2.mem_iff.mp k)
      exact n s hs ht
    · intro k
      obtain ⟨⟨s, hs, ht⟩, _⟩ := boundTo_mem ((pp hi hj).1.mem_iff.mp k)
      exact n s hs ht
  have s1 : ∀ t, (∀ s ∈ sp, t ∉ s.particles) → s.1 t = h t := by
    intro t n
    apply mv.2
    rintro ⟨c, hc, ht⟩
    rw [show c = (c.1, c.2) from rfl, C37_partial] at hc
    have := lists t n c.1 c.2 hc.1.1 hc.1.2
    tauto
  have fin : (∀ t, OnlyVel (h t) (h' t)) ∧ ∀ t, (∀ s ∈ sp, t ∉ s.particles) → h' t = h t := by
    cases M with
    | ta77s =>
      injection e2 with e2
      subst e2
      exact ⟨fun t => (mv.1 t).trans (correctAll_only ap h s.1 t), fun t n => by rw [correctAll_other ap h s.1 (lists t n)]; exact s1 t n⟩
    | sk98 => injection e2 with e2; subst e2; exact ⟨mv.1, s1⟩
    | p12 => injection e2 with e2; subst e2; exact ⟨mv.1, s1⟩
  refine ⟨fin.1, fin.2, ⟨F.nodup, ?_, ?_, F.few⟩, sorted_shape hs F.bound hm S⟩
  · intro s hs p hp; rw [(fin.1 p).weight]; exact F.weight s hs p hp
  · intro s hs p hp
    have c := (fin.1 p).cell
    have b := F.bound s hs p hp
    unfold Bound at b ⊢
    rw [c.1, c.2]; exact b

/-! ### C103: momentum and energy of a whole step -/

theorem lists_momentum (mass : ℝ) (h : Heap) (l : List Nat) : momentumOf mass h l = lMomentum mass (l.map h) ∧ energyOf mass h l = lEnergy mass (l.map h) := by
  unfold momentumOf energyOf lMomentum lEnergy
  simp only [List.map_map]
  exact ⟨rfl, rfl⟩

theorem momentumOf_perm (mass : ℝ) (h : Heap) {l l' : List Nat} (p : l.Perm l') : momentumOf mass h l = momentumOf mass h l' ∧ energyOf mass h l = energyOf mass h l' := by
  unfold momentumOf energyOf
  exact ⟨by rw [(p.map _).sum_eq, (p.map _).sum_eq, (p.map _).sum_eq], (p.map _).sum_eq⟩

theorem Differ.mixed {h : Heap} {l : List Nat} (d : Differ h l) : Mixed (l.map h) := by
  obtain ⟨p, hp, q, hq, n⟩ := d
  exact ⟨h p, List.mem_map_of_mem hp, h q, List.mem_map_of_mem hq, n⟩

theorem Differ.perm {h : Heap} {l l' : List Nat} (d : Differ h l) (p : l.Perm l') : Differ h l' := by
  obtain ⟨a, ha, b, hb, n⟩ := d
  exact ⟨a, p.mem_iff.mp ha, b, p.mem_iff.mp hb, n⟩

/-- The correction of a list in which all particles have one velocity has no effect, so velocities that differ after it differed
before it. -/
theorem correct_mixed {mass : ℝ} {before l : List (Part ℝ)} (hm : 0 < mass) (W0 : 0 < W before) (hw : l.map (·.weight) = before.map (·.weight))
    (h : Mixed (correct mass (collectTotals mass before) l)) : Mixed l := by
  by_contra c
  apply c
  rw [correct_eq hm W0 hw] at h
  split_ifs at h with hc
  · exact h
  · obtain ⟨p, hp, q, hq, n⟩ := h
    obtain ⟨a, ha, rfl⟩ := List.mem_map.mp hp
    obtain ⟨b, hb, rfl⟩ := List.mem_map.mp hq
    refine ⟨a, ha, b, hb, fun k => n ?_⟩
    unfold vel at k
    rw [Vec3.mk.injEq] at k
    obtain ⟨k1, k2, k3⟩ := k
    unfold setVel vel
    dsimp only
    rw [k1, k2, k3]

theorem correct_step {mass : ℝ} {h h1 h' : Heap} {l : List Nat} (hm : 0 < mass) (hw : ∀ t ∈ l, 0 < (h t).weight) (ov : ∀ t, OnlyVel (h t) (h1 t))
    (e : l.map h' = correct mass (collectTotals mass (l.map h)) (l.map h1)) (hb : Differ h l) (ha : Differ h' l) :
    momentumOf mass h' l = momentumOf mass h l ∧ energyOf mass h' l = energyOf mass h l := by
  have hw' : ∀ p ∈ l.map h, 0 < p.weight := by
    intro p hp; obtain ⟨t, ht, rfl⟩ := List.mem_map.mp hp; exact hw t ht
  have same : (l.map h1).map (·.weight) = (l.map h).map (·.weight) := by
    rw [List.map_map, List.map_map]
    apply List.map_congr_left
    intro t _
    exact (ov t).weight
  obtain ⟨p0, hp0, _⟩ := hb.mixed
  have W0 : 0 < W (l.map h) := W_pos hw' (List.ne_nil_of_mem hp0)
  have mx : Mixed (l.map h1) := correct_mixed hm W0 same (e ▸ ha.mixed)
  have := C39_partial hm hw' same hb.mixed mx
  rw [(lists_momentum mass h' l).1, (lists_momentum mass h' l).2, (lists_momentum mass h l).1, (lists_momentum mass h l).2, e]
  exact ⟨this.1, this.2.1⟩

/-- What a step of TA77S does to the lists of a cell: any heap `h1` with changed velocities, then the correction. -/
theorem pass_lists {P : Phys} {K : Kinds} {g : Place} {sp : List Species} {h h' : Heap} {m m' : Maps}
    (hs : g.r0 + g.nr + 4 < 2 ^ 31 ∧ g.z0 + g.nz + 4 < 2 ^ 31) (F : Filled g sp h) (hm : m.Shape g.nr g.nz) (p : Pass .ta77s P K g sp h m h' m') :
    ∃ h1 : Heap, (∀ t, OnlyVel (h t) (h1 t)) ∧ ∀ i j, i < g.nr → j < g.nz →
      (∃ l : List Nat, l.Perm (boundTo h true sp (g.r0 + i) (g.z0 + j)) ∧ l.map h' = correct K.massIon (collectTotals K.massIon (l.map h)) (l.map h1)) ∧
      (∃ l : List Nat, l.Perm (boundTo h false sp (g.r0 + i) (g.z0 + j)) ∧ l.map h' = correct K.massEl (collectTotals K.massEl (l.map h)) (l.map h1)) := by
  obtain ⟨els, ions, rnd, S, e⟩ := p
  have ap := sorted_apart hs F.nodup F.bound hm S
  have pp := fun {i j} => sorted_perm hs F.bound hm S (i := i) (j := j)
  unfold collideAll at e
  obtain ⟨s, e1, e2⟩ := Res.bind_ok e
  injection e2 with e2
  subst e2
  refine ⟨s.1, (collide_moved e1).1, fun i j hi hj => ?_⟩
  have cc := correctAll_cell (K := K) ap h s.1 hi hj
  exact ⟨⟨_, (pp hi hj).1, cc.1⟩, ⟨_, (pp hi hj).2, cc.2⟩⟩

/-- C103, where it holds: a whole collision step of TA77S keeps, in every cell of the domain, the total momentum and the total kinetic
energy of the ions and those of the electrons, if the velocities of the kind in the cell differ before and after the step.  For all
positive masses and weights and all random numbers. -/
theorem C103_partial {P : Phys} {K : Kinds} {g : Place} {sp : List Species} {h h' : Heap} {m m' : Maps}
    (hs : g.r0 + g.nr + 4 < 2 ^ 31 ∧ g.z0 + g.nz + 4 < 2 ^ 31) (h1 : 0 < K.massEl) (h2 : 0 < K.massIon) (F : Filled g sp h) (hm : m.Shape g.nr g.nz)
    (p : Pass .ta77s P K g sp h m h' m') {i j : Nat} (hi : i < g.nr) (hj : j < g.nz) (ion : Bool)
    (hb : Differ h (boundTo h ion sp (g.r0 + i) (g.z0 + j))) (ha : Differ h' (boundTo h ion sp (g.r0 + i) (g.z0 + j))) :
    momentumOf (if ion then K.massIon else K.massEl) h' (boundTo h ion sp (g.r0 + i) (g.z0 + j)) =
      momentumOf (if ion then K.massIon else K.massEl) h (boundTo h ion sp (g.r0 + i) (g.z0 + j)) ∧
    energyOf (if ion then K.massIon else K.massEl) h' (boundTo h ion sp (g.r0 + i) (g.z0 + j)) =
      energyOf (if ion then K.massIon else K.massEl) h (boundTo h ion sp (g.r0 + i) (g.z0 + j)) := by
  obtain ⟨hh, ov, c⟩ := pass_lists hs F hm p
  obtain ⟨⟨l, pl, el⟩, ⟨k, pk, ek⟩⟩ := c i j hi hj
  cases ion with
  | true =>
    have w : ∀ t ∈ l, 0 < (h t).weight := fun t ht => F.weight_bound (pl.mem_iff.mp ht)
    have := correct_step h2 w ov el (hb.perm pl.symm) (ha.perm pl.symm)
    rw [if_pos rfl, ← (momentumOf_perm _ h' pl).1, ← (momentumOf_perm _ h' pl).2, ← (momentumOf_perm _ h pl).1, ← (momentumOf_perm _ h pl).2]
    exact this
  | false =>
    have w : ∀ t ∈ k, 0 < (h t).weight := fun t ht => F.weight_bound (pk.mem_iff.mp ht)
    have := correct_step h1 w ov ek (hb.perm pk.symm) (ha.perm pk.symm)
    rw [if_neg (by decide), ← (momentumOf_perm _ h' pk).1, ← (momentumOf_perm _ h' pk).2, ← (momentumOf_perm _ h pk).1, ← (momentumOf_perm _ h pk).2]
    exact this

/-- A kind whose particles in a cell all have one velocity, or which the step leaves with one velocity, is not corrected. -/
theorem C103_uncorrected {mass : ℝ} {before after : List (Part ℝ)} {v : Vec3 ℝ} (hm : 0 < mass) (hw : ∀ p ∈ before, 0 < p.weight) (hne : before ≠ [])
    (hsame : after.map (·.weight) = before.map (·.weight)) (h : (∀ p ∈ before, vel p = v) ∨ ∀ p ∈ after, vel p = v) :
    correct mass (collectTotals mass before) after = after := by
  rw [correct_eq hm (W_pos hw hne) hsame]
  rcases h with h | h
  · rw [if_pos (.inr (cold_spread h))]
  · rw [if_pos (.inl (cold_spread h))]

/-! ### C104: no friction between electrons and ions -/

theorem boundTo_same {h h' : Heap} (ov : ∀ t, OnlyVel (h t) (h' t)) (ion : Bool) (sp : List Species) (r z : Nat) :
    boundTo h' ion sp r z = boundTo h ion sp r z := by
  unfold boundTo
  apply List.filter_congr
  intro t _
  rw [(ov t).cell.1, (ov t).cell.2]

/-- C104 fails for TA77S: however many collision steps are made, electrons and ions of a cell exchange neither momentum nor energy:
each kind keeps its own, whatever the masses, the weights, the random numbers and the velocities of the other kind (as long as its own
velocities differ).  Two kinds that drift through each other do so for ever, and a hot and a cold kind never approach each other. -/
theorem C104_fails {P : Phys} {K : Kinds} {g : Place} {sp : List Species} {h h' : Heap} {m m' : Maps} {L : List Heap}
    (hs : g.r0 + g.nr + 4 < 2 ^ 31 ∧ g.z0 + g.nz + 4 < 2 ^ 31) (h1 : 0 < K.massEl) (h2 : 0 < K.massIon) (F : Filled g sp h) (hm : m.Shape g.nr g.nz)
    (p : Steps P K g sp h m L h' m') {i j : Nat} (hi : i < g.nr) (hj : j < g.nz) (ion : Bool)
    (hd : ∀ k ∈ L, Differ k (boundTo h ion sp (g.r0 + i) (g.z0 + j))) :
    momentumOf (if ion then K.massIon else K.massEl) h' (boundTo h ion sp (g.r0 + i) (g.z0 + j)) =
      momentumOf (if ion then K.massIon else K.massEl) h (boundTo h ion sp (g.r0 + i) (g.z0 + j)) ∧
    energyOf (if ion then K.massIon else K.massEl) h' (boundTo h ion sp (g.r0 + i) (g.z0 + j)) =
      energyOf (if ion then K.massIon else K.massEl) h (boundTo h ion sp (g.r0 + i) (g.z0 + j)) := by
  have key : ∀ {L h' m'}, Steps P K g sp h m L h' m' → (∀ k ∈ L, Differ k (boundTo h ion sp (g.r0 + i) (g.z0 + j))) →
      h' ∈ L ∧ (∀ t, OnlyVel (h t) (h' t)) ∧ Filled g sp h' ∧ m'.Shape g.nr g.nz ∧
      momentumOf (if ion then K.massIon else K.massEl) h' (boundTo h ion sp (g.r0 + i) (g.z0 + j)) =
        momentumOf (if ion then K.massIon else K.massEl) h (boundTo h ion sp (g.r0 + i) (g.z0 + j)) ∧
      energyOf (if ion then K.massIon else K.massEl) h' (boundTo h ion sp (g.r0 + i) (g.z0 + j)) =
        energyOf (if ion then K.massIon else K.massEl) h (boundTo h ion sp (g.r0 + i) (g.z0 + j)) := by
    intro L h' m' p
    induction p with
    | none => intro _; exact ⟨List.mem_cons_self, fun _ => .refl _, F, hm, rfl, rfl⟩
    | @more L ha ma hb mb st ps ih =>
      intro hd
      obtain ⟨il, ov, Fa, sa, e1, e2⟩ := ih (fun k hk => hd k (List.mem_cons_of_mem _ hk))
      have on := C102_only hs Fa sa ps
      have bs := boundTo_same ov ion sp (g.r0 + i) (g.z0 + j)
      have st := C103_partial hs h1 h2 Fa sa ps hi hj ion (by rw [bs]; exact hd _ (List.mem_cons_of_mem _ il))
        (by rw [bs]; exact hd _ List.mem_cons_self)
      rw [bs] at st
      exact ⟨List.mem_cons_self, fun t => (ov t).trans (on.1 t), on.2.2.1, on.2.2.2, st.1.trans e1, st.2.trans e2⟩
  have := key p hd
  exact this.2.2.2.2

/-! ### A cell alone -/

/-- Ions in the first cell only: the collisions are those of this cell. -/
theorem one_cell {M : Method} {P : Phys} {rnd : Nat → Rnd} {K : Kinds} {g : Place} {els ions : Nat → Nat → List Nat} {h : Heap} (hr : 0 < g.nr) (hz : 0 < g.nz)
    (hn : normal K.massEl K.massIon ((els 0 0).map h) ((ions 0 0).map h) = true)
    (ho : ∀ i j, i < g.nr → j < g.nz → ¬ (i = 0 ∧ j = 0) → ions i j = []) :
    collide M P rnd K g els ions h = collideCell M P rnd K g els ions h (0, 0) (h, 0) := by
  have no : ∀ i j, i < g.nr → j < g.nz → ¬ (i = 0 ∧ j = 0) → normal K.massEl K.massIon ((els i j).map h) ((ions i j).map h) = false := by
    intro i j hi hj c
    rw [ho i j hi hj c]
    simp [normal, amountTot]
  obtain ⟨nr, er⟩ : ∃ n, g.nr = n + 1 := ⟨g.nr - 1, by omega⟩
  obtain ⟨nz, ez⟩ : ∃ n, g.nz = n + 1 := ⟨g.nz - 1, by omega⟩
  have first : (List.range g.nz).takeWhile (fun j => normal K.massEl K.massIon ((els 0 j).map h) ((ions 0 j).map h)) = [0] := by
    rw [ez, List.range_succ_eq_map, List.takeWhile_cons, if_pos hn]
    congr 1
    cases nz with
    | zero => rfl
    | succ nz =>
      rw [List.range_succ_eq_map, List.map_cons, List.takeWhile_cons, if_neg]
      rw [no 0 1 hr (by omega) (by omega)]
      decide
  have rest : ∀ i, i < g.nr → i ≠ 0 → (List.range g.nz).takeWhile (fun j => normal K.massEl K.massIon ((els i j).map h) ((ions i j).map h)) = [] := by
    intro i hi c
    rw [ez, List.range_succ_eq_map, List.takeWhile_cons, if_neg]
    rw [no i 0 hi hz (by omega)]
    decide
  unfold collide visited
  have : (List.range g.nr).flatMap (fun i => ((List.range g.nz).takeWhile fun j => normal K.massEl K.massIon ((els i j).map h) ((ions i j).map h)).map fun j => (i, j)) = [(0, 0)] := by
    rw [er, List.range_succ_eq_map, List.flatMap_cons, first]
    rw [List.flatMap_eq_nil_iff.mpr]
    · rfl
    · intro i hi
      obtain ⟨k, hk, rfl⟩ := List.mem_map.mp hi
      rw [rest _ (by have := List.mem_range.mp hk; omega) (Nat.succ_ne_zero k)]
      rfl
  rw [this, loop_cons]
  cases collideCell M P rnd K g els ions h (0, 0) (h, 0) <;> rfl

theorem speed_pos {va vb : Vec3 ℝ} (h : va ≠ vb) : 0 < speedBetween va vb := by
  unfold speedBetween
  apply Real.sqrt_pos.mpr
  rcases (show 0 ≤ (va.x - vb.x) ^ 2 + (va.y - vb.y) ^ 2 + (va.z - vb.z) ^ 2 by positivity).lt_or_eq with k | k
  · exact k
  · exfalso
    apply h
    have x := sq_nonneg (va.x - vb.x)
    have y := sq_nonneg (va.y - vb.y)
    have z := sq_nonneg (va.z - vb.z)
    have ex : va.x - vb.x = 0 := pow_eq_zero_iff (two_ne_zero) |>.mp (by linarith)
    have ey : va.y - vb.y = 0 := pow_eq_zero_iff (two_ne_zero) |>.mp (by linarith)
    have ez : va.z - vb.z = 0 := pow_eq_zero_iff (two_ne_zero) |>.mp (by linarith)
    obtain ⟨a, b, c⟩ := va
    obtain ⟨d, e, f⟩ := vb
    simp only [Vec3.mk.injEq]
    simp only at ex ey ez
    exact ⟨by linarith, by linarith, by linarith⟩

/-- One electron and one ion of the same weight alone in the first cell, no other ions in the domain: the step of TA77S is their
collision; the correction has no effect.  `sd` is the standard deviation of the deflection. -/
theorem pair_pass {P : Phys} {K : Kinds} {g : Place} {sp : List Species} {h : Heap} (ph : Physical P K g) (F : Filled g sp h) (hr : 0 < g.nr) (hz : 0 < g.nz)
    {a b : Nat} (ha : boundTo h false sp (g.r0 + 0) (g.z0 + 0) = [a]) (hb : boundTo h true sp (g.r0 + 0) (g.z0 + 0) = [b])
    (ho : ∀ i j, i < g.nr → j < g.nz → ¬ (i = 0 ∧ j = 0) → boundTo h true sp (g.r0 + i) (g.z0 + j) = [])
    (hw : (h a).weight = (h b).weight) (hv : vel (h a) ≠ vel (h b)) (ha0 : vel (h a) ≠ ⟨0, 0, 0⟩) (hb0 : vel (h b) ≠ ⟨0, 0, 0⟩) :
    ∃ sd, 0 < sd ∧ ∀ rnd : Nat → Rnd, ∃ qa qb h',
      collideTA P.k.pi K.massEl K.massIon (sd * (rnd 0).x) (rnd 0).phi (rnd 0).y (h a) (h b) = .ok (qa, qb) ∧
      collideAll .ta77s P rnd K g (fun i j => boundTo h false sp (g.r0 + i) (g.z0 + j)) (fun i j => boundTo h true sp (g.r0 + i) (g.z0 + j)) h = .ok h' ∧
      h' a = qa ∧ h' b = qb := by
  have hs : g.r0 + g.nr + 4 < 2 ^ 31 ∧ g.z0 + g.nz + 4 < 2 ^ 31 := ⟨ph.rows, ph.cols⟩
  obtain ⟨m', S⟩ := sorted_exists hs F.bound (m := newMaps g.nr g.nz) ⟨⟨rfl, rfl, rfl⟩, rfl, rfl, rfl⟩
  have ap := sorted_apart hs F.nodup F.bound ⟨⟨rfl, rfl, rfl⟩, rfl, rfl, rfl⟩ S
  have ma : a ∈ boundTo h false sp (g.r0 + 0) (g.z0 + 0) := by rw [ha]; exact List.mem_singleton.mpr rfl
  have mb : b ∈ boundTo h true sp (g.r0 + 0) (g.z0 + 0) := by rw [hb]; exact List.mem_singleton.mpr rfl
  have nab : a ≠ b := fun k => boundTo_kinds F.nodup ma (k ▸ mb)
  have wa := F.weight_bound ma
  have wb := F.weight_bound mb
  have nv : ∀ p : Part ℝ, vel p ≠ ⟨0, 0, 0⟩ → ¬ (p.velR = 0 ∧ p.velPhi = 0 ∧ p.velZ = 0) := by
    rintro p k ⟨h1, h2, h3⟩
    apply k
    unfold vel
    rw [h1, h2, h3]
  have nrm : normal K.massEl K.massIon [h a] [h b] = true := by
    rw [normal_moving ph.massEl ph.massIon (by simpa using wa) (by simpa using wb)]
    exact ⟨⟨h a, List.mem_singleton.mpr rfl, nv _ ha0⟩, ⟨h b, List.mem_singleton.mpr rfl, nv _ hb0⟩⟩
  have de := density_pos (k := P.k) (r0 := g.r0) (i := 0) ph.pi ph.dr ph.dz (l := [h a]) (by simpa using wa) (by simp)
  have di := density_pos (k := P.k) (r0 := g.r0) (i := 0) ph.pi ph.dr ph.dz (l := [h b]) (by simpa using wb) (by simp)
  have u0 : 0 < speedBetween (vel (h a)) (vel (h b)) := speed_pos hv
  have nz : ¬ ((h b).weight = 0 ∨ (h a).weight = 0 ∨ K.massEl = 0 ∨ K.massIon = 0 ∨ K.massEl + K.massIon = 0) := by
    have := ph.massEl
    have := ph.massIon
    rintro (k | k | k | k | k) <;> linarith
  have cp : cellPairs float32 1 1 = [.ei 0 0] := by decide +kernel
  generalize hdeb : P.k.debye1 / Real.sqrt (cellDensity P.k g.dr g.dz g.r0 0 [h a] / cellTemperature P.k K.massEl [h a] +
    cellDensity P.k g.dr g.dz g.r0 0 [h b] / cellTemperature P.k K.massIon [h b]) = debye
  have vpos : 0 < taVariance P.k P.dt K.massEl K.massIon K.chargeEl K.chargeIon (cellDensity P.k g.dr g.dz g.r0 0 [h a]) (cellDensity P.k g.dr g.dz g.r0 0 [h b]) debye
      (speedBetween (vel (h a)) (vel (h b))) :=
    variance_pos ph.pi ph.eps ph.dt ph.massEl ph.massIon ph.chargeEl ph.chargeIon de di u0
  have sd := Real.sqrt_pos.mpr vpos
  refine ⟨_, sd, fun rnd => ?_⟩
  obtain ⟨qa, qb, e⟩ : ∃ qa qb, collideTA P.k.pi K.massEl K.massIon (Real.sqrt (taVariance P.k P.dt K.massEl K.massIon K.chargeEl K.chargeIon
      (cellDensity P.k g.dr g.dz g.r0 0 [h a]) (cellDensity P.k g.dr g.dz g.r0 0 [h b]) debye (speedBetween (vel (h a)) (vel (h b)))) * (rnd 0).x)
      (rnd 0).phi (rnd 0).y (h a) (h b) = .ok (qa, qb) := by
    unfold collideTA
    rw [if_neg nz]
    dsimp only
    split_ifs <;> exact ⟨_, _, rfl⟩
  have full : single .ta77s P ⟨K.massEl, K.massIon, K.chargeEl, K.chargeIon, cellDensity P.k g.dr g.dz g.r0 0 [h a], cellDensity P.k g.dr g.dz g.r0 0 [h b], debye⟩
      (rnd 0) (h a) (h b) = .ok (qa, qb) := by
    show collideTAFull _ _ _ _ _ _ _ _ _ _ _ _ _ _ = _
    unfold collideTAFull
    rw [if_neg nz]
    dsimp only
    rw [if_neg u0.ne', if_pos (by rw [hw, div_self wb.ne']), normalDraw, if_pos sd, Res.ok_bind]
    exact e
  have pr : onePair .ta77s P rnd K (cellDensity P.k g.dr g.dz g.r0 0 [h a]) (cellDensity P.k g.dr g.dz g.r0 0 [h b]) debye [a] [b] (.ei 0 0) (h, 0) =
      .ok (put (put h a qa) b qb, 1) := by
    show (single .ta77s P _ (rnd 0) (h a) (h b) >>= _) = _
    rw [full, Res.ok_bind]
  refine ⟨qa, qb, ?_⟩
  unfold collideAll
  rw [one_cell hr hz (by show normal _ _ (List.map h (boundTo h false sp (g.r0 + 0) (g.z0 + 0))) (List.map h (boundTo h true sp (g.r0 + 0) (g.z0 + 0))) = true
                         rw [ha, hb]; exact nrm) ho]
  unfold collideCell cellDebye debyeLength
  simp only [ha, hb, List.map_cons, List.map_nil, List.length_cons, List.length_nil, zero_add]
  rw [if_pos nrm, if_neg (not_le.mpr de), if_neg (not_le.mpr di), Res.ok_bind, Res.ok_bind]
  dsimp only
  rw [cp, loop_cons]
  rw [hdeb, pr, Res.ok_bind]
  show ∃ h', _ ∧ (Res.ok (put (put h a qa) b qb, 1) >>= _) = _ ∧ _
  rw [Res.ok_bind]
  refine ⟨_, e, rfl, ?_⟩
  have cc := correctAll_cell (K := K) ap h (put (put h a qa) b qb) (i := 0) (j := 0) (by omega) (by omega)
  rw [ha, hb] at cc
  obtain ⟨oa, ob⟩ := ta_only e
  dsimp only at oa ob
  simp only [List.map_cons, List.map_nil] at cc
  rw [put_self, put_other _ _ nab, put_self,
    C39_cold_fails (v := vel (h b)) (before := [h b]) (after := [qb]) ph.massIon (by simpa using wb) (by simp) (by simp [ob.weight]) (by simp),
    C39_cold_fails (v := vel (h a)) (before := [h a]) (after := [qa]) ph.massEl (by simpa using wa) (by simp) (by simp [oa.weight]) (by simp)] at cc
  exact ⟨by simpa using cc.2, by simpa using cc.1⟩

/-- C103 fails: one electron and one ion of the same weight, alone in a cell, no other ions in the domain.  Whatever their masses and (different) velocities, the
step changes the total momentum of the cell, for every deflection different from zero (and almost every azimuth). -/
theorem C103_fails {P : Phys} {K : Kinds} {g : Place} {sp : List Species} {h : Heap} (ph : Physical P K g) (F : Filled g sp h) (hr : 0 < g.nr) (hz : 0 < g.nz)
    {a b : Nat} (ha : boundTo h false sp (g.r0 + 0) (g.z0 + 0) = [a]) (hb : boundTo h true sp (g.r0 + 0) (g.z0 + 0) = [b])
    (ho : ∀ i j, i < g.nr → j < g.nz → ¬ (i = 0 ∧ j = 0) → boundTo h true sp (g.r0 + i) (g.z0 + j) = [])
    (hw : (h a).weight = (h b).weight) (hv : vel (h a) ≠ vel (h b)) (ha0 : vel (h a) ≠ ⟨0, 0, 0⟩) (hb0 : vel (h b) ≠ ⟨0, 0, 0⟩)
    (rnd : Nat → Rnd) (hx : (rnd 0).x ≠ 0)
    (hphi : Real.sin (rnd 0).phi ≠ 0 ∨ ((vel (h a)).x = (vel (h b)).x ∧ (vel (h a)).y = (vel (h b)).y)) :
    ∃ h', collideAll .ta77s P rnd K g (fun i j => boundTo h false sp (g.r0 + i) (g.z0 + j)) (fun i j => boundTo h true sp (g.r0 + i) (g.z0 + j)) h = .ok h' ∧
      (momentumOf K.massEl h' [a]).add (momentumOf K.massIon h' [b]) ≠ (momentumOf K.massEl h [a]).add (momentumOf K.massIon h [b]) := by
  have ma : a ∈ boundTo h false sp (g.r0 + 0) (g.z0 + 0) := by rw [ha]; exact List.mem_singleton.mpr rfl
  have wa := F.weight_bound ma
  obtain ⟨sd, s0, c⟩ := pair_pass ph F hr hz ha hb ho hw hv ha0 hb0
  obtain ⟨qa, qb, h', e, e', rfl, rfl⟩ := c rnd
  refine ⟨h', e', ?_⟩
  obtain ⟨qa, qb, e2, hne⟩ := C38_TA77S_fails (pi := P.k.pi) (dzeta := (rnd 0).y) (phi := (rnd 0).phi) ph.massEl ph.massIon wa hw hv (mul_ne_zero s0.ne' hx) hphi
  have o := ta_only e
  rw [e] at e2
  injection e2 with e2
  injection e2 with e3 e4
  subst e3 e4
  intro k
  apply hne
  unfold momentumOf cMomentum Vec3.add Vec3.zip at *
  simp only [List.map_cons, List.map_nil, List.sum_cons, List.sum_nil, add_zero, vel, Vec3.mk.injEq] at *
  rw [o.1.weight, o.2.weight, ← hw] at k
  have w0 := wa.ne'
  refine ⟨?_, ?_, ?_⟩
  · apply mul_left_cancel₀ w0; linarith [k.1]
  · apply mul_left_cancel₀ w0; linarith [k.2.1]
  · apply mul_left_cancel₀ w0; linarith [k.2.2]

/-! ### A particle that nothing collides with keeps its velocity -/

/-- Corrected to its own totals a list stays as it is. -/
theorem correct_id {mass : ℝ} {l : List (Part ℝ)} (hm : 0 < mass) (hw : ∀ p ∈ l, 0 < p.weight) : correct mass (collectTotals mass l) l = l := by
  by_cases c : l = []
  · subst c
    unfold correct
    dsimp only
    split <;> rfl
  rw [correct_eq hm (W_pos hw c) rfl]
  split_ifs with k
  · rfl
  · have n : spread l ≠ 0 := fun q => k (.inl q)
    have e : Real.sqrt (let a := spread l / spread l; if a < 0 then -a else a) = 1 := by
      dsimp only
      rw [div_self n, if_neg (by norm_num), Real.sqrt_one]
    rw [e]
    conv_rhs => rw [← List.map_id l]
    apply List.map_congr_left
    intro p _
    rw [one_mul, one_mul, one_mul, add_sub_cancel, add_sub_cancel, add_sub_cancel]
    rfl

/-- C102: in a cell that `collide` does not reach (`C37_partial` says which cells these are) a step of TA77S, with its correction, changes
no velocity: the particles stay as they are. -/
theorem C102_idle {P : Phys} {rnd : Nat → Rnd} {K : Kinds} {g : Place} {sp : List Species} {h h' : Heap} {m m' : Maps} {els ions : Nat → Nat → List Nat}
    (hs : g.r0 + g.nr + 4 < 2 ^ 31 ∧ g.z0 + g.nz + 4 < 2 ^ 31) (h1 : 0 < K.massEl) (h2 : 0 < K.massIon) (F : Filled g sp h) (hm : m.Shape g.nr g.nz)
    (S : Sorted g sp h m m' els ions) (e : collideAll .ta77s P rnd K g els ions h = .ok h') {i j : Nat} (hi : i < g.nr) (hj : j < g.nz)
    (n : ∃ k, k ≤ j ∧ ¬ normal K.massEl K.massIon ((els i k).map h) ((ions i k).map h)) :
    ∀ t, t ∈ els i j ∨ t ∈ ions i j → h' t = h t := by
  have ap := sorted_apart hs F.nodup F.bound hm S
  have pp := sorted_perm hs F.bound hm S hi hj
  unfold collideAll at e
  obtain ⟨s, e1, e2⟩ := Res.bind_ok e
  injection e2 with e2
  subst e2
  have mv := collide_moved e1
  have still : ∀ t, t ∈ els i j ∨ t ∈ ions i j → s.1 t = h t := by
    intro t ht
    apply mv.2
    rintro ⟨⟨a, b⟩, hc, ht'⟩
    rw [C37_partial] at hc
    obtain ⟨⟨ha, hb⟩, hk⟩ := hc
    have same : (i, j) = (a, b) := by
      by_contra c
      rcases ht with ht | ht <;> rcases ht' with ht' | ht'
      · exact ap.ee i j a b hi hj ha hb c ht ht'
      · exact ap.ei i j a b hi hj ha hb ht ht'
      · exact ap.ei a b i j ha hb hi hj ht' ht
      · exact ap.ii i j a b hi hj ha hb c ht ht'
    injection same with s1 s2
    subst s1 s2
    obtain ⟨k, hkj, hn⟩ := n
    exact hn (hk k hkj)
  have cc := correctAll_cell (K := K) ap h s.1 hi hj
  have me : (els i j).map s.1 = (els i j).map h := List.map_congr_left fun t ht => still t (.inl ht)
  have mi : (ions i j).map s.1 = (ions i j).map h := List.map_congr_left fun t ht => still t (.inr ht)
  rw [me, mi, correct_id h2, correct_id h1] at cc
  · rintro t (ht | ht)
    · exact List.map_inj_left.mp cc.2 t ht
    · exact List.map_inj_left.mp cc.1 t ht
  · intro p hp; obtain ⟨t, ht, rfl⟩ := List.mem_map.mp hp; exact F.weight_bound (pp.2.mem_iff.mp ht)
  · intro p hp; obtain ⟨t, ht, rfl⟩ := List.mem_map.mp hp; exact F.weight_bound (pp.1.mem_iff.mp ht)

/-! ### An example -/

/-- Velocities that differ before and after the collisions differ after the correction. -/
theorem differ_after {mass : ℝ} {before l : List (Part ℝ)} (hm : 0 < mass) (hw : ∀ p ∈ before, 0 < p.weight) (same : l.map (·.weight) = before.map (·.weight))
    (hb : Mixed before) (hl : Mixed l) : Mixed (correct mass (collectTotals mass before) l) := by
  obtain ⟨p0, hp0, _⟩ := id hb
  have W0 : 0 < W before := W_pos hw (List.ne_nil_of_mem hp0)
  have hw' : ∀ p ∈ l, 0 < p.weight := by
    intro p hp
    have : p.weight ∈ before.map (·.weight) := same ▸ List.mem_map_of_mem hp
    obtain ⟨q, hq, e⟩ := List.mem_map.mp this
    rw [← e]; exact hw q hq
  have q := div_pos (spread_pos hw hb) (spread_pos hw' hl)
  rw [correct_eq hm W0 same]
  split_ifs with c
  · exact hl
  · have e : (let a := spread before / spread l; if a < 0 then -a else a) = spread before / spread l := by
      dsimp only
      rw [if_neg (not_lt.mpr q.le)]
    rw [e]
    have al := (Real.sqrt_pos.mpr q).ne'
    obtain ⟨a, ha, b, hb, n⟩ := hl
    refine ⟨_, List.mem_map_of_mem ha, _, List.mem_map_of_mem hb, fun k => n ?_⟩
    unfold vel setVel at k
    simp only [Vec3.mk.injEq, add_right_inj, mul_eq_mul_left_iff, al, or_false, sub_left_inj] at k
    unfold vel
    rw [k.1, k.2.1, k.2.2]

/-- Nothing happens without a deflection. -/
theorem ta_quiet {k : Const} {dt ma mb qa qb na nb debye phi dzeta : ℝ} {pa pb : Part ℝ} (hpi : 0 < k.pi) (he : k.eps ≠ 0) (hdt : 0 < dt)
    (hma : 0 < ma) (hmb : 0 < mb) (hqa : qa ≠ 0) (hqb : qb ≠ 0) (hna : 0 < na) (hnb : 0 < nb) (ha : 0 < pa.weight) (hb : 0 < pb.weight) :
    collideTAFull k dt ma mb qa qb na nb debye 0 phi dzeta pa pb = .ok (pa, pb) := by
  have nz : ¬ (pb.weight = 0 ∨ pa.weight = 0 ∨ ma = 0 ∨ mb = 0 ∨ ma + mb = 0) := by
    rintro (h | h | h | h | h) <;> linarith
  unfold collideTAFull
  rw [if_neg nz]
  dsimp only
  by_cases c : speedBetween (vel pa) (vel pb) = 0
  · rw [if_pos c]
  · rw [if_neg c]
    have u0 : 0 < speedBetween (vel pa) (vel pb) := lt_of_le_of_ne (Real.sqrt_nonneg _) (Ne.symm c)
    have v0 : 0 < (if pa.weight / pb.weight ≤ 1 then taVariance k dt ma mb qa qb na nb debye (speedBetween (vel pa) (vel pb))
        else taVariance k dt mb ma qb qa nb na debye (speedBetween (vel pa) (vel pb))) := by
      split_ifs
      · exact variance_pos hpi he hdt hma hmb hqa hqb hna hnb u0
      · exact variance_pos hpi he hdt hmb hma hqb hqa hnb hna u0
    unfold normalDraw
    rw [if_pos (Real.sqrt_pos.mpr v0), Res.ok_bind, mul_zero]
    have core : ∀ (m1 m2 w : ℝ) (va vb : Vec3 ℝ), taCore k.pi m1 m2 w 0 phi dzeta va vb = (va, vb) := by
      intro m1 m2 w va vb
      have s0 : sinTheta 0 = 0 := by unfold sinTheta; norm_num
      have c0 : cosTheta 0 = 1 := by unfold cosTheta; norm_num
      have d0 : ∀ u sP cP, taDelta u 0 1 sP cP = ⟨0, 0, 0⟩ := by
        intro u sP cP
        unfold taDelta
        dsimp only
        split_ifs <;> (rw [Vec3.mk.injEq]; refine ⟨by ring, by ring, by ring⟩)
      have sq : Real.sqrt (w * 0 ^ 2 + w * (1 - w) * (1 - 1) ^ 2) = 0 := by norm_num
      unfold taCore
      dsimp only
      split_ifs with g
      · rfl
      all_goals
        rw [s0, c0, sq]
        simp only [sub_self, mul_zero, sub_zero, neg_zero, d0]
        unfold Vec3.add Vec3.zip Vec3.smul
        simp
    unfold collideTA
    rw [if_neg nz]
    dsimp only
    rw [core, core]
    split_ifs <;> rfl

/-! ### C105: particles stay slower than light -/

theorem lab_slow {c : ℝ} (hc : 0 < c) (v : Vec3 ℝ) : Slow c (v.smul (Rel.lorenzFactorInv c v.length2)) := by
  have n : 0 ≤ v.length2 := by
    unfold Vec3.length2
    nlinarith [mul_self_nonneg v.x, mul_self_nonneg v.y, mul_self_nonneg v.z]
  have p : 0 < 1 + v.length2 / (c * c) := by positivity
  have sq : Rel.lorenzFactorInv c v.length2 ^ 2 = (1 + v.length2 / (c * c))⁻¹ := by
    unfold Rel.lorenzFactorInv
    rw [← Real.rpow_natCast, ← Real.rpow_mul p.le, ← Real.rpow_neg_one]
    norm_num
  unfold Slow
  have e : (v.smul (Rel.lorenzFactorInv c v.length2)).x ^ 2 + (v.smul (Rel.lorenzFactorInv c v.length2)).y ^ 2 + (v.smul (Rel.lorenzFactorInv c v.length2)).z ^ 2 =
      v.length2 * Rel.lorenzFactorInv c v.length2 ^ 2 := by
    generalize Rel.lorenzFactorInv c v.length2 = g
    unfold Vec3.smul Vec3.length2
    dsimp only
    ring
  rw [e, sq, ← div_eq_mul_inv, div_lt_iff₀ p, mul_add, mul_one, mul_div_assoc', mul_comm (c ^ 2), pow_two, mul_div_assoc, div_self (by positivity), mul_one]
  have : 0 < c * c := by positivity
  linarith

theorem zero_slow {c : ℝ} (hc : 0 < c) : Slow c Vec3.zero := by
  unfold Slow Vec3.zero
  have : 0 < c ^ 2 := by positivity
  norm_num
  linarith

theorem single_slow {M : Method} {P : Phys} {a : Args} {r : Rnd} {pa pb : Part ℝ} {q : Part ℝ × Part ℝ} (hM : M ≠ .ta77s) (hc : 0 < P.k.c)
    (e : single M P a r pa pb = .ok q) (ha : Slow P.k.c (vel pa)) (hb : Slow P.k.c (vel pb)) : Slow P.k.c (vel q.1) ∧ Slow P.k.c (vel q.2) := by
  have sk : ∀ {m1 m2 va vb r'}, skCore P.k.c P.mnzl m1 m2 r.x r.phi va vb = .ok (some r') → Slow P.k.c r'.1 ∧ Slow P.k.c r'.2 := by
    intro m1 m2 va vb r' e
    unfold skCore at e
    split at e
    · cases e
    · obtain ⟨f, _, e⟩ := Res.bind_ok e
      obtain ⟨gr, _, e⟩ := Res.bind_ok e
      split at e
      · cases e
      · split at e
        · cases e
        · obtain ⟨_, _, e⟩ := Res.bind_ok e
          obtain ⟨_, _, e⟩ := Res.bind_ok e
          injection e with e
          injection e with e
          subst e
          exact ⟨lab_slow hc _, lab_slow hc _⟩
  have p12 : ∀ {m1 m2 w1 w2 va vb r'}, p12Core P.k.c P.mnzl m1 m2 w1 w2 r.x r.y r.phi r.z r.normal va vb = .ok (some r') → Slow P.k.c r'.1 ∧ Slow P.k.c r'.2 := by
    intro m1 m2 w1 w2 va vb r' e
    unfold p12Core at e
    split at e
    · cases e
    · obtain ⟨ga, _, e⟩ := Res.bind_ok e
      obtain ⟨gb, _, e⟩ := Res.bind_ok e
      obtain ⟨f, _, e⟩ := Res.bind_ok e
      obtain ⟨gr, _, e⟩ := Res.bind_ok e
      split at e
      · cases e
      · split at e
        · cases e
        · split at e
          · cases e
          · obtain ⟨cx, _, e⟩ := Res.bind_ok e
            split at e
            · cases e
            · obtain ⟨p, _, e⟩ := Res.bind_ok e
              injection e with e
              injection e with e
              subst e
              dsimp only
              constructor <;> split_ifs <;> first | exact lab_slow hc _ | exact zero_slow hc
  cases M with
  | ta77s => exact absurd rfl hM
  | sk98 =>
    change collideSK _ _ _ _ _ _ _ _ = _ at e
    unfold collideSK at e
    split at e
    · cases e
    · split at e <;>
      · obtain ⟨o, e1, e⟩ := Res.bind_ok e
        cases o with
        | none => injection e with e; subst e; exact ⟨ha, hb⟩
        | some v =>
          injection e with e; subst e
          have := sk e1
          first | exact this | exact this.symm
  | p12 =>
    change collideP12 _ _ _ _ _ _ _ _ _ _ _ = _ at e
    unfold collideP12 at e
    split at e
    · cases e
    · split at e <;>
      · obtain ⟨o, e1, e⟩ := Res.bind_ok e
        cases o with
        | none => injection e with e; subst e; exact ⟨ha, hb⟩
        | some v =>
          injection e with e; subst e
          have := p12 e1
          dsimp only
          constructor <;> split_ifs <;> first | exact ha | exact hb | exact this.1 | exact this.2

/-- C105 for the relativistic methods: if all particles of the domain are slower than light before a collision step of SK98 or P12 that
runs through, so they are after it, for all random numbers. -/
theorem C105_relativistic {M : Method} {P : Phys} {K : Kinds} {g : Place} {sp : List Species} {h h' : Heap} {m m' : Maps} (hM : M ≠ .ta77s) (hc : 0 < P.k.c)
    (hs : g.r0 + g.nr + 4 < 2 ^ 31 ∧ g.z0 + g.nz + 4 < 2 ^ 31) (F : Filled g sp h) (hm : m.Shape g.nr g.nz) (p : Pass M P K g sp h m h' m')
    (sl : ∀ s ∈ sp, ∀ t ∈ s.particles, Slow P.k.c (vel (h t))) : ∀ s ∈ sp, ∀ t ∈ s.particles, Slow P.k.c (vel (h' t)) := by
  obtain ⟨els, ions, rnd, S, e⟩ := p
  have pp := fun {i j} => sorted_perm hs F.bound hm S (i := i) (j := j)
  unfold collideAll at e
  obtain ⟨s, e1, e2⟩ := Res.bind_ok e
  have eh : h' = s.1 := by
    cases M with
    | ta77s => exact absurd rfl hM
    | sk98 => injection e2 with e2; exact e2.symm
    | p12 => injection e2 with e2; exact e2.symm
  subst eh
  refine loop_keeps (fun st : St => ∀ s ∈ sp, ∀ t ∈ s.particles, Slow P.k.c (vel (st.1 t))) _ _ ?_ (h, 0) s sl e1
  rintro ⟨i, j⟩ hc' a b ha hb
  rw [C37_partial] at hc'
  obtain ⟨⟨hi, hj⟩, _⟩ := hc'
  have pm := pp hi hj
  unfold collideCell at hb
  obtain ⟨d, _, e⟩ := Res.bind_ok hb
  cases d with
  | none => injection e with e; subst e; exact ha
  | some debye =>
    refine loop_keeps (fun st : St => ∀ s ∈ sp, ∀ t ∈ s.particles, Slow P.k.c (vel (st.1 t))) _ _ ?_ a b ha e
    intro pr _ a b ha hb
    have step : ∀ (ar : Args) (l l' : List Nat) (x y : Nat), (∀ t ∈ l, ∃ s ∈ sp, t ∈ s.particles) → (∀ t ∈ l', ∃ s ∈ sp, t ∈ s.particles) →
        hit M P rnd ar l[x]? l'[y]? a = .ok b → ∀ s ∈ sp, ∀ t ∈ s.particles, Slow P.k.c (vel (b.1 t)) := by
      intro ar l l' x y hl hl' e s hs t ht
      unfold hit at e
      cases hx : l[x]? with
      | none => rw [hx] at e; cases e
      | some u =>
        cases hy : l'[y]? with
        | none => rw [hx, hy] at e; cases e
        | some v =>
          rw [hx, hy] at e
          obtain ⟨q, e1, e2⟩ := Res.bind_ok e
          injection e2 with e2
          subst e2
          obtain ⟨s1, hs1, hu⟩ := hl u (List.mem_of_getElem? hx)
          obtain ⟨s2, hs2, hv⟩ := hl' v (List.mem_of_getElem? hy)
          have := single_slow hM hc e1 (ha s1 hs1 u hu) (ha s2 hs2 v hv)
          show Slow P.k.c (vel (put (put a.1 u q.1) v q.2 t))
          by_cases c : t = v
          · subst c; rw [put_self]; exact this.2
          · rw [put_other _ _ c]
            by_cases c' : t = u
            · subst c'; rw [put_self]; exact this.1
            · rw [put_other _ _ c']; exact ha s hs t ht
    have le : ∀ t ∈ els i j, ∃ s ∈ sp, t ∈ s.particles := fun t ht => (boundTo_mem (pm.2.mem_iff.mp ht)).1
    have li : ∀ t ∈ ions i j, ∃ s ∈ sp, t ∈ s.particles := fun t ht => (boundTo_mem (pm.1.mem_iff.mp ht)).1
    cases pr with
    | ii x y => exact step _ _ _ x y li li hb
    | ee x y => exact step _ _ _ x y le le hb
    | ei x y => exact step _ _ _ x y le li hb

/-- C105 fails for TA77S: an electron and an ion that is not lighter, of the same weight, alone in a cell, which approach each other along
the axis with more than half the velocity of light each (but slower than light), with no other ions in the domain.  For every deflection above some bound the electron is faster
than light after the collision step. -/
theorem C105_fails {P : Phys} {K : Kinds} {g : Place} {sp : List Species} {h : Heap} (ph : Physical P K g) (F : Filled g sp h) (hr : 0 < g.nr) (hz : 0 < g.nz)
    {a b : Nat} (ha : boundTo h false sp (g.r0 + 0) (g.z0 + 0) = [a]) (hb : boundTo h true sp (g.r0 + 0) (g.z0 + 0) = [b])
    (ho : ∀ i j, i < g.nr → j < g.nz → ¬ (i = 0 ∧ j = 0) → boundTo h true sp (g.r0 + i) (g.z0 + j) = [])
    (hw : (h a).weight = (h b).weight) {v : ℝ} (hva : vel (h a) = ⟨0, 0, -v⟩) (hvb : vel (h b) = ⟨0, 0, v⟩) (hc : 0 < P.k.c) (hv : P.k.c < 2 * v)
    (hme : K.massEl ≤ K.massIon) :
    ∃ X, ∀ rnd : Nat → Rnd, X ≤ (rnd 0).x → ∃ h',
      collideAll .ta77s P rnd K g (fun i j => boundTo h false sp (g.r0 + i) (g.z0 + j)) (fun i j => boundTo h true sp (g.r0 + i) (g.z0 + j)) h = .ok h' ∧
      P.k.c ^ 2 < (vel (h' a)).length2 := by
  have v0 : 0 < v := by linarith
  have mb : b ∈ boundTo h true sp (g.r0 + 0) (g.z0 + 0) := by rw [hb]; exact List.mem_singleton.mpr rfl
  have wb := F.weight_bound mb
  have ne : vel (h a) ≠ vel (h b) := by
    rw [hva, hvb]; intro k; injection k with _ _ k; linarith
  have na : vel (h a) ≠ ⟨0, 0, 0⟩ := by rw [hva]; intro k; injection k with _ _ k; linarith
  have nb : vel (h b) ≠ ⟨0, 0, 0⟩ := by rw [hvb]; intro k; injection k with _ _ k; linarith
  obtain ⟨sd, s0, cc⟩ := pair_pass ph F hr hz ha hb ho hw ne na nb
  refine ⟨1 / sd, fun rnd hx => ?_⟩
  obtain ⟨qa, qb, h', e, e', rfl, rfl⟩ := cc rnd
  refine ⟨h', e', ?_⟩
  have d1 : 1 ≤ sd * (rnd 0).x := by
    rw [div_le_iff₀ s0] at hx
    linarith
  generalize sd * (rnd 0).x = delta at *
  have me := ph.massEl
  have mi := ph.massIon
  have nz : ¬ ((h b).weight = 0 ∨ (h a).weight = 0 ∨ K.massEl = 0 ∨ K.massIon = 0 ∨ K.massEl + K.massIon = 0) := by
    rintro (k | k | k | k | k) <;> linarith
  unfold collideTA at e
  rw [if_neg nz, hw, div_self wb.ne'] at e
  dsimp only at e
  rw [if_pos (le_refl _)] at e
  injection e with e
  injection e with e1 e2
  rw [taCore_equal _ _ _ _ _ _ _ _ ne] at e1
  have vz : (vel (h' a)).z = -v + (taDelta ((vel (h a)).sub (vel (h b))) (sinTheta delta) (cosTheta delta) (Real.sin (rnd 0).phi) (Real.cos (rnd 0).phi)).z *
      (K.massEl * K.massIon / (K.massEl + K.massIon) / K.massEl) := by
    rw [← e1, hva]
    unfold vel setVel Vec3.add Vec3.zip Vec3.smul
    dsimp only
  have dz : (taDelta ((vel (h a)).sub (vel (h b))) (sinTheta delta) (cosTheta delta) (Real.sin (rnd 0).phi) (Real.cos (rnd 0).phi)).z =
      -(2 * v) * (1 - cosTheta delta) := by
    rw [hva, hvb]
    unfold taDelta Vec3.sub Vec3.zip
    dsimp only
    rw [if_pos (by norm_num)]
    dsimp only
    have : Real.sqrt ((0 - 0) ^ 2 + (0 - 0) ^ 2 + (-v - v) ^ 2) = 2 * v := by
      rw [show ((0 : ℝ) - 0) ^ 2 + (0 - 0) ^ 2 + (-v - v) ^ 2 = (2 * v) ^ 2 by ring]
      exact Real.sqrt_sq (by linarith)
    rw [this]
  have ct : 1 ≤ 1 - cosTheta delta := by
    rw [(sin_cos_theta delta).2, le_div_iff₀ (by positivity)]
    nlinarith
  have kk : 1 / 2 ≤ K.massEl * K.massIon / (K.massEl + K.massIon) / K.massEl := by
    rw [div_div, div_le_div_iff₀ two_pos (by positivity)]
    nlinarith
  have big : (vel (h' a)).z ≤ -(2 * v) := by
    rw [vz, dz]
    generalize K.massEl * K.massIon / (K.massEl + K.massIon) / K.massEl = k at *
    generalize 1 - cosTheta delta = t at *
    have : 1 / 2 ≤ t * k := by nlinarith
    nlinarith
  unfold Vec3.length2
  have : P.k.c ^ 2 < (vel (h' a)).z ^ 2 := by nlinarith
  nlinarith [sq_nonneg (vel (h' a)).x, sq_nonneg (vel (h' a)).y]

/-! ### A step with collisions -/

namespace Four

/-- A domain of one cell with two electrons and two ions. -/
def place : Place := ⟨1, 1, 0, 0, 1, 1⟩
noncomputable def kinds : Kinds := ⟨1, 2000, -1, 1⟩
noncomputable def phys : Phys := ⟨⟨3, 1, 1, 1, 10, 1, 1⟩, 1, 1⟩
def species : List Species := [⟨"electrons", [0, 1]⟩, ⟨"ions", [2, 3]⟩]
noncomputable def part (x y z : ℝ) : Part ℝ := ⟨1, 0, 1, 1, 0, 1, x, y, z, 1, 0, 0, 0, 0, 0⟩
noncomputable def heap : Heap := fun t => match t with
  | 0 => part 0 0 1
  | 1 => part 0 2 0
  | 2 => part 0 0 (-1)
  | _ => part 0 1 0
noncomputable def rnd : Nat → Rnd := fun n => if n = 2 then ⟨1, 0, 0, 0, true⟩ else ⟨0, 0, 0, 0, true⟩

theorem physical : Physical phys kinds place := by
  constructor <;> norm_num [phys, kinds, place]

theorem heap_weight (t : Nat) : (heap t).weight = 1 ∧ (heap t).cellR = 0 ∧ (heap t).cellZ = 0 := by
  unfold heap part
  split <;> exact ⟨rfl, rfl, rfl⟩

theorem filled : Filled place species heap where
  nodup := by decide
  weight := fun s _ t _ => by rw [(heap_weight t).1]; norm_num
  bound := fun s _ t _ => by
    unfold Bound
    rw [(heap_weight t).2.1, (heap_weight t).2.2]
    norm_num [place]
  few := by decide

theorem bound_el : boundTo heap false species (place.r0 + 0) (place.z0 + 0) = [0, 1] := by
  unfold boundTo
  simp [heap_weight, species, place, isIon]

theorem bound_ion : boundTo heap true species (place.r0 + 0) (place.z0 + 0) = [2, 3] := by
  unfold boundTo
  simp [heap_weight, species, place, isIon]

theorem heap_vel : vel (heap 0) = ⟨0, 0, 1⟩ ∧ vel (heap 1) = ⟨0, 2, 0⟩ ∧ vel (heap 2) = ⟨0, 0, -1⟩ ∧ vel (heap 3) = ⟨0, 1, 0⟩ := ⟨rfl, rfl, rfl, rfl⟩

theorem normal4 : normal kinds.massEl kinds.massIon [heap 0, heap 1] [heap 2, heap 3] = true := by
  rw [normal_moving (by norm_num [kinds]) (by norm_num [kinds]) (by simp [heap_weight]) (by simp [heap_weight])]
  exact ⟨⟨heap 0, by simp, by norm_num [heap, part]⟩, ⟨heap 2, by simp, by norm_num [heap, part]⟩⟩

/-- One electron is deflected at an ion and the step is corrected: velocities change, those of both kinds still differ. -/
theorem step : ∃ h' m', Pass .ta77s phys kinds place species heap (newMaps 1 1) h' m' ∧ (h' 0).velR ≠ (h' 1).velR ∧
    Differ h' [0, 1] ∧ Differ h' [2, 3] := by
  have hs : place.r0 + place.nr + 4 < 2 ^ 31 ∧ place.z0 + place.nz + 4 < 2 ^ 31 := by norm_num [place]
  have sh : (newMaps 1 1).Shape place.nr place.nz := ⟨⟨rfl, rfl, rfl⟩, rfl, rfl, rfl⟩
  obtain ⟨m', S⟩ := sorted_exists hs filled.bound sh
  have ap := sorted_apart hs filled.nodup filled.bound sh S
  have cp : cellPairs float32 2 2 = [.ii 0 1, .ee 0 1, .ei 0 0, .ei 1 1] := by decide +kernel
  have ph := physical
  have de := density_pos (k := phys.k) (r0 := place.r0) (i := 0) ph.pi ph.dr ph.dz (l := [heap 0, heap 1]) (by simp [heap_weight]) (by simp)
  have di := density_pos (k := phys.k) (r0 := place.r0) (i := 0) ph.pi ph.dr ph.dz (l := [heap 2, heap 3]) (by simp [heap_weight]) (by simp)
  have ww : ∀ t, 0 < (heap t).weight := fun t => by rw [(heap_weight t).1]; norm_num
  obtain ⟨q, qo, qs, e, qx, q0⟩ : ∃ q : ℝ → Part ℝ × Part ℝ, (∀ debye, OnlyVel (heap 0) (q debye).1) ∧ (∀ debye, OnlyVel (heap 2) (q debye).2) ∧
      (∀ debye, single .ta77s phys ⟨kinds.massEl, kinds.massIon, kinds.chargeEl, kinds.chargeIon,
        cellDensity phys.k place.dr place.dz place.r0 0 [heap 0, heap 1], cellDensity phys.k place.dr place.dz place.r0 0 [heap 2, heap 3], debye⟩ (rnd 2)
        (heap 0) (heap 2) = .ok (q debye)) ∧ (∀ debye, (q debye).1.velR ≠ 0) ∧ ∀ debye, (vel (q debye).1).y = 0 ∧ (vel (q debye).2).y = 0 := by
    suffices H : ∀ debye, ∃ q : Part ℝ × Part ℝ, OnlyVel (heap 0) q.1 ∧ OnlyVel (heap 2) q.2 ∧
      single .ta77s phys ⟨kinds.massEl, kinds.massIon, kinds.chargeEl, kinds.chargeIon,
        cellDensity phys.k place.dr place.dz place.r0 0 [heap 0, heap 1], cellDensity phys.k place.dr place.dz place.r0 0 [heap 2, heap 3], debye⟩ (rnd 2)
        (heap 0) (heap 2) = .ok q ∧ q.1.velR ≠ 0 ∧ (vel q.1).y = 0 ∧ (vel q.2).y = 0 by
      choose q h1 h2 h3 h4 h5 using H
      exact ⟨q, h1, h2, h3, h4, h5⟩
    intro debye
    have hv : vel (heap 0) ≠ vel (heap 2) := by
      rw [heap_vel.1, heap_vel.2.2.1]; intro k; injection k with _ _ k; norm_num at k
    have u0 : 0 < speedBetween (vel (heap 0)) (vel (heap 2)) := speed_pos hv
    have vpos := variance_pos (debye := debye) ph.pi ph.eps ph.dt ph.massEl ph.massIon ph.chargeEl ph.chargeIon de di u0
    have sd := Real.sqrt_pos.mpr vpos
    have nz : ¬ ((heap 2).weight = 0 ∨ (heap 0).weight = 0 ∨ kinds.massEl = 0 ∨ kinds.massIon = 0 ∨ kinds.massEl + kinds.massIon = 0) := by
      rw [(heap_weight 2).1, (heap_weight 0).1]; norm_num [kinds]
    have e : single .ta77s phys ⟨kinds.massEl, kinds.massIon, kinds.chargeEl, kinds.chargeIon,
        cellDensity phys.k place.dr place.dz place.r0 0 [heap 0, heap 1], cellDensity phys.k place.dr place.dz place.r0 0 [heap 2, heap 3], debye⟩ (rnd 2)
        (heap 0) (heap 2) = collideTA phys.k.pi kinds.massEl kinds.massIon (Real.sqrt (taVariance phys.k phys.dt kinds.massEl kinds.massIon kinds.chargeEl kinds.chargeIon
        (cellDensity phys.k place.dr place.dz place.r0 0 [heap 0, heap 1]) (cellDensity phys.k place.dr place.dz place.r0 0 [heap 2, heap 3]) debye
        (speedBetween (vel (heap 0)) (vel (heap 2)))) * (rnd 2).x) (rnd 2).phi (rnd 2).y (heap 0) (heap 2) := by
      show collideTAFull _ _ _ _ _ _ _ _ _ _ _ _ _ _ = _
      unfold collideTAFull
      rw [if_neg nz]
      dsimp only
      rw [if_neg u0.ne', if_pos (by rw [(heap_weight 2).1, (heap_weight 0).1]; norm_num), normalDraw, if_pos sd, Res.ok_bind]
    have d0 : 0 < Real.sqrt (taVariance phys.k phys.dt kinds.massEl kinds.massIon kinds.chargeEl kinds.chargeIon
        (cellDensity phys.k place.dr place.dz place.r0 0 [heap 0, heap 1]) (cellDensity phys.k place.dr place.dz place.r0 0 [heap 2, heap 3]) debye
        (speedBetween (vel (heap 0)) (vel (heap 2)))) * (rnd 2).x := by
      apply mul_pos sd
      norm_num [rnd]
    rw [e]
    generalize Real.sqrt (taVariance phys.k phys.dt kinds.massEl kinds.massIon kinds.chargeEl kinds.chargeIon
        (cellDensity phys.k place.dr place.dz place.r0 0 [heap 0, heap 1]) (cellDensity phys.k place.dr place.dz place.r0 0 [heap 2, heap 3]) debye
        (speedBetween (vel (heap 0)) (vel (heap 2)))) * (rnd 2).x = delta at d0 ⊢
    have dd : taDelta ((vel (heap 0)).sub (vel (heap 2))) (sinTheta delta) (cosTheta delta) (Real.sin (rnd 2).phi) (Real.cos (rnd 2).phi) =
        ⟨2 * sinTheta delta, 0, -2 * (1 - cosTheta delta)⟩ := by
      rw [heap_vel.1, heap_vel.2.2.1]
      unfold taDelta Vec3.sub Vec3.zip
      dsimp only
      rw [if_pos (by norm_num)]
      have : Real.sqrt ((0 - 0) ^ 2 + (0 - 0) ^ 2 + (1 - -1) ^ 2) = 2 := by
        rw [show ((0 : ℝ) - 0) ^ 2 + (0 - 0) ^ 2 + (1 - -1) ^ 2 = 2 ^ 2 by norm_num]
        exact Real.sqrt_sq (by norm_num)
      rw [this]
      have : (rnd 2).phi = 0 := by norm_num [rnd]
      rw [this, Real.sin_zero, Real.cos_zero]
      norm_num
    have st : 0 < sinTheta delta := by
      unfold sinTheta
      positivity
    refine ⟨(setVel (heap 0) (taCore phys.k.pi kinds.massEl kinds.massIon 1 delta (rnd 2).phi (rnd 2).y (vel (heap 0)) (vel (heap 2))).1,
      setVel (heap 2) (taCore phys.k.pi kinds.massEl kinds.massIon 1 delta (rnd 2).phi (rnd 2).y (vel (heap 0)) (vel (heap 2))).2), ⟨_, rfl⟩, ⟨_, rfl⟩, ?_, ?_, ?_⟩
    · unfold collideTA
      rw [if_neg nz, (heap_weight 2).1, (heap_weight 0).1, div_self one_ne_zero]
      dsimp only
      rw [if_pos (le_refl _)]
    · rw [taCore_equal _ _ _ _ _ _ _ _ hv, dd]
      unfold setVel Vec3.add Vec3.zip Vec3.smul
      rw [heap_vel.1]
      norm_num [kinds]
      exact st.ne'
    · rw [taCore_equal _ _ _ _ _ _ _ _ hv, dd]
      unfold vel setVel Vec3.add Vec3.zip Vec3.smul
      norm_num [heap, part]
  have quiet : ∀ (a : Args) (n : Nat) (p p' : Part ℝ), n ≠ 2 → 0 < a.ma → 0 < a.mb → a.qa ≠ 0 → a.qb ≠ 0 → 0 < a.na → 0 < a.nb → 0 < p.weight → 0 < p'.weight →
      single .ta77s phys a (rnd n) p p' = .ok (p, p') := by
    intro a n p p' hn h1 h2 h3 h4 h5 h6 h7 h8
    have : rnd n = ⟨0, 0, 0, 0, true⟩ := by unfold rnd; rw [if_neg hn]
    rw [this]
    exact ta_quiet ph.pi ph.eps ph.dt h1 h2 h3 h4 h5 h6 h7 h8
  have same : ∀ (k : Heap) (t : Nat) (p : Part ℝ), k t = p → put k t p = k := by
    intro k t p e
    funext s
    unfold put
    split_ifs with c
    · rw [c, e]
    · rfl
  generalize hdeb : phys.k.debye1 / Real.sqrt (cellDensity phys.k place.dr place.dz place.r0 0 [heap 0, heap 1] / cellTemperature phys.k kinds.massEl [heap 0, heap 1] +
    cellDensity phys.k place.dr place.dz place.r0 0 [heap 2, heap 3] / cellTemperature phys.k kinds.massIon [heap 2, heap 3]) = debye
  have col : collide .ta77s phys rnd kinds place (fun i j => boundTo heap false species (place.r0 + i) (place.z0 + j))
      (fun i j => boundTo heap true species (place.r0 + i) (place.z0 + j)) heap = .ok (put (put heap 0 (q debye).1) 2 (q debye).2, 4) := by
    have n4 : normal kinds.massEl kinds.massIon (List.map heap (boundTo heap false species (place.r0 + 0) (place.z0 + 0)))
        (List.map heap (boundTo heap true species (place.r0 + 0) (place.z0 + 0))) = true := by
      rw [bound_el, bound_ion]; exact normal4
    rw [one_cell (g := place) (els := fun i j => boundTo heap false species (place.r0 + i) (place.z0 + j))
      (ions := fun i j => boundTo heap true species (place.r0 + i) (place.z0 + j)) Nat.one_pos Nat.one_pos n4 (fun i j (hi : i < 1) (hj : j < 1) c => by omega)]
    unfold collideCell cellDebye debyeLength
    simp only [bound_el, bound_ion, List.map_cons, List.map_nil, List.length_cons, List.length_nil, zero_add, Nat.reduceAdd]
    rw [if_pos normal4, if_neg (not_le.mpr de), if_neg (not_le.mpr di), Res.ok_bind, Res.ok_bind]
    dsimp only
    rw [hdeb, cp, loop_cons]
    have s1 : onePair .ta77s phys rnd kinds (cellDensity phys.k place.dr place.dz place.r0 0 [heap 0, heap 1])
        (cellDensity phys.k place.dr place.dz place.r0 0 [heap 2, heap 3]) debye [0, 1] [2, 3] (.ii 0 1) (heap, 0) = .ok (heap, 1) := by
      show (single .ta77s phys _ (rnd 0) (heap 2) (heap 3) >>= _) = _
      rw [quiet _ _ _ _ (by decide) ph.massIon ph.massIon ph.chargeIon ph.chargeIon di di (ww _) (ww _), Res.ok_bind]
      dsimp only
      rw [same heap 2 _ rfl, same heap 3 _ rfl]
    have s2 : onePair .ta77s phys rnd kinds (cellDensity phys.k place.dr place.dz place.r0 0 [heap 0, heap 1])
        (cellDensity phys.k place.dr place.dz place.r0 0 [heap 2, heap 3]) debye [0, 1] [2, 3] (.ee 0 1) (heap, 1) = .ok (heap, 2) := by
      show (single .ta77s phys _ (rnd 1) (heap 0) (heap 1) >>= _) = _
      rw [quiet _ _ _ _ (by decide) ph.massEl ph.massEl ph.chargeEl ph.chargeEl de de (ww _) (ww _), Res.ok_bind]
      dsimp only
      rw [same heap 0 _ rfl, same heap 1 _ rfl]
    have s3 : onePair .ta77s phys rnd kinds (cellDensity phys.k place.dr place.dz place.r0 0 [heap 0, heap 1])
        (cellDensity phys.k place.dr place.dz place.r0 0 [heap 2, heap 3]) debye [0, 1] [2, 3] (.ei 0 0) (heap, 2) =
        .ok (put (put heap 0 (q debye).1) 2 (q debye).2, 3) := by
      show (single .ta77s phys _ (rnd 2) (heap 0) (heap 2) >>= _) = _
      rw [e, Res.ok_bind]
    have s4 : onePair .ta77s phys rnd kinds (cellDensity phys.k place.dr place.dz place.r0 0 [heap 0, heap 1])
        (cellDensity phys.k place.dr place.dz place.r0 0 [heap 2, heap 3]) debye [0, 1] [2, 3] (.ei 1 1) (put (put heap 0 (q debye).1) 2 (q debye).2, 3) =
        .ok (put (put heap 0 (q debye).1) 2 (q debye).2, 4) := by
      show (single .ta77s phys _ (rnd 3) (heap 1) (heap 3) >>= _) = _
      rw [quiet _ _ _ _ (by decide) ph.massEl ph.massIon ph.chargeEl ph.chargeIon de di (ww 1) (ww 3), Res.ok_bind]
      dsimp only
      rw [same (put (put heap 0 (q debye).1) 2 (q debye).2) 1 (heap 1) rfl, same (put (put heap 0 (q debye).1) 2 (q debye).2) 3 (heap 3) rfl]
    rw [s1, Res.ok_bind, loop_cons, s2, Res.ok_bind, loop_cons, s3, Res.ok_bind, loop_cons, s4, Res.ok_bind]
    rfl
  generalize hh : put (put heap 0 (q debye).1) 2 (q debye).2 = k at col
  have k0 : k 0 = (q debye).1 := by rw [← hh]; rfl
  have k1 : k 1 = heap 1 := by rw [← hh]; rfl
  have k2 : k 2 = (q debye).2 := by rw [← hh]; rfl
  have k3 : k 3 = heap 3 := by rw [← hh]; rfl
  refine ⟨_, m', ⟨_, _, rnd, S, by unfold collideAll; rw [col, Res.ok_bind]⟩, ?_⟩
  have cc := correctAll_cell (K := kinds) ap heap k (i := 0) (j := 0) (by decide) (by decide)
  generalize correctAll kinds place (fun i j => boundTo heap false species (place.r0 + i) (place.z0 + j))
      (fun i j => boundTo heap true species (place.r0 + i) (place.z0 + j)) heap k = h' at cc ⊢
  rw [bound_el, bound_ion] at cc
  simp only [List.map_cons, List.map_nil] at cc
  obtain ⟨ci, ce⟩ := cc
  have wb : ∀ p ∈ [heap 0, heap 1], 0 < p.weight := by simp [heap_weight]
  have wi : ∀ p ∈ [heap 2, heap 3], 0 < p.weight := by simp [heap_weight]
  have swe : [k 0, k 1].map (·.weight) = [heap 0, heap 1].map (·.weight) := by simp [k0, k1, (qo debye).weight]
  have swi : [k 2, k 3].map (·.weight) = [heap 2, heap 3].map (·.weight) := by simp [k2, k3, (qs debye).weight]
  have me : Mixed [heap 0, heap 1] := ⟨heap 0, by simp, heap 1, by simp, by rw [heap_vel.1, heap_vel.2.1]; intro k; injection k with _ _ k; norm_num at k⟩
  have mi : Mixed [heap 2, heap 3] := ⟨heap 2, by simp, heap 3, by simp, by rw [heap_vel.2.2.1, heap_vel.2.2.2]; intro k; injection k with _ _ k; norm_num at k⟩
  have me' : Mixed [k 0, k 1] := ⟨k 0, by simp, k 1, by simp, by
    rw [k0, k1, heap_vel.2.1]; intro c; have := (q0 debye).1; rw [c] at this; norm_num at this⟩
  have mi' : Mixed [k 2, k 3] := ⟨k 2, by simp, k 3, by simp, by
    rw [k2, k3, heap_vel.2.2.2]; intro c; have := (q0 debye).2; rw [c] at this; norm_num at this⟩
  have fe := differ_after (mass := kinds.massEl) ph.massEl wb swe me me'
  have fi := differ_after (mass := kinds.massIon) ph.massIon wi swi mi mi'
  rw [← ce] at fe
  rw [← ci] at fi
  refine ⟨?_, ?_, ?_⟩
  · rw [correct_eq ph.massEl (W_pos wb (by simp)) swe] at ce
    have sp1 := spread_pos wb me
    have sp2 := spread_pos (l := [k 0, k 1]) (by simp [k0, k1, (qo debye).weight, heap_weight]) me'
    rw [if_neg (by rintro (c | c) <;> linarith)] at ce
    have qp := div_pos sp1 sp2
    have al : 0 < Real.sqrt (let a := spread [heap 0, heap 1] / spread [k 0, k 1]; if a < 0 then -a else a) := by
      dsimp only
      rw [if_neg (not_lt.mpr qp.le)]
      exact Real.sqrt_pos.mpr qp
    generalize Real.sqrt (let a := spread [heap 0, heap 1] / spread [k 0, k 1]; if a < 0 then -a else a) = al at *
    simp only [List.map_cons, List.map_nil, List.cons.injEq, and_true] at ce
    rw [ce.1, ce.2, k0, k1]
    unfold setVel
    dsimp only
    intro c
    have c := add_left_cancel c
    have c := mul_left_cancel₀ al.ne' c
    have c := sub_left_injective c
    exact qx debye (c.trans rfl)
  · obtain ⟨x, hx, y, hy, n⟩ := fe
    simp only [List.mem_cons, List.not_mem_nil, or_false] at hx hy
    rcases hx with rfl | rfl <;> rcases hy with rfl | rfl <;> first | exact absurd rfl n | skip
    · exact ⟨0, by simp, 1, by simp, n⟩
    · exact ⟨1, by simp, 0, by simp, n⟩
  · obtain ⟨x, hx, y, hy, n⟩ := fi
    simp only [List.mem_cons, List.not_mem_nil, or_false] at hx hy
    rcases hx with rfl | rfl <;> rcases hy with rfl | rfl <;> first | exact absurd rfl n | skip
    · exact ⟨2, by simp, 3, by simp, n⟩
    · exact ⟨3, by simp, 2, by simp, n⟩

/-- The hypotheses of C102, C103 and C104 hold and the step changes velocities. -/
example : ∃ h' m', Steps phys kinds place species heap (newMaps 1 1) [h', heap] h' m' ∧ (h' 0).velR ≠ (h' 1).velR ∧
    (∀ t, OnlyVel (heap t) (h' t)) ∧ momentumOf kinds.massEl h' [0, 1] = momentumOf kinds.massEl heap [0, 1] ∧
    energyOf kinds.massIon h' [2, 3] = energyOf kinds.massIon heap [2, 3] := by
  obtain ⟨h', m', p, n, d1, d2⟩ := step
  have hs : place.r0 + place.nr + 4 < 2 ^ 31 ∧ place.z0 + place.nz + 4 < 2 ^ 31 := by norm_num [place]
  have sh : (newMaps 1 1).Shape place.nr place.nz := ⟨⟨rfl, rfl, rfl⟩, rfl, rfl, rfl⟩
  have st : Steps phys kinds place species heap (newMaps 1 1) [h', heap] h' m' := .more .none p
  have de : Differ heap [0, 1] := ⟨0, by simp, 1, by simp, by rw [heap_vel.1, heap_vel.2.1]; intro k; injection k with _ _ k; norm_num at k⟩
  have di : Differ heap [2, 3] := ⟨2, by simp, 3, by simp, by rw [heap_vel.2.2.1, heap_vel.2.2.2]; intro k; injection k with _ _ k; norm_num at k⟩
  have e := C104_fails hs physical.massEl physical.massIon filled sh st (i := 0) (j := 0) (by decide) (by decide) false (by rw [bound_el]; simpa using ⟨d1, de⟩)
  have i := C104_fails hs physical.massEl physical.massIon filled sh st (i := 0) (j := 0) (by decide) (by decide) true (by rw [bound_ion]; simpa using ⟨d2, di⟩)
  rw [bound_el] at e
  rw [bound_ion] at i
  exact ⟨h', m', st, n, (C102_only hs filled sh p).1, e.1, i.2⟩

/-- One electron and one ion that approach each other along the axis with 0.6 of the velocity of light. -/
noncomputable def heap2 : Heap := fun t => match t with
  | 0 => part 0 0 (-6)
  | _ => part 0 0 6
def species2 : List Species := [⟨"electrons", [0]⟩, ⟨"ions", [1]⟩]
theorem heap2_weight (t : Nat) : (heap2 t).weight = 1 ∧ (heap2 t).cellR = 0 ∧ (heap2 t).cellZ = 0 := by
  unfold heap2 part
  split <;> exact ⟨rfl, rfl, rfl⟩
theorem filled2 : Filled place species2 heap2 where
  nodup := by decide
  weight := fun s _ t _ => by rw [(heap2_weight t).1]; norm_num
  bound := fun s _ t _ => by
    unfold Bound
    rw [(heap2_weight t).2.1, (heap2_weight t).2.2]
    norm_num [place]
  few := by decide
theorem bound2_el : boundTo heap2 false species2 (place.r0 + 0) (place.z0 + 0) = [0] := by
  unfold boundTo
  simp [heap2_weight, species2, place]
theorem bound2_ion : boundTo heap2 true species2 (place.r0 + 0) (place.z0 + 0) = [1] := by
  unfold boundTo
  simp [heap2_weight, species2, place]

example : ∀ t, Slow phys.k.c (vel (heap2 t)) := by
  intro t
  unfold heap2 part vel Slow phys
  split <;> norm_num
example := C105_fails (P := phys) (v := 6) physical filled2 Nat.one_pos Nat.one_pos bound2_el bound2_ion (fun i j (hi : i < 1) (hj : j < 1) c => by omega) (by simp [heap2_weight]) rfl rfl (by norm_num [phys]) (by norm_num [phys])
  (by norm_num [kinds])
example := C103_fails physical filled2 Nat.one_pos Nat.one_pos bound2_el bound2_ion (fun i j (hi : i < 1) (hj : j < 1) c => by omega) (by simp [heap2_weight])
  (by intro k; injection k with _ _ k; norm_num [heap2, part] at k) (by intro k; injection k with _ _ k; norm_num [heap2, part] at k)
  (by intro k; injection k with _ _ k; norm_num [heap2, part] at k) (fun _ => ⟨1, 0, 0, 0, true⟩) (by norm_num) (.inr ⟨rfl, rfl⟩)
/-- A cell without ions is not reached. -/
example {P : Phys} {rnd : Nat → Rnd} {h' : Heap} {m' : Maps} {els ions : Nat → Nat → List Nat}
    (S : Sorted place [⟨"electrons", [0, 1]⟩] heap (newMaps 1 1) m' els ions) (e : collideAll .ta77s P rnd kinds place els ions heap = .ok h')
    (n : ions 0 0 = []) : h' 0 = heap 0 ∨ 0 ∉ els 0 0 := by
  by_cases c : 0 ∈ els 0 0
  · left
    refine C102_idle (by norm_num [place]) physical.massEl physical.massIon ⟨by decide, fun s _ t _ => ?_, ?_, by decide⟩
      ⟨⟨rfl, rfl, rfl⟩, rfl, rfl, rfl⟩ S e (i := 0) (j := 0) (by decide) (by decide) ⟨0, le_refl _, ?_⟩ 0 (.inl c)
    · rw [(heap_weight t).1]; norm_num
    · intro s _ t _
      unfold Bound
      rw [(heap_weight t).2.1, (heap_weight t).2.2]
      norm_num [place]
    · rw [n]; simp [normal, amountTot]
  · exact .inr c

end Four

/-! ### The species the collisions know -/

theorem lastNamed_isSome (a b : String) (sp : List (String × ℝ × ℝ)) : (lastNamed a b sp).isSome ↔ ∃ s ∈ sp, s.1 = a ∨ s.1 = b := by
  have key : ∀ r : Option (ℝ × ℝ), (sp.foldl (fun r s => if s.1 = a ∨ s.1 = b then some s.2 else r) r).isSome ↔ r.isSome ∨ ∃ s ∈ sp, s.1 = a ∨ s.1 = b := by
    induction sp with
    | nil => intro r; simp
    | cons s sp ih =>
      intro r
      rw [List.foldl_cons, ih]
      by_cases c : s.1 = a ∨ s.1 = b
      · rw [if_pos c]; simp [c]
      · rw [if_neg c]; simp [c]
  have := key none
  simpa [lastNamed] using this

/-- C102 fails for species of other names: a configuration with collisions whose species are not called electrons and ions makes
the collisions read uninitialised members; with both names the members are set. -/
theorem C102_names_fails (sp : List (String × ℝ × ℝ)) :
    (kindsOf sp = .ub ↔ (∀ s ∈ sp, s.1 ≠ "electrons" ∧ s.1 ≠ "Electrons") ∨ ∀ s ∈ sp, s.1 ≠ "ions" ∧ s.1 ≠ "Ions") ∧
    (kindsOf sp ≠ .ub → ∃ K, kindsOf sp = .ok K) := by
  have h1 := lastNamed_isSome "electrons" "Electrons" sp
  have h2 := lastNamed_isSome "ions" "Ions" sp
  unfold kindsOf
  cases a : lastNamed "electrons" "Electrons" sp with
  | none =>
    rw [a] at h1
    refine ⟨⟨fun _ => .inl fun s hs => ?_, fun _ => rfl⟩, fun k => absurd rfl k⟩
    by_contra c
    have := h1.mpr ⟨s, hs, by tauto⟩
    cases this
  | some e =>
    cases b : lastNamed "ions" "Ions" sp with
    | none =>
      rw [b] at h2
      refine ⟨⟨fun _ => .inr fun s hs => ?_, fun _ => rfl⟩, fun k => absurd rfl k⟩
      by_contra c
      have := h2.mpr ⟨s, hs, by tauto⟩
      cases this
    | some i =>
      rw [a] at h1
      rw [b] at h2
      obtain ⟨s, hs, q⟩ := h1.mp rfl
      obtain ⟨t, ht, q'⟩ := h2.mp rfl
      refine ⟨⟨fun k => (by cases k), ?_⟩, fun _ => ⟨_, rfl⟩⟩
      rintro (k | k)
      · have := k s hs; tauto
      · have := k t ht; tauto

example : kindsOf [("plasma", 1, -1), ("ions", 2000, 1)] = .ub := (C102_names_fails _).1.mpr (.inl (by simp))
example : kindsOf [("electrons", 1, -1), ("ions", 2000, 1)] ≠ .ub := by
  rw [ne_eq, (C102_names_fails _).1]; simp

end Coll
end Pico
