import Verif.Spec.PicTotal
import Verif.Props.PicEnergy
import Verif.Props.PicRest

/-! # C118: the total energy is not conserved -/

set_option linter.unusedSimpArgs false
set_option linter.unusedVariables false
set_option linter.unusedSectionVars false

namespace Pico
namespace Pic

open SMB Yee

theorem boxSum_pos {p : Par ℝ} {f : Int → Int → ℝ} (h : ∀ X Y, p.logical X Y → 0 ≤ f X Y) {X Y : Int} (hl : p.logical X Y) (k : 0 < f X Y) : 0 < boxSum p f := by
  obtain ⟨⟨i0, i1⟩, k0, k1⟩ := hl
  obtain ⟨a, rfl⟩ := Int.eq_ofNat_of_zero_le i0
  obtain ⟨b, rfl⟩ := Int.eq_ofNat_of_zero_le k0
  unfold boxSum
  have g : ∀ x ∈ Finset.range p.nr, ∀ y ∈ Finset.range p.nz, 0 ≤ f x y := by
    intro x hx y hy
    rw [Finset.mem_range] at hx hy
    exact h _ _ (by unfold Par.logical; omega)
  refine lt_of_lt_of_le k (le_trans ?_ (Finset.single_le_sum (f := fun x : Nat => ∑ y ∈ Finset.range p.nz, f x y)
    (fun x hx => Finset.sum_nonneg (g x hx)) (Finset.mem_range.2 (by omega : a < p.nr))))
  exact Finset.single_le_sum (f := fun y : Nat => f a y) (g a (Finset.mem_range.2 (by omega))) (Finset.mem_range.2 (by omega : b < p.nz))

/-- The first step of a run without fields: no fields appear, and the particles keep their kinetic energies and weights. -/
theorem blank_step {E : Env} (h : Chamber E) (hk : E.kind = .borisRelativistic) (hz : Scheme E.dist) {ids : List Nat} {S T : State} (A : Alive E ids S)
    (B : NoBorder E S) (Z : Blank E S) (st : Step E S T) :
    (∀ i j, i < E.domR → j < E.domZ → ∀ c : Yee.Comp, c.isSource = false → ∀ x y, T.M i j c x y = 0) ∧
      ∀ i j, i < E.domR → j < E.domZ → ∀ sp ∈ S.D i j, ∀ o ∈ sp.parts, (T.heap o.tag).weight = (S.heap o.tag).weight ∧
        kineticOf E sp.id (vel (T.heap o.tag)) = kineticOf E sp.id (vel (S.heap o.tag)) := by
  obtain ⟨M1, e1, mv, _, _, f5⟩ := st
  have z1 : ∀ i j, i < E.domR → j < E.domZ → Scaled 0 (M1 i j) (M1 i j) := by
    have := solveMaxwell_in (s := 0) (domPar E.p E.domR E.domZ) E.domR E.domZ (M := S.M) (N := S.M)
      (fun i j hi hj => scaled_zero.mpr (Z i j hi hj))
    rw [e1] at this
    exact this
  refine ⟨fun i j hi hj c hc x y => ?_, fun i j hi hj sp hs o ho => ?_⟩
  · rw [solve_keeps hz _ _ _ _ _ f5 (c := c) (by unfold isJ; rintro (rfl | rfl | rfl) <;> exact (nomatch hc)) i j x y]
    exact scaled_zero.mp (z1 i j hi hj) c (by rintro rfl; exact (nomatch hc)) (by rintro rfl; exact (nomatch hc)) x y
  · obtain ⟨v, p1, p2, p3⟩ := moves_iff h (Or.inl hk) A B e1 hi hj hs ho
    have m := (p3 _).mp (mv i j hi hj sp hs o ho)
    refine ⟨by rw [m]; rfl, ?_⟩
    have st' := mv i j hi hj sp hs o ho
    obtain ⟨junk, w, q1, q2⟩ := st'
    unfold Pusher.push at q1
    obtain ⟨e, g1, q1⟩ := Res.bind_ok q1
    obtain ⟨b, g2, q1⟩ := Res.bind_ok q1
    obtain ⟨f1, _⟩ := field_scaled E.e.pi (E.geom i j) (z1 i j hi hj) (S.heap o.tag).posR (S.heap o.tag).posZ
    rw [g1] at f1
    have e0 : e = ⟨0, 0, 0⟩ := by
      have : e = e.smul 0 := f1
      rw [this]
      simp [Vec3.smul]
    rw [hk] at q1
    obtain ⟨w', k1, k2, k3⟩ := push_work (P := E.pushPar sp.id) junk h.c (h.mass sp.id).ne' e b (vel (S.heap o.tag)) (A.place i j hi hj sp hs o ho).slow
    obtain rfl := Res.ok.inj (k1.symm.trans q1)
    have sp2 : (vel (T.heap o.tag)).length2 = w'.length2 := advance_speed q2
    unfold kineticOf
    rw [gamma_congr E.c sp2]
    rw [e0] at k3
    have k3 : (gammaOf E.c w' - gammaOf E.c (vel (S.heap o.tag))) * E.mass sp.id * E.c ^ 2 = 0 := by
      refine k3.trans ?_
      simp [Vec3.dot]
    linear_combination k3

theorem blank_nofields {E : Env} {S : State} (Z : Blank E S) : NoFields E S := by
  intro i j c x y ho hc
  obtain ⟨hi, hj, _⟩ := (overlayOf_iff E.p E.domR E.domZ i j x y).mp ho
  exact Z i j hi hj c (by rintro rfl; exact (nomatch hc)) (by rintro rfl; exact (nomatch hc)) x y

/-- **C118**, total energy: it is not conserved.  In every run with the default deposition and the relativistic Boris pusher that starts without fields and
currents, in whatever chamber full of insulators, divided in whatever way: if the charge density at some inner node of the grid is different after the first step (the particles have moved),
then the total energy of fields and particles is larger in the second step than in the first.  (The particles do not feel in the first step the fields that their currents
make, so these fields come from nothing.) -/
theorem C118_total_fails {E : Env} (h : Chamber E) (hp : E.p.Good) (hk : E.kind = .borisRelativistic) (hz : E.dist = VB.currentDistribution) {ids : List Nat}
    (nd : ids.Nodup) {S T U : State} (A : Alive E ids S) (B : NoBorder E S) (D : Dielectric E S) (Z : Blank E S) (s1 : Step E S T) (s2 : Step E T U)
    (G : GeneralPaths E T) {X Y : Int} (hx : 1 ≤ X) (hy : 1 ≤ Y) (hx' : X + 1 < E.p.nr) (hy' : Y + 1 < E.p.nz) (mv : density E T X Y ≠ density E S X Y) :
    totalEnergy E ids S T < totalEnergy E ids T U := by
  have hs : Scheme E.dist := Or.inl hz
  have L := law_inner h hp.mu hx hy hx' hy'
  obtain ⟨z, kin⟩ := blank_step h hk hs A B Z s1
  have I : Insulating E S := fun i j x y hc => ⟨(D i j x y hc).1.ne', (D i j x y hc).2⟩
  obtain ⟨AT, IT, ow, _⟩ := law_step h (Or.inl hk) hz L nd A B I s1 G
  -- the kinetic energies
  have K : kineticAll E ids T = kineticAll E ids S := by
    unfold kineticAll
    congr 1
    refine List.map_congr_left fun id hid => ?_
    obtain ⟨T', t1, _, pm⟩ := C97_step_partial h (Or.inl hk) hs nd A B
    obtain rfl := (t1 T).mp s1
    rw [((pm id hid).map _).sum_eq]
    congr 1
    refine List.map_congr_left fun t ht => ?_
    obtain ⟨i, j, hi, hj, sp, hsp, rfl, o, ho, rfl⟩ := mem_tags.1 ht
    rw [(kin i j hi hj sp hsp o ho).1, (kin i j hi hj sp hsp o ho).2]
  -- no fields before the second step
  have gS : ∀ c : Yee.Comp, c ≠ .eps → c ≠ .sig → ∀ x y, E.p.logical x y → glue E S.M c x y = 0 := by
    intro c h1 h2 x y hl
    obtain ⟨i, j, u, v, hc, _, _, eg⟩ := glue_cell h.div hl
    rw [eg]
    exact Z i j hc.1 hc.2.1 c h1 h2 u v
  have gT : ∀ c : Yee.Comp, c.isSource = false → ∀ x y, E.p.logical x y → glue E T.M c x y = 0 := by
    intro c h1 x y hl
    obtain ⟨i, j, u, v, hc, _, _, eg⟩ := glue_cell h.div hl
    rw [eg]
    exact z i j hc.1 hc.2.1 c h1 u v
  have F0 : fieldsEnergy E S T = 0 := by
    unfold fieldsEnergy fieldEnergy electricEnergy magneticEnergy
    rw [← add_zero (0 : ℝ)]
    congr 1
    · refine (boxSum_congr (g := fun _ _ => 0) fun x y hl => ?_).trans (boxSum_zero _)
      rw [gT .er rfl x y hl, gT .ep rfl x y hl, gT .ez rfl x y hl]
      ring
    · refine (boxSum_congr (g := fun _ _ => 0) fun x y hl => ?_).trans (boxSum_zero _)
      rw [gT .hr rfl x y hl, gT .hp rfl x y hl, gT .hz rfl x y hl]
      ring
  -- the media stay
  obtain ⟨m1, _, W1, ke⟩ := energy_step h.div hs (m := fun _ _ _ => 0) (fun c hc i j x y ho => by
    rw [blank_nofields Z i j c x y ho hc]
    exact ⟨fun _ => rfl, fun _ => rfl⟩) s1
  obtain ⟨m2, e2, W2, _⟩ := energy_step h.div hs W1 s2
  have eps : ∀ x y, E.p.logical x y → 0 < glue E T.M .eps x y ∧ glue E T.M .sig x y = 0 := by
    intro x y hl
    rw [(ke x y hl).1, (ke x y hl).2]
    obtain ⟨i, j, u, v, hc, _, _, eg⟩ := glue_cell h.div hl
    rw [eg, eg]
    exact D i j u v hc
  -- the electric step
  obtain ⟨mE, e3, e4⟩ := Res.bind_ok e2
  have src : ∀ c : Yee.Comp, c.isSource = true → ∀ x y, E.p.logical x y → setSources (sourcesOf E T.M) m1 c x y = glue E T.M c x y := by
    intro c hc x y hl
    rw [setSources_source _ _ hc]
    exact sources_glue hl
  have fld : ∀ c : Yee.Comp, c.isSource = false → ∀ x y, E.p.logical x y → setSources (sourcesOf E T.M) m1 c x y = 0 := by
    intro c hc x y hl
    rw [setSources_field _ _ hc, ← window_glue h.div (W1 c hc) hl]
    exact gT c hc x y hl
  have key := L.step _ _ e3 fun x y hl => by
    rw [src .eps rfl x y hl, src .sig rfl x y hl]
    exact ⟨(eps x y hl).1.ne', (eps x y hl).2⟩
  have d0 : ∀ (M : Mem ℝ), (∀ x y, E.p.logical x y → M .er x y = 0 ∧ M .ez x y = 0) →
      divElectric E.p (displacement M .er) (displacement M .ez) X Y = 0 := by
    intro M hM
    refine (L.congr _ (fun _ _ => 0) _ (fun _ _ => 0) ?_ ?_).trans L.zero
    · intro x y hl
      unfold displacement
      rw [(hM x y hl).1, mul_zero]
    · intro x y hl
      unfold displacement
      rw [(hM x y hl).2, mul_zero]
  have j1 : divElectric E.p (setSources (sourcesOf E T.M) m1 .jr) (setSources (sourcesOf E T.M) m1 .jz) X Y =
      divElectric E.p (glue E T.M .jr) (glue E T.M .jz) X Y := L.congr _ _ _ _ (src .jr rfl) (src .jz rfl)
  have owS : owed E (fun F G => divElectric E.p F G X Y) S X Y = -density E S X Y := by
    rw [owed_start L h (fun i j x y hc => ⟨Z i j hc.1 hc.2.1 .jr (by decide) (by decide) x y, Z i j hc.1 hc.2.1 .jz (by decide) (by decide) x y⟩)]
    rw [d0 _ (fun x y hl => ⟨gS .er (by decide) (by decide) x y hl, gS .ez (by decide) (by decide) x y hl⟩)]
    ring
  rw [owS] at ow
  unfold owed at ow
  dsimp only at ow key
  rw [d0 _ (fun x y hl => ⟨gT .er rfl x y hl, gT .ez rfl x y hl⟩)] at ow
  rw [d0 _ (fun x y hl => ⟨fld .er rfl x y hl, fld .ez rfl x y hl⟩), j1] at key
  have ne : divElectric E.p (displacement mE .er) (displacement mE .ez) X Y ≠ 0 := by
    intro k
    exact mv (by linarith)
  -- so there is an electric field
  have p1 : (1 : Nat) ≤ E.p.nr := by have := h.div.r1; have := h.div.r2; omega
  obtain ⟨m2', q1, q2, _⟩ := calcH_eq E.p p1 mE
  obtain rfl := Res.ok.inj (q1.symm.trans e4)
  have uE : ∀ c, c = .er ∨ c = .ez → ∀ x y, E.p.logical x y → glue E U.M c x y = mE c x y := by
    intro c hc x y hl
    rw [window_glue h.div (W2 c (by rcases hc with rfl | rfl <;> rfl)) hl]
    exact q2 c x y (by rcases hc with rfl | rfl <;> simp [isH])
  obtain ⟨x, y, hl, hne⟩ : ∃ x y, E.p.logical x y ∧ (glue E U.M .er x y ≠ 0 ∨ glue E U.M .ez x y ≠ 0) := by
    by_contra k
    push Not at k
    exact ne (d0 _ fun x y hl => by
      rw [← uE .er (Or.inl rfl) x y hl, ← uE .ez (Or.inr rfl) x y hl]
      exact k x y hl)
  have F1 : 0 < fieldsEnergy E T U := by
    unfold fieldsEnergy fieldEnergy
    have mag : magneticEnergy E.p (glue E T.M) (glue E U.M) = 0 := by
      unfold magneticEnergy
      refine (boxSum_congr (g := fun _ _ => 0) fun x y hl => ?_).trans (boxSum_zero _)
      rw [gT .hr rfl x y hl, gT .hp rfl x y hl, gT .hz rfl x y hl]
      ring
    rw [mag, add_zero]
    unfold electricEnergy
    have dr := hp.dr
    have dz := hp.dz
    refine boxSum_pos (fun a b hab => ?_) hl ?_
    · have := volHalf_nonneg hp hab.1.1
      have := volNode_nonneg hp hab.1.1
      have := (eps a b hab).1
      positivity
    · have e := (eps x y hl).1
      have i0 : (0 : ℝ) ≤ (x : ℝ) := by exact_mod_cast hl.1.1
      have vh : 0 < volHalf E.p x := by
        rw [volHalf_eq]
        positivity
      have vn : 0 < volNode E.p x := by
        by_cases hi : x = 0
        · rw [hi, volNode_zero]
          positivity
        · rw [volNode_pos E.p hi]
          have i1 : (1 : ℝ) ≤ (x : ℝ) := by
            have : 1 ≤ x := by have := hl.1.1; omega
            exact_mod_cast this
          positivity
      refine mul_pos (by positivity) ?_
      rcases hne with k | k
      · have := pow_pos (abs_pos.mpr k) 2
        rw [sq_abs] at this
        positivity
      · have := pow_pos (abs_pos.mpr k) 2
        rw [sq_abs] at this
        positivity
  have pi : 0 < E.e.pi := h.good.pi
  unfold totalEnergy
  rw [K, F0]
  have : 0 < 2 * E.e.pi * fieldsEnergy E T U := by positivity
  linarith

/-! ### Non-vacuity -/

theorem exOne_chamber : Chamber (exVB 1 1 1) := by
  have h := exEnv_chamber ex_div1 1
  exact ⟨h.r0, h.walls, h.div, h.good, h.c, h.cr, h.cz, h.mass⟩

theorem exOne_place : InPlace (exVB 1 1 1) 0 0 exTurn := by
  have h := exTurn_place1
  exact ⟨h.phi, h.dom, h.r1, h.r2, h.z1, h.z2, h.slow, h.cellR, h.cellZ⟩

theorem exOne_alive : Alive (exVB 1 1 1) [7] (exState 0 exTurn) := by
  have A : Alive (exEnv 1 1 1) [7] (exState 0 exTurn) := exState_alive exTurn_place1 (by rfl)
  refine ⟨A.species, A.once, fun i j hi hj sp hsp o ho => ?_, A.fields⟩
  obtain ⟨rfl, rfl, _⟩ := ex_listed hsp ho
  exact exOne_place

theorem exOne_no_border {S : State} (A : Alive (exVB 1 1 1) [7] S) : NoBorder (exVB 1 1 1) S :=
  no_border exOne_chamber (Or.inl rfl) rfl rfl (by unfold HalfCell exVB exEnv; norm_num) A

theorem exOne_heap {T : State} (st : Step (exVB 1 1 1) (exState 0 exTurn) T) : T.heap 0 = landed (exVB 1 1 1) exTurn (vel exTurn) := by
  obtain ⟨M1, e1, g, _⟩ := st
  have hsp : (⟨7, [⟨0, 0, 0⟩]⟩ : Sp) ∈ (exState 0 exTurn).D 0 0 := by simp [exState]
  have ho : (⟨0, 0, 0⟩ : Prt) ∈ (⟨7, [⟨0, 0, 0⟩]⟩ : Sp).parts := by simp
  obtain ⟨v, p1, _, p3⟩ := moves_iff exOne_chamber (Or.inl rfl) exOne_alive (exOne_no_border exOne_alive) e1 (i := 0) (j := 0) (by show 0 < 1; decide)
    (by show 0 < 1; decide) hsp ho
  have := (p3 _).mp (g 0 0 (by show 0 < 1; decide) (by show 0 < 1; decide) _ hsp _ ho)
  obtain ⟨M2, e2, W⟩ := rest_fields (exVB 1 1 1).p ex_div1
  obtain rfl := Res.ok.inj (e2.symm.trans e1)
  obtain rfl := Res.ok.inj ((p1 true).symm.trans
    (free exOne_chamber rfl (by show 0 < 1; decide) (by show 0 < 1; decide) exOne_place (by unfold Interp.AtSeam; omega) 7 W true))
  exact this

theorem exOne_lands : (landed (exVB 1 1 1) exTurn (vel exTurn)).posR = 205/100 ∧ (landed (exVB 1 1 1) exTurn (vel exTurn)).posZ = 21/10 := exTurn_lands

/-- The list of the only domain after a step. -/
theorem exOne_list {T : State} (sp : (T.D 0 0).map Sp.id = [7]) (pm : (tagsOf (exVB 1 1 1) T.D 7).Perm (tagsOf (exVB 1 1 1) (exState 0 exTurn).D 7)) :
    ∃ o : Prt, T.D 0 0 = [⟨7, [o]⟩] ∧ o.tag = 0 := by
  obtain ⟨s, e1, e2⟩ : ∃ s, T.D 0 0 = [s] ∧ s.id = 7 := by
    obtain ⟨s, e, k⟩ := List.map_eq_singleton_iff.mp sp
    exact ⟨s, e, k⟩
  have t0 : tagsOf (exVB 1 1 1) (exState 0 exTurn).D 7 = [0] := by rfl
  have t1 : tagsOf (exVB 1 1 1) T.D 7 = s.parts.map (·.tag) := by
    have : allDoms (geoOf (exVB 1 1 1).p (exVB 1 1 1).domR (exVB 1 1 1).domZ) = [(0, 0)] := by rfl
    unfold tagsOf
    rw [this]
    simp [SMB.parts, e1, e2]
  rw [t0, t1, List.perm_singleton] at pm
  obtain ⟨o, e, k⟩ := List.map_eq_singleton_iff.mp pm
  exact ⟨o, by rw [e1, ← e2, ← e], k⟩

theorem exOne_density {T : State} {o : Prt} (e : T.D 0 0 = [⟨7, [o]⟩]) {r z : ℝ} (hr : (T.heap o.tag).posR = r) (hz : (T.heap o.tag).posZ = z)
    (hw : (T.heap o.tag).weight = 1) : density (exVB 1 1 1) T 2 2 =
      VB.nodeCharge (ctxOf (exVB 1 1 1).p 0 (exVB 1 1 1).e).g 1 r z 2 2 / (VB.faceZ (exVB 1 1 1).e.pi (ctxOf (exVB 1 1 1).p 0 (exVB 1 1 1).e).g 2 * (exVB 1 1 1).p.dz) := by
  unfold density chargeAt
  show (∑ i ∈ Finset.range 1, ∑ j ∈ Finset.range 1, _) / _ = _
  rw [Finset.sum_range_one, Finset.sum_range_one, e]
  simp only [List.map_cons, List.map_nil, List.sum_cons, List.sum_nil, add_zero, hr, hz, hw]
  congr 2
  show (1 : ℝ) * 1 = 1
  ring

/-- The hypotheses of `C118_total_fails` hold for a charged particle that flies through an empty chamber. -/
example : ∃ (E : Env) (S T U : State), Chamber E ∧ E.p.Good ∧ E.kind = .borisRelativistic ∧ E.dist = VB.currentDistribution ∧ Alive E [7] S ∧ NoBorder E S ∧
    Dielectric E S ∧ Blank E S ∧ Step E S T ∧ Step E T U ∧ GeneralPaths E T ∧ (2 : Int) + 1 < E.p.nr ∧ (2 : Int) + 1 < E.p.nz ∧
    density E T 2 2 ≠ density E S 2 2 := by
  obtain ⟨T, t1, AT, pm⟩ := C97_step_partial exOne_chamber (Or.inl rfl) (Or.inl rfl) (by simp) exOne_alive (exOne_no_border exOne_alive)
  obtain ⟨U, u1, _⟩ := C97_step_partial exOne_chamber (Or.inl rfl) (Or.inl rfl) (by simp) AT (exOne_no_border AT)
  have st := (t1 T).mpr rfl
  have hp := exOne_heap st
  obtain ⟨l1, l2⟩ := exOne_lands
  obtain ⟨o, eD, eo⟩ := exOne_list (AT.species 0 0) (pm 7 (by simp))
  refine ⟨exVB 1 1 1, exState 0 exTurn, T, U, exOne_chamber, ?_, rfl, rfl, exOne_alive, exOne_no_border exOne_alive, ?_, ?_, st, (u1 U).mpr rfl, ?_, ?_, ?_, ?_⟩
  · constructor <;> norm_num [exVB, exEnv]
  · intro i j x y _
    show (0 : ℝ) < 1 ∧ (0 : ℝ) = 0
    norm_num
  · intro i j _ _ c h1 _ x y
    exact if_neg h1
  · intro i j hi hj sp hsp q hq
    have hi : i < 1 := hi
    have hj : j < 1 := hj
    obtain rfl : i = 0 := by omega
    obtain rfl : j = 0 := by omega
    rw [eD] at hsp
    obtain rfl := List.mem_singleton.mp hsp
    obtain rfl := List.mem_singleton.mp hq
    rw [eo, hp]
    refine ⟨ex_general l1 l2 rfl rfl _ rfl rfl, ?_⟩
    unfold CutsCorner
    omega
  · norm_num [exVB, exEnv]
  · norm_num [exVB, exEnv]
  · rw [exOne_density eD (r := 205/100) (z := 21/10) (by rw [eo, hp]; exact l1) (by rw [eo, hp]; exact l2) (by rw [eo, hp]; rfl),
      exOne_density (T := exState 0 exTurn) (o := ⟨0, 0, 0⟩) (by simp [exState]) (r := 19/10) (z := 19/10) rfl rfl rfl]
    norm_num [VB.nodeCharge, VB.faceZ, ringShare, lineShare, exVB, exEnv, ctxOf]

end Pic
end Pico
