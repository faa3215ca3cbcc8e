import Verif.Model.Dump
import Verif.Lemmas.Stitch
import Verif.Props.Maps

/-! Lemmas for the maps prepared before a dump. -/

set_option linter.unusedSimpArgs false
set_option linter.unusedVariables false

namespace Pico

/-! ### Shapes -/

namespace Grid

variable {T : Type _}

theorem SameShape.rfl' (g : Grid T) : SameShape g g := ⟨rfl, rfl, rfl⟩

theorem shape_wr {g h : Grid T} {i j : Nat} {v : T} (e : g.wr i j v = .ok h) : SameShape g h := by
  unfold wr at e
  split at e
  · cases e; exact ⟨rfl, rfl, rfl⟩
  · cases e

theorem shape_upd {g h : Grid T} {i j : Nat} {f : T → T} (e : g.upd i j f = .ok h) : SameShape g h := by
  unfold upd at e
  cases h1 : g.rd i j with
  | ok a => rw [h1, Res.ok_bind] at e; exact shape_wr e
  | fatal => rw [h1] at e; cases e
  | ub => rw [h1] at e; cases e

/-- Loops of steps that keep the shape keep the shape. -/
theorem shape_loop {ι : Type _} (body : ι → Grid T → Res (Grid T))
    (hb : ∀ i g h, body i g = .ok h → SameShape g h) (l : List ι) :
    ∀ g h : Grid T, loop body l g = .ok h → SameShape g h := by
  induction l with
  | nil => intro g h e; cases e; exact SameShape.rfl' g
  | cons a l ih =>
    intro g h e
    rw [loop_cons] at e
    cases h1 : body a g with
    | ok k => rw [h1, Res.ok_bind] at e; exact (hb a g k h1).trans (ih k h e)
    | fatal => rw [h1] at e; cases e
    | ub => rw [h1] at e; cases e

theorem shape_assign {g h : Grid T} {v : T} (e : g.assign v = .ok h) : SameShape g h :=
  shape_loop _ (fun _ _ _ k => shape_wr k) _ g h e

theorem shape_overlaySet {g h : Grid T} {v : T} (e : g.overlaySet v = .ok h) : SameShape g h := by
  refine shape_loop _ ?_ _ g h e
  intro i a b k
  split at k
  · exact shape_wr k
  · cases k; exact SameShape.rfl' a

end Grid

/-- A computation that gave a value gave it step by step. -/
theorem Res.bind_ok {α β : Type _} {x : Res α} {f : α → Res β} {b : β} (h : (x >>= f) = .ok b) :
    ∃ a, x = .ok a ∧ f a = .ok b := by
  cases x with
  | ok a => exact ⟨a, rfl, h⟩
  | fatal => cases h
  | ub => cases h

open Grid

theorem shape_weight {pi : ℝ} {g : Geom ℝ} {m h : Grid ℝ} {r z w : ℝ} (e : weightCyl pi g m r z w = .ok h) :
    SameShape m h := by
  unfold weightCyl at e
  obtain ⟨ri, _, e⟩ := Res.bind_ok e
  obtain ⟨zk, _, e⟩ := Res.bind_ok e
  dsimp only at e
  obtain ⟨a, ea, e⟩ := Res.bind_ok e
  obtain ⟨b, eb, e⟩ := Res.bind_ok e
  obtain ⟨c, ec, e⟩ := Res.bind_ok e
  exact (((shape_upd ea).trans (shape_upd eb)).trans (shape_upd ec)).trans (shape_upd e)

theorem shape_density {pi : ℝ} {g : Geom ℝ} {m h : Grid ℝ} {ps : List (WP ℝ)} (e : calcDensity pi g m ps = .ok h) :
    SameShape m h := by
  unfold calcDensity at e
  obtain ⟨a, ea, e⟩ := Res.bind_ok e
  obtain ⟨b, eb, e⟩ := Res.bind_ok e
  exact ((shape_assign ea).trans (shape_overlaySet eb)).trans (shape_loop _ (fun _ _ _ k => shape_weight k) _ _ _ e)

namespace Maps

theorem shape_momAbs {q : Par} {g : Geom ℝ} {m h : Grid ℝ} {ps : List VP} (e : calcMomAbs q g m ps = .ok h) :
    SameShape m h := by
  unfold calcMomAbs at e
  obtain ⟨a, ea, e⟩ := Res.bind_ok e
  obtain ⟨b, eb, e⟩ := Res.bind_ok e
  refine ((shape_assign ea).trans (shape_overlaySet eb)).trans (shape_loop _ ?_ _ _ _ e)
  intro p x y k
  obtain ⟨c, _, k⟩ := Res.bind_ok k
  exact shape_weight k

theorem Same3.trans {a b c : Grid3D ℝ} (h : Same3 a b) (k : Same3 b c) : Same3 a c :=
  ⟨h.1.trans k.1, h.2.1.trans k.2.1, h.2.2.trans k.2.2⟩

theorem shape3_assign {a b : Grid3D ℝ} {v : ℝ} (e : a.assign v = .ok b) : Same3 a b := by
  unfold Grid3D.assign at e
  obtain ⟨r, er, e⟩ := Res.bind_ok e
  obtain ⟨p, ep, e⟩ := Res.bind_ok e
  obtain ⟨z, ez, e⟩ := Res.bind_ok e
  cases e
  exact ⟨shape_assign er, shape_assign ep, shape_assign ez⟩

theorem shape3_overlaySet {a b : Grid3D ℝ} {v : ℝ} (e : a.overlaySet v = .ok b) : Same3 a b := by
  unfold Grid3D.overlaySet at e
  obtain ⟨r, er, e⟩ := Res.bind_ok e
  obtain ⟨p, ep, e⟩ := Res.bind_ok e
  obtain ⟨z, ez, e⟩ := Res.bind_ok e
  cases e
  exact ⟨shape_overlaySet er, shape_overlaySet ep, shape_overlaySet ez⟩

theorem shape3_loop {ι : Type _} (body : ι → Grid3D ℝ → Res (Grid3D ℝ))
    (hb : ∀ i g h, body i g = .ok h → Same3 g h) (l : List ι) :
    ∀ g h : Grid3D ℝ, loop body l g = .ok h → Same3 g h := by
  induction l with
  | nil => intro g h e; cases e; exact ⟨SameShape.rfl' _, SameShape.rfl' _, SameShape.rfl' _⟩
  | cons a l ih =>
    intro g h e
    rw [loop_cons] at e
    obtain ⟨k, ek, e⟩ := Res.bind_ok e
    exact (hb a g k ek).trans (ih k h e)

theorem shape_momW {q : Par} {g : Geom ℝ} {m h : Grid3D ℝ} {ps : List VP} (e : calcMomW q g m ps = .ok h) :
    Same3 m h := by
  unfold calcMomW at e
  obtain ⟨a, ea, e⟩ := Res.bind_ok e
  obtain ⟨b, eb, e⟩ := Res.bind_ok e
  refine ((shape3_assign ea).trans (shape3_overlaySet eb)).trans (shape3_loop _ ?_ _ _ _ e)
  intro p x y k
  obtain ⟨c, _, k⟩ := Res.bind_ok k
  obtain ⟨r, er, k⟩ := Res.bind_ok k
  obtain ⟨ph, ep, k⟩ := Res.bind_ok k
  obtain ⟨z, ez, k⟩ := Res.bind_ok k
  cases k
  exact ⟨shape_weight er, shape_weight ep, shape_weight ez⟩

/-- All maps have the same shapes. -/
structure SameSt (s t : St) : Prop where
  density : SameShape s.density t.density
  momAbs : SameShape s.momAbs t.momAbs
  momW : Same3 s.momW t.momW
  mom : Same3 s.mom t.mom
  energy : SameShape s.energy t.energy
  temperature : SameShape s.temperature t.temperature

theorem Same3.rfl' (a : Grid3D ℝ) : Same3 a a := ⟨SameShape.rfl' _, SameShape.rfl' _, SameShape.rfl' _⟩

theorem SameSt.refl (s : St) : SameSt s s :=
  ⟨SameShape.rfl' _, SameShape.rfl' _, Same3.rfl' _, Same3.rfl' _, SameShape.rfl' _, SameShape.rfl' _⟩

theorem shape_energy {q : Par} {g : Geom ℝ} {s t : St} {ps : List VP} (e : calcEnergy q g ps s = .ok t) :
    SameSt s t ∧ calcDensity q.pi g s.density (ps.map VP.wp) = .ok t.density := by
  unfold calcEnergy at e
  obtain ⟨a, ea, e⟩ := Res.bind_ok e
  obtain ⟨b, eb, e⟩ := Res.bind_ok e
  obtain ⟨d, ed, e⟩ := Res.bind_ok e
  obtain ⟨m, em, e⟩ := Res.bind_ok e
  obtain ⟨x, ex, e⟩ := Res.bind_ok e
  cases e
  refine ⟨⟨shape_density ed, shape_momAbs em, Same3.rfl' _, Same3.rfl' _, ?_, SameShape.rfl' _⟩, ed⟩
  refine ((shape_assign ea).trans (shape_overlaySet eb)).trans (shape_loop _ ?_ _ _ _ ex)
  intro p y z k
  unfold energyCell at k
  obtain ⟨n, _, k⟩ := Res.bind_ok k
  split at k
  · exact shape_wr k
  · obtain ⟨_, _, k⟩ := Res.bind_ok k
    obtain ⟨_, _, k⟩ := Res.bind_ok k
    exact shape_wr k

theorem shape_temperature {q : Par} {g : Geom ℝ} {s t : St} {ps : List VP} (e : calcTemperature q g ps s = .ok t) :
    SameSt s t ∧ calcDensity q.pi g s.density (ps.map VP.wp) = .ok t.density := by
  unfold calcTemperature at e
  obtain ⟨a, ea, e⟩ := Res.bind_ok e
  obtain ⟨b, eb, e⟩ := Res.bind_ok e
  obtain ⟨d, ed, e⟩ := Res.bind_ok e
  obtain ⟨m, em, e⟩ := Res.bind_ok e
  obtain ⟨x, ex, e⟩ := Res.bind_ok e
  cases e
  refine ⟨⟨shape_density ed, SameShape.rfl' _, shape_momW em, Same3.rfl' _, SameShape.rfl' _, ?_⟩, ed⟩
  refine ((shape_assign ea).trans (shape_overlaySet eb)).trans (shape_loop _ ?_ _ _ _ ex)
  intro p y z k
  unfold temperatureCell at k
  obtain ⟨n, _, k⟩ := Res.bind_ok k
  split at k
  · exact shape_wr k
  · obtain ⟨_, _, k⟩ := Res.bind_ok k
    obtain ⟨_, _, k⟩ := Res.bind_ok k
    obtain ⟨_, _, k⟩ := Res.bind_ok k
    obtain ⟨_, _, k⟩ := Res.bind_ok k
    obtain ⟨_, _, k⟩ := Res.bind_ok k
    exact shape_wr k

theorem shape_momentum {q : Par} {g : Geom ℝ} {s t : St} {ps : List VP} (e : calcMomentum q g ps s = .ok t) :
    SameSt s t ∧ calcDensity q.pi g s.density (ps.map VP.wp) = .ok t.density := by
  unfold calcMomentum at e
  obtain ⟨d, ed, e⟩ := Res.bind_ok e
  obtain ⟨m, em, e⟩ := Res.bind_ok e
  obtain ⟨a, ea, e⟩ := Res.bind_ok e
  obtain ⟨b, eb, e⟩ := Res.bind_ok e
  obtain ⟨x, ex, e⟩ := Res.bind_ok e
  cases e
  refine ⟨⟨shape_density ed, SameShape.rfl' _, shape_momW em, ?_, SameShape.rfl' _, SameShape.rfl' _⟩, ed⟩
  refine ((shape3_assign ea).trans (shape3_overlaySet eb)).trans (shape3_loop _ ?_ _ _ _ ex)
  intro p y z k
  unfold momentumCell at k
  obtain ⟨n, _, k⟩ := Res.bind_ok k
  split at k
  · obtain ⟨_, _, k⟩ := Res.bind_ok k
    obtain ⟨r, er, k⟩ := Res.bind_ok k
    obtain ⟨_, _, k⟩ := Res.bind_ok k
    obtain ⟨ph, ep, k⟩ := Res.bind_ok k
    obtain ⟨_, _, k⟩ := Res.bind_ok k
    obtain ⟨zz, ez, k⟩ := Res.bind_ok k
    cases k
    exact ⟨shape_wr er, shape_wr ep, shape_wr ez⟩
  · cases k; exact Same3.rfl' _

end Maps

namespace Dump

open Maps SMB

/-! ### Good worlds and maps -/

/-- The maps of a domain: those of a species constructor, with overlays of two cells (`/repo/src/specieP.cpp:62-75`). -/
structure Maps2 (g : Geom ℝ) (s : St) : Prop where
  over : s.Over g
  density : s.density.os = 2
  energy : s.energy.os = 2
  temperature : s.temperature.os = 2
  momR : s.mom.r.os = 2
  momPhi : s.mom.phi.os = 2
  momZ : s.mom.z.os = 2

theorem Maps2.same {g : Geom ℝ} {s t : St} (h : Maps2 g s) (e : SameSt s t) : Maps2 g t := by
  have m3 : ∀ a b : Grid3D ℝ, Map3 g a → Same3 a b → Map3 g b := by
    intro a b ⟨x, y, z⟩ ⟨u, v, w⟩
    exact ⟨x.same u, y.same v, z.same w⟩
  exact ⟨⟨h.over.density.same e.density, h.over.momAbs.same e.momAbs, m3 _ _ h.over.momW e.momW,
    m3 _ _ h.over.mom e.mom, h.over.energy.same e.energy, h.over.temperature.same e.temperature⟩,
    e.density.1.trans h.density, e.energy.1.trans h.energy, e.temperature.1.trans h.temperature,
    e.mom.1.1.trans h.momR, e.mom.2.1.1.trans h.momPhi, e.mom.2.2.1.trans h.momZ⟩

/-- The world makes sense: positive cell sizes, every domain at least two cells wide and high (`bound` in
`/repo/src/SMB.cpp`), coordinates of cells that fit, sane constants, and every particle lies in its domain. -/
structure World.Good (W : World) : Prop where
  dr : 0 < W.dr
  dz : 0 < W.dz
  rows : ∀ i, i < W.nr → W.offR i + 2 ≤ W.offR (i+1)
  cols : ∀ j, j < W.nz → W.offZ j + 2 ≤ W.offZ (j+1)
  fitR : ∀ i, i < W.nr → W.offR (i+1) < 2 ^ 31
  fitZ : ∀ j, j < W.nz → W.offZ (j+1) < 2 ^ 31
  par : ∀ s, (W.par s).Good
  inside : ∀ s i j, i < W.nr → j < W.nz → ∀ p ∈ W.parts s i j, (W.geo i j).Contains p.r p.z

theorem World.Good.geo {W : World} (h : W.Good) {i j : Nat} (hi : i < W.nr) (hj : j < W.nz) : (W.geo i j).Good := by
  have := h.rows i hi
  have := h.cols j hj
  have := h.fitR i hi
  have := h.fitZ j hj
  exact ⟨h.dr, h.dz, by simp only [World.geo]; omega, by simp only [World.geo]; omega⟩

/-- Rows and columns of the domains. -/
def World.xs (W : World) (i : Nat) : Nat := W.offR (i+1) - W.offR i
def World.ys (W : World) (j : Nat) : Nat := W.offZ (j+1) - W.offZ j

/-! ### Calculation -/

/-- The density of the particles of a domain is in its map, overlay included. -/
def OwnDens (W : World) (s i j : Nat) (m : St) : Prop :=
  ∀ x y : Int, m.density.Inside x y → m.density.get x y = .ok (dens (W.par s) (W.geo i j) (W.parts s i j) x y)

theorem own_of_calc {W : World} (h : W.Good) {s i j : Nat} (hi : i < W.nr) (hj : j < W.nz) {m t : St}
    (hm : Maps2 (W.geo i j) m)
    (e : calcDensity (W.par s).pi (W.geo i j) m.density ((W.parts s i j).map VP.wp) = .ok t.density) :
    OwnDens W s i j t := by
  obtain ⟨d, ed, sd, vd⟩ := density_value (W.par s).pi (W.geo i j) (h.geo hi hj) m.density hm.over.density
    ((W.parts s i j).map VP.wp) (by
      intro p hp
      obtain ⟨p', h', rfl⟩ := List.mem_map.mp hp
      exact h.inside s i j hi hj p' h')
  have : d = t.density := Res.ok.inj (ed.symm.trans e)
  subst this
  intro x y hin
  rw [vd x y ((sd.inside x y).mp hin)]
  exact congrArg Res.ok (dens_eq (W.par s) (W.geo i j) (W.parts s i j) x y)

/-- Does a component call for a calculation of the density? -/
theorem calcAt_ok {W : World} (h : W.Good) {s : Nat} (c : Comp) {i j : Nat} (hi : i < W.nr) (hj : j < W.nz) (M : SMaps)
    (hM : Maps2 (W.geo i j) (M i j)) :
    ∃ t, calcAt W s c (i, j) M = .ok (setM M i j t) ∧ Maps2 (W.geo i j) t ∧
      (c ≠ .other → OwnDens W s i j t) := by
  have G := h.geo hi hj
  have C := h.inside s i j hi hj
  have P := h.par s
  cases c with
  | density =>
    obtain ⟨d, ed, sd, vd⟩ := density_value (W.par s).pi (W.geo i j) G (M i j).density hM.over.density
      ((W.parts s i j).map VP.wp) (by
        intro p hp
        obtain ⟨p', h', rfl⟩ := List.mem_map.mp hp
        exact C p' h')
    refine ⟨{ M i j with density := d }, ?_, ?_, fun _ => own_of_calc h hi hj hM ed⟩
    · unfold calcAt
      dsimp only
      rw [ed, Res.ok_bind]
    · exact hM.same ⟨sd, SameShape.rfl' _, Same3.rfl' _, Same3.rfl' _, SameShape.rfl' _, SameShape.rfl' _⟩
  | temperature =>
    obtain ⟨t, et, _, _⟩ := temperature_value (W.par s) P (W.geo i j) G (M i j) hM.over (W.parts s i j) C
      (fun x y => (M i j).momAbs.cell (x + (M i j).momAbs.os) (y + (M i j).momAbs.os)) (by
        intro x y hx hy
        have o := hM.over.momAbs
        rw [get_inside _ o.wf (inside_nat o hx hy)]
        congr 1)
    refine ⟨t, ?_, hM.same (shape_temperature et).1, fun _ => own_of_calc h hi hj hM (shape_temperature et).2⟩
    unfold calcAt
    dsimp only
    rw [et, Res.ok_bind]
  | energy =>
    obtain ⟨t, et, _⟩ := energy_value (W.par s) P (W.geo i j) G (M i j) hM.over (W.parts s i j) C
    refine ⟨t, ?_, hM.same (shape_energy et).1, fun _ => own_of_calc h hi hj hM (shape_energy et).2⟩
    unfold calcAt
    dsimp only
    rw [et, Res.ok_bind]
  | momentum =>
    obtain ⟨t, et, _⟩ := momentum_value (W.par s) P (W.geo i j) G (M i j) hM.over (W.parts s i j) C
    refine ⟨t, ?_, hM.same (shape_momentum et).1, fun _ => own_of_calc h hi hj hM (shape_momentum et).2⟩
    unfold calcAt
    dsimp only
    rw [et, Res.ok_bind]
  | other =>
    refine ⟨M i j, ?_, hM, fun k => absurd rfl k⟩
    unfold calcAt
    dsimp only
    congr 1
    funext a b
    unfold setM
    split
    · next k => rw [k.1, k.2]
    · rfl

theorem calc_loop {W : World} (h : W.Good) {s : Nat} (c : Comp) (l : List (Nat × Nat))
    (hl : ∀ p ∈ l, p.1 < W.nr ∧ p.2 < W.nz) : ∀ M : SMaps,
    (∀ i j, i < W.nr → j < W.nz → Maps2 (W.geo i j) (M i j)) →
    ∃ M', loop (calcAt W s c) l M = .ok M' ∧ (∀ i j, i < W.nr → j < W.nz → Maps2 (W.geo i j) (M' i j)) ∧
      (c ≠ .other → ∀ p ∈ l, OwnDens W s p.1 p.2 (M' p.1 p.2)) ∧ (∀ i j, (i, j) ∉ l → M' i j = M i j) := by
  induction l with
  | nil =>
    intro M hM
    exact ⟨M, rfl, hM, fun _ p hp => absurd hp List.not_mem_nil, fun _ _ _ => rfl⟩
  | cons p l ih =>
    intro M hM
    obtain ⟨i, j⟩ := p
    obtain ⟨hi, hj⟩ := hl (i, j) List.mem_cons_self
    obtain ⟨t, et, mt, dt⟩ := calcAt_ok h (s := s) c hi hj M (hM i j hi hj)
    have tt : setM M i j t i j = t := if_pos ⟨rfl, rfl⟩
    obtain ⟨M', e', m', d', o'⟩ := ih (fun p hp => hl p (List.mem_cons_of_mem _ hp)) (setM M i j t) (by
      intro a b ha hb
      by_cases k : a = i ∧ b = j
      · rw [k.1, k.2, tt]
        exact mt
      · unfold setM
        rw [if_neg k]
        exact hM a b ha hb)
    refine ⟨M', by rw [loop_cons, et, Res.ok_bind, e'], m', ?_, ?_⟩
    · intro hc p hp
      by_cases k : p ∈ l
      · exact d' hc p k
      · have hp' : p = (i, j) := (List.mem_cons.mp hp).resolve_right k
        subst hp'
        rw [o' i j k, tt]
        exact dt hc
    · intro a b hab
      have h1 : (a, b) ∉ l := fun k => hab (List.mem_cons_of_mem _ k)
      rw [o' a b h1]
      unfold setM
      rw [if_neg]
      rintro ⟨rfl, rfl⟩
      exact hab List.mem_cons_self

/-! ### Exchange -/

theorem exchX_mem {T : Type _} [AddCommMagma T] (sh : Domains T) (os : Nat) (xs ys : Nat → Nat) (nr nz : Nat)
    (L : Layout sh nr nz os xs ys) (m : DLoc → T) (i j : Nat) (hj : j < nz) :
    exchX nr i j (ofMemD sh m) = .ok (ofMemD sh (if i + 1 < nr then stX os xs ys i j m else m)) := by
  unfold exchX
  by_cases h : i + 1 < nr
  · rw [if_pos h, if_pos h]
    exact overlayX_mem sh os xs ys nr nz L m i j h hj
  · rw [if_neg h, if_neg h]; rfl

theorem exchY_mem {T : Type _} [AddCommMagma T] (sh : Domains T) (os : Nat) (xs ys : Nat → Nat) (nr nz : Nat)
    (L : Layout sh nr nz os xs ys) (m : DLoc → T) (i j : Nat) (hi : i < nr) :
    exchY nz i j (ofMemD sh m) = .ok (ofMemD sh (if j + 1 < nz then stY os xs ys i j m else m)) := by
  unfold exchY
  by_cases h : j + 1 < nz
  · rw [if_pos h, if_pos h]
    exact overlayY_mem sh os xs ys nr nz L m i j hi h
  · rw [if_neg h, if_neg h]; rfl

/-- The cells of a family of grids as a memory. -/
def memOf {T : Type _} (D : Domains T) : DLoc → T := fun x => (D x.1 x.2.1).cell x.2.2.1 x.2.2.2

/-- The exchanges of the density, on memory. -/
theorem exch_density {W : World} (M : SMaps) (L : Layout (fun a b => (M a b).density) W.nr W.nz 2 W.xs W.ys)
    (l : List (Nat × Nat)) (hl : ∀ p ∈ l, p.1 < W.nr ∧ p.2 < W.nz) : ∀ m : DLoc → ℝ,
    loop (exchAt W .density) l (fun a b => putDensity (M a b) (ofMemD (fun a b => (M a b).density) m a b)) =
      .ok fun a b => putDensity (M a b) (ofMemD (fun a b => (M a b).density)
        (l.foldl (stXthenY 2 W.xs W.ys W.nr W.nz) m) a b) := by
  induction l with
  | nil => intro m; rfl
  | cons p l ih =>
    intro m
    obtain ⟨i, j⟩ := p
    obtain ⟨hi, hj⟩ := hl (i, j) List.mem_cons_self
    have step : exchAt W .density (i, j) (fun a b => putDensity (M a b) (ofMemD (fun a b => (M a b).density) m a b)) =
        .ok fun a b => putDensity (M a b) (ofMemD (fun a b => (M a b).density)
          (stXthenY 2 W.xs W.ys W.nr W.nz m (i, j)) a b) := by
      unfold exchAt onMap
      dsimp only
      have k1 := exchX_mem (fun a b => (M a b).density) 2 W.xs W.ys W.nr W.nz L m i j hj
      have k2 := exchY_mem (fun a b => (M a b).density) 2 W.xs W.ys W.nr W.nz L
        (if i + 1 < W.nr then stX 2 W.xs W.ys i j m else m) i j hi
      have e1 : (fun a b => (putDensity (M a b) (ofMemD (fun a b => (M a b).density) m a b)).density) =
          ofMemD (fun a b => (M a b).density) m := rfl
      rw [e1, k1, Res.ok_bind]
      simp only [Res.ok_bind]
      have e2 : (fun a b => (putDensity (putDensity (M a b) (ofMemD (fun a b => (M a b).density) m a b))
          (ofMemD (fun a b => (M a b).density) (if i + 1 < W.nr then stX 2 W.xs W.ys i j m else m) a b)).density) =
          ofMemD (fun a b => (M a b).density) (if i + 1 < W.nr then stX 2 W.xs W.ys i j m else m) := rfl
      rw [e2, k2]
      rfl
    rw [loop_cons, step, Res.ok_bind, List.foldl_cons]
    exact ih (fun p hp => hl p (List.mem_cons_of_mem _ hp)) _

/-- An exchange along the radius of a map other than the density. -/
theorem exchX_inv {W : World} (get : St → Grid ℝ) (put : St → Grid ℝ → St) (d : Nat × Nat) (hd : d.2 < W.nz)
    (M : SMaps) (hM : ∀ i j, i < W.nr → j < W.nz → Maps2 (W.geo i j) (M i j))
    (hg : ∀ g s, Maps2 g s → g.MapOf (get s) ∧ (get s).os = 2)
    (hp : ∀ s g, SameShape (get s) g → SameSt s (put s g) ∧ (put s g).density = s.density) :
    ∃ M', onMap get put (exchX W.nr d.1 d.2) M = .ok M' ∧
      (∀ i j, i < W.nr → j < W.nz → Maps2 (W.geo i j) (M' i j) ∧ (M' i j).density = (M i j).density) := by
  have L : Layout (fun a b => get (M a b)) W.nr W.nz 2 W.xs W.ys :=
    ⟨fun i j hi hj => (hg _ _ (hM i j hi hj)).2, fun i j hi hj => (hg _ _ (hM i j hi hj)).1.xs,
      fun i j hi hj => (hg _ _ (hM i j hi hj)).1.ys⟩
  have k := exchX_mem (fun a b => get (M a b)) 2 W.xs W.ys W.nr W.nz L (memOf fun a b => get (M a b)) d.1 d.2 hd
  have e : ofMemD (fun a b => get (M a b)) (memOf fun a b => get (M a b)) = fun a b => get (M a b) := rfl
  rw [e] at k
  refine ⟨_, by unfold onMap; rw [k, Res.ok_bind], ?_⟩
  intro i j hi hj
  have := hp (M i j) (ofMemD (fun a b => get (M a b)) (if d.1 + 1 < W.nr then
    stX 2 W.xs W.ys d.1 d.2 (memOf fun a b => get (M a b)) else (memOf fun a b => get (M a b))) i j) ⟨rfl, rfl, rfl⟩
  exact ⟨(hM i j hi hj).same this.1, this.2⟩

/-- The same along the axis. -/
theorem exchY_inv {W : World} (get : St → Grid ℝ) (put : St → Grid ℝ → St) (d : Nat × Nat) (hd : d.1 < W.nr)
    (M : SMaps) (hM : ∀ i j, i < W.nr → j < W.nz → Maps2 (W.geo i j) (M i j))
    (hg : ∀ g s, Maps2 g s → g.MapOf (get s) ∧ (get s).os = 2)
    (hp : ∀ s g, SameShape (get s) g → SameSt s (put s g) ∧ (put s g).density = s.density) :
    ∃ M', onMap get put (exchY W.nz d.1 d.2) M = .ok M' ∧
      (∀ i j, i < W.nr → j < W.nz → Maps2 (W.geo i j) (M' i j) ∧ (M' i j).density = (M i j).density) := by
  have L : Layout (fun a b => get (M a b)) W.nr W.nz 2 W.xs W.ys :=
    ⟨fun i j hi hj => (hg _ _ (hM i j hi hj)).2, fun i j hi hj => (hg _ _ (hM i j hi hj)).1.xs,
      fun i j hi hj => (hg _ _ (hM i j hi hj)).1.ys⟩
  have k := exchY_mem (fun a b => get (M a b)) 2 W.xs W.ys W.nr W.nz L (memOf fun a b => get (M a b)) d.1 d.2 hd
  have e : ofMemD (fun a b => get (M a b)) (memOf fun a b => get (M a b)) = fun a b => get (M a b) := rfl
  rw [e] at k
  refine ⟨_, by unfold onMap; rw [k, Res.ok_bind], ?_⟩
  intro i j hi hj
  have := hp (M i j) (ofMemD (fun a b => get (M a b)) (if d.2 + 1 < W.nz then
    stY 2 W.xs W.ys d.1 d.2 (memOf fun a b => get (M a b)) else (memOf fun a b => get (M a b))) i j) ⟨rfl, rfl, rfl⟩
  exact ⟨(hM i j hi hj).same this.1, this.2⟩

theorem lens_temperature : (∀ g s, Maps2 g s → g.MapOf s.temperature ∧ s.temperature.os = 2) ∧
    ∀ s g, SameShape s.temperature g → SameSt s (putTemperature s g) ∧ (putTemperature s g).density = s.density :=
  ⟨fun _ _ h => ⟨h.over.temperature, h.temperature⟩, fun s g h =>
    ⟨⟨SameShape.rfl' _, SameShape.rfl' _, Same3.rfl' _, Same3.rfl' _, SameShape.rfl' _, h⟩, rfl⟩⟩

theorem lens_energy : (∀ g s, Maps2 g s → g.MapOf s.energy ∧ s.energy.os = 2) ∧
    ∀ s g, SameShape s.energy g → SameSt s (putEnergy s g) ∧ (putEnergy s g).density = s.density :=
  ⟨fun _ _ h => ⟨h.over.energy, h.energy⟩, fun s g h =>
    ⟨⟨SameShape.rfl' _, SameShape.rfl' _, Same3.rfl' _, Same3.rfl' _, h, SameShape.rfl' _⟩, rfl⟩⟩

theorem lens_momR : (∀ g s, Maps2 g s → g.MapOf s.mom.r ∧ s.mom.r.os = 2) ∧
    ∀ s g, SameShape s.mom.r g → SameSt s (putMomR s g) ∧ (putMomR s g).density = s.density :=
  ⟨fun _ _ h => ⟨h.over.mom.r, h.momR⟩, fun s g h =>
    ⟨⟨SameShape.rfl' _, SameShape.rfl' _, Same3.rfl' _, ⟨h, SameShape.rfl' _, SameShape.rfl' _⟩, SameShape.rfl' _,
      SameShape.rfl' _⟩, rfl⟩⟩

theorem lens_momPhi : (∀ g s, Maps2 g s → g.MapOf s.mom.phi ∧ s.mom.phi.os = 2) ∧
    ∀ s g, SameShape s.mom.phi g → SameSt s (putMomPhi s g) ∧ (putMomPhi s g).density = s.density :=
  ⟨fun _ _ h => ⟨h.over.mom.phi, h.momPhi⟩, fun s g h =>
    ⟨⟨SameShape.rfl' _, SameShape.rfl' _, Same3.rfl' _, ⟨SameShape.rfl' _, h, SameShape.rfl' _⟩, SameShape.rfl' _,
      SameShape.rfl' _⟩, rfl⟩⟩

theorem lens_momZ : (∀ g s, Maps2 g s → g.MapOf s.mom.z ∧ s.mom.z.os = 2) ∧
    ∀ s g, SameShape s.mom.z g → SameSt s (putMomZ s g) ∧ (putMomZ s g).density = s.density :=
  ⟨fun _ _ h => ⟨h.over.mom.z, h.momZ⟩, fun s g h =>
    ⟨⟨SameShape.rfl' _, SameShape.rfl' _, Same3.rfl' _, ⟨SameShape.rfl' _, SameShape.rfl' _, h⟩, SameShape.rfl' _,
      SameShape.rfl' _⟩, rfl⟩⟩

/-- The exchanges of the other maps leave the density alone. -/
theorem exchAt_inv {W : World} (c : Comp) (hc : c ≠ .density) (d : Nat × Nat) (hd : d.1 < W.nr ∧ d.2 < W.nz)
    (M : SMaps) (hM : ∀ i j, i < W.nr → j < W.nz → Maps2 (W.geo i j) (M i j)) :
    ∃ M', exchAt W c d M = .ok M' ∧
      (∀ i j, i < W.nr → j < W.nz → Maps2 (W.geo i j) (M' i j) ∧ (M' i j).density = (M i j).density) := by
  cases c with
  | density => exact absurd rfl hc
  | temperature =>
    obtain ⟨M1, e1, h1⟩ := exchX_inv St.temperature putTemperature d hd.2 M hM lens_temperature.1 lens_temperature.2
    obtain ⟨M2, e2, h2⟩ := exchY_inv St.temperature putTemperature d hd.1 M1 (fun i j hi hj => (h1 i j hi hj).1)
      lens_temperature.1 lens_temperature.2
    exact ⟨M2, by unfold exchAt; dsimp only; rw [e1, Res.ok_bind, e2], fun i j hi hj =>
      ⟨(h2 i j hi hj).1, (h2 i j hi hj).2.trans (h1 i j hi hj).2⟩⟩
  | energy => exact exchX_inv St.energy putEnergy d hd.2 M hM lens_energy.1 lens_energy.2
  | momentum =>
    obtain ⟨M1, e1, h1⟩ := exchX_inv (fun m => m.mom.r) putMomR d hd.2 M hM lens_momR.1 lens_momR.2
    obtain ⟨M2, e2, h2⟩ := exchX_inv (fun m => m.mom.phi) putMomPhi d hd.2 M1 (fun i j hi hj => (h1 i j hi hj).1)
      lens_momPhi.1 lens_momPhi.2
    obtain ⟨M3, e3, h3⟩ := exchX_inv (fun m => m.mom.z) putMomZ d hd.2 M2 (fun i j hi hj => (h2 i j hi hj).1)
      lens_momZ.1 lens_momZ.2
    exact ⟨M3, by unfold exchAt; dsimp only; rw [e1, Res.ok_bind, e2, Res.ok_bind, e3], fun i j hi hj =>
      ⟨(h3 i j hi hj).1, (h3 i j hi hj).2.trans ((h2 i j hi hj).2.trans (h1 i j hi hj).2)⟩⟩
  | other => exact ⟨M, rfl, fun i j hi hj => ⟨hM i j hi hj, rfl⟩⟩

theorem exch_loop {W : World} (c : Comp) (hc : c ≠ .density) (l : List (Nat × Nat))
    (hl : ∀ p ∈ l, p.1 < W.nr ∧ p.2 < W.nz) : ∀ M : SMaps,
    (∀ i j, i < W.nr → j < W.nz → Maps2 (W.geo i j) (M i j)) →
    ∃ M', loop (exchAt W c) l M = .ok M' ∧
      (∀ i j, i < W.nr → j < W.nz → Maps2 (W.geo i j) (M' i j) ∧ (M' i j).density = (M i j).density) := by
  induction l with
  | nil => intro M hM; exact ⟨M, rfl, fun i j hi hj => ⟨hM i j hi hj, rfl⟩⟩
  | cons p l ih =>
    intro M hM
    obtain ⟨M1, e1, h1⟩ := exchAt_inv c hc p (hl p List.mem_cons_self) M hM
    obtain ⟨M2, e2, h2⟩ := ih (fun p hp => hl p (List.mem_cons_of_mem _ hp)) M1 (fun i j hi hj => (h1 i j hi hj).1)
    exact ⟨M2, by rw [loop_cons, e1, Res.ok_bind, e2], fun i j hi hj =>
      ⟨(h2 i j hi hj).1, (h2 i j hi hj).2.trans (h1 i j hi hj).2⟩⟩

/-! ### One probe -/

/-- Value of the density after the exchanges of a density probe: own share, share of the domain below, share of the domain
to the left. -/
noncomputable def stitched (W : World) (s i j : Nat) (x y : Int) : ℝ :=
  dens (W.par s) (W.geo i j) (W.parts s i j) x y +
    (if 0 < i ∧ x < 2 then dens (W.par s) (W.geo (i-1) j) (W.parts s (i-1) j) (W.xs (i-1) + x) y else 0) +
    (if 0 < j ∧ y < 2 then dens (W.par s) (W.geo i (j-1)) (W.parts s i (j-1)) x (W.ys (j-1) + y) else 0)

/-- A particle gives nothing to the cells below and to the left of its domain. -/
theorem dens_low {W : World} (h : W.Good) {s i j : Nat} (hi : i < W.nr) (hj : j < W.nz) {x y : Int}
    (hxy : x < 0 ∨ y < 0) : dens (W.par s) (W.geo i j) (W.parts s i j) x y = 0 := by
  unfold dens
  apply List.sum_eq_zero
  intro v hv
  obtain ⟨p, hp, rfl⟩ := List.mem_map.mp hv
  have C := h.inside s i j hi hj p hp
  obtain ⟨a, _, a1, _, _, _, _, fa⟩ := cellNumber_in (h.geo hi hj).dr (h.geo hi hj).nr C.rlo C.rhi
  obtain ⟨b, _, b1, _, _, _, _, fb⟩ := cellNumber_in (h.geo hi hj).dz (h.geo hi hj).nz C.zlo C.zhi
  unfold share densityOf Deposit.δ Grid.single
  dsimp only
  rw [fa, fb, if_neg (by omega), if_neg (by omega), if_neg (by omega), if_neg (by omega)]
  simp

theorem prepare_density {W : World} (h : W.Good) {s : Nat} (M : SMaps)
    (hM : ∀ i j, i < W.nr → j < W.nz → Maps2 (W.geo i j) (M i j))
    (hO : ∀ i j, i < W.nr → j < W.nz → OwnDens W s i j (M i j)) :
    ∃ M', loop (exchAt W .density) (idx2 0 W.nr 0 W.nz) M = .ok M' ∧
      (∀ i j, i < W.nr → j < W.nz → Maps2 (W.geo i j) (M' i j)) ∧
      (∀ i j, i < W.nr → j < W.nz → ∀ x y : Int, 0 ≤ x → x < W.xs i → 0 ≤ y → y < W.ys j →
        (M' i j).density.get x y = .ok (stitched W s i j x y)) := by
  have L : Layout (fun a b => (M a b).density) W.nr W.nz 2 W.xs W.ys :=
    ⟨fun i j hi hj => (hM i j hi hj).density, fun i j hi hj => (hM i j hi hj).over.density.xs,
      fun i j hi hj => (hM i j hi hj).over.density.ys⟩
  have hl : ∀ p ∈ idx2 0 W.nr 0 W.nz, p.1 < W.nr ∧ p.2 < W.nz := by
    intro p hp
    rw [mem_idx2] at hp
    exact ⟨hp.1.2, hp.2.2⟩
  have k := exch_density M L (idx2 0 W.nr 0 W.nz) hl (memOf fun a b => (M a b).density)
  have e : (fun a b => putDensity (M a b) (ofMemD (fun a b => (M a b).density) (memOf fun a b => (M a b).density) a b)) =
      M := rfl
  rw [e] at k
  have hx2 : ∀ i, i < W.nr → 2 ≤ W.xs i := fun i hi => by have := h.rows i hi; unfold World.xs; omega
  have hy2 : ∀ j, j < W.nz → 2 ≤ W.ys j := fun j hj => by have := h.cols j hj; unfold World.ys; omega
  -- the cells of the maps before the exchange
  have val : ∀ i j, i < W.nr → j < W.nz → ∀ r c : Nat, r < W.xs i + 4 → c < W.ys j + 4 →
      memOf (fun a b => (M a b).density) (i, j, r, c) =
        dens (W.par s) (W.geo i j) (W.parts s i j) ((r : Int) - 2) ((c : Int) - 2) := by
    intro i j hi hj r c hr hc
    have m := hM i j hi hj
    have o := hO i j hi hj ((r : Int) - 2) ((c : Int) - 2)
    have xe : (M i j).density.xs = W.xs i := m.over.density.xs
    have ye : (M i j).density.ys = W.ys j := m.over.density.ys
    have oe := m.density
    have ins : (M i j).density.Inside ((r : Int) - 2) ((c : Int) - 2) := by
      unfold Grid.Inside
      rw [xe, ye, oe]
      omega
    have g := get_inside _ m.over.density.wf ins
    rw [o ins] at g
    have := Res.ok.inj g
    rw [this]
    unfold memOf
    dsimp only
    rw [oe]
    congr 1 <;> omega
  have A := pass_acc 2 W.xs W.ys W.nr W.nz hx2 hy2 (memOf fun a b => (M a b).density)
    (by
      intro i j r c hi hj hr h1 h2
      rw [val i j hi hj r c (by have := hx2 i hi; omega) (by omega)]
      exact dens_low h hi hj (Or.inl (by omega)))
    (by
      intro i j r c hi hj hc h1 h2
      rw [val i j hi hj r c (by omega) (by have := hy2 j hj; omega)]
      exact dens_low h hi hj (Or.inr (by omega)))
    (idx2 0 W.nr 0 W.nz) (by intro i j; rw [mem_idx2]; simp) (nodup_idx2 _ _ _ _)
  refine ⟨_, k, ?_, ?_⟩
  · intro i j hi hj
    exact (hM i j hi hj).same ⟨⟨rfl, rfl, rfl⟩, SameShape.rfl' _, Same3.rfl' _, Same3.rfl' _, SameShape.rfl' _,
      SameShape.rfl' _⟩
  · intro i j hi hj x y hx0 hx hy0 hy
    have m := hM i j hi hj
    have xe : (M i j).density.xs = W.xs i := m.over.density.xs
    have ye : (M i j).density.ys = W.ys j := m.over.density.ys
    have oe := m.density
    have ins : ((M i j).density.withCell fun r c => ((idx2 0 W.nr 0 W.nz).foldl (stXthenY 2 W.xs W.ys W.nr W.nz)
        (memOf fun a b => (M a b).density)) (i, j, r, c)).Inside x y := by
      unfold Grid.Inside
      rw [withCell_xs, withCell_ys, withCell_os, xe, ye, oe]
      omega
    have g := get_inside ((M i j).density.withCell fun r c => ((idx2 0 W.nr 0 W.nz).foldl
        (stXthenY 2 W.xs W.ys W.nr W.nz) (memOf fun a b => (M a b).density)) (i, j, r, c)) m.over.density.wf ins
    have g' : (putDensity (M i j) (ofMemD (fun a b => (M a b).density) ((idx2 0 W.nr 0 W.nz).foldl
        (stXthenY 2 W.xs W.ys W.nr W.nz) (memOf fun a b => (M a b).density)) i j)).density.get x y = .ok
        (((idx2 0 W.nr 0 W.nz).foldl (stXthenY 2 W.xs W.ys W.nr W.nz) (memOf fun a b => (M a b).density))
          (i, j, (x + 2).toNat, (y + 2).toNat)) := by
      rw [withCell_cell, withCell_os, oe] at g
      exact g
    rw [g', A.log i j (x + 2).toNat (y + 2).toNat hi hj (by omega) (by omega) (by omega) (by omega)]
    congr 1
    unfold stitched
    congr 1
    · congr 1
      · rw [val i j hi hj _ _ (by omega) (by omega)]
        congr 1 <;> omega
      · unfold gotX
        by_cases c : 0 < i ∧ x < 2
        · rw [if_pos ⟨c.1, ⟨by omega, hj⟩, by omega⟩, if_pos c, val (i-1) j (by omega) hj _ _ (by omega) (by omega)]
          congr 1 <;> omega
        · rw [if_neg c, if_neg]
          rintro ⟨c1, _, c3⟩
          exact c ⟨c1, by omega⟩
    · unfold gotY
      by_cases c : 0 < j ∧ y < 2
      · rw [if_pos ⟨c.1, ⟨hi, by omega⟩, by omega⟩, if_pos c, val i (j-1) hi (by omega) _ _ (by omega) (by omega)]
        congr 1 <;> omega
      · rw [if_neg c, if_neg]
        rintro ⟨c1, _, c3⟩
        exact c ⟨c1, by omega⟩

/-- All maps of all species make sense. -/
def AllGood (W : World) (S : Nat → SMaps) : Prop := ∀ s i j, i < W.nr → j < W.nz → Maps2 (W.geo i j) (S s i j)

/-- The preparation for one probe never fails; what it does to the density. -/
theorem prepareOne_ok {W : World} (h : W.Good) (p : Probe) (S : Nat → SMaps) (hS : AllGood W S) :
    ∃ S', prepareOne W p S = .ok S' ∧ AllGood W S' ∧
      (∀ t, lookup W.names p.specie ≠ some t → S' t = S t) ∧
      (∀ s, lookup W.names p.specie = some s → p.comp = .other →
        ∀ i j, i < W.nr → j < W.nz → (S' s i j).density = (S s i j).density) ∧
      (∀ s, lookup W.names p.specie = some s → p.comp = .density →
        ∀ i j, i < W.nr → j < W.nz → ∀ x y : Int, 0 ≤ x → x < W.xs i → 0 ≤ y → y < W.ys j →
          shown S' s i j x y = .ok (stitched W s i j x y)) ∧
      (∀ s, lookup W.names p.specie = some s → p.comp ≠ .density → p.comp ≠ .other →
        ∀ i j, i < W.nr → j < W.nz → ∀ x y : Int, 0 ≤ x → x < W.xs i → 0 ≤ y → y < W.ys j →
          shown S' s i j x y = .ok (dens (W.par s) (W.geo i j) (W.parts s i j) x y)) := by
  cases hk : lookup W.names p.specie with
  | none =>
    refine ⟨S, ?_, hS, fun _ _ => rfl, ?_, ?_, ?_⟩
    · unfold prepareOne
      rw [hk]
    all_goals intro s hs; cases hs
  | some s =>
    have hl : ∀ p ∈ idx2 0 W.nr 0 W.nz, p.1 < W.nr ∧ p.2 < W.nz := by
      intro p hp
      rw [mem_idx2] at hp
      exact ⟨hp.1.2, hp.2.2⟩
    obtain ⟨M1, e1, m1, d1, o1⟩ := calc_loop h (s := s) p.comp (idx2 0 W.nr 0 W.nz) hl (S s) (hS s)
    have put : ∀ M2, loop (exchAt W p.comp) (idx2 0 W.nr 0 W.nz) M1 = .ok M2 →
        prepareOne W p S = .ok fun t => if t = s then M2 else S t := by
      intro M2 e2
      unfold prepareOne
      rw [hk]
      dsimp only
      rw [e1, Res.ok_bind, e2, Res.ok_bind]
    have good : ∀ M2 : SMaps, (∀ i j, i < W.nr → j < W.nz → Maps2 (W.geo i j) (M2 i j)) →
        AllGood W fun t => if t = s then M2 else S t := by
      intro M2 h2 t i j hi hj
      dsimp only
      by_cases ts : t = s
      · rw [if_pos ts]; exact h2 i j hi hj
      · rw [if_neg ts]; exact hS t i j hi hj
    have keep : ∀ M2 : SMaps, ∀ t, some s ≠ some t → (if t = s then M2 else S t) = S t := by
      intro M2 t ht
      rw [if_neg]
      rintro rfl
      exact ht rfl
    by_cases hc : p.comp = .density
    · obtain ⟨M2, e2, m2, v2⟩ := prepare_density h M1 m1 (fun i j hi hj =>
        d1 (by rw [hc]; exact fun h => nomatch h) (i, j) (by rw [mem_idx2]; simp [hi, hj]))
      rw [← hc] at e2
      refine ⟨_, put M2 e2, good M2 m2, keep M2, ?_, ?_, ?_⟩
      · intro s' _ h'
        rw [hc] at h'
        cases h'
      · intro s' hs' _ i j hi hj x y a b c d
        cases hs'
        unfold shown
        dsimp only
        rw [if_pos rfl]
        exact v2 i j hi hj x y a b c d
      · intro s' _ h'
        exact absurd hc h'
    · obtain ⟨M2, e2, m2⟩ := exch_loop p.comp hc (idx2 0 W.nr 0 W.nz) hl M1 m1
      refine ⟨_, put M2 e2, good M2 (fun i j hi hj => (m2 i j hi hj).1), keep M2, ?_, ?_, ?_⟩
      · intro s' hs' h' i j hi hj
        cases hs'
        rw [if_pos rfl, (m2 i j hi hj).2]
        -- nothing is calculated
        have : loop (calcAt W s p.comp) (idx2 0 W.nr 0 W.nz) (S s) = .ok (S s) := by
          rw [h']
          generalize idx2 0 W.nr 0 W.nz = l
          induction l with
          | nil => rfl
          | cons q l ih => rw [loop_cons]; exact ih
        rw [Res.ok.inj (e1.symm.trans this)]
      · intro s' _ h'
        exact absurd h' hc
      · intro s' hs' _ h' i j hi hj x y a b c d
        cases hs'
        unfold shown
        dsimp only
        rw [if_pos rfl, (m2 i j hi hj).2]
        refine d1 h' (i, j) (by rw [mem_idx2]; simp [hi, hj]) x y ?_
        have m := m1 i j hi hj
        have xe : (M1 i j).density.xs = W.xs i := m.over.density.xs
        have ye : (M1 i j).density.ys = W.ys j := m.over.density.ys
        have oe := m.density
        unfold Grid.Inside
        rw [xe, ye, oe]
        omega

end Dump
end Pico
