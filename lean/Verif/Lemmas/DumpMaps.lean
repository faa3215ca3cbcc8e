import Verif.Lemmas.Dump

/-! Lemmas for the energy, momentum and temperature maps prepared before a dump: the overlays of a calculated map are empty, so
that the exchanges between the domains change nothing. -/

set_option linter.unusedSimpArgs false
set_option linter.unusedVariables false

namespace Pico

theorem loop_keeps {ι σ : Type _} (P : σ → Prop) (body : ι → σ → Res σ) (l : List ι)
    (hb : ∀ i ∈ l, ∀ g h, P g → body i g = .ok h → P h) : ∀ g h, P g → loop body l g = .ok h → P h := by
  induction l with
  | nil => intro g h hg e; cases e; exact hg
  | cons a l ih =>
    intro g h hg e
    rw [loop_cons] at e
    obtain ⟨k, ek, e⟩ := Res.bind_ok e
    exact ih (fun i hi => hb i (List.mem_cons_of_mem _ hi)) k h (hb a List.mem_cons_self g k hg ek) e

namespace Dump

open Maps SMB Grid

/-! ### Empty overlays -/

/-- The overlay is empty. -/
def Clean (g : Grid ℝ) : Prop :=
  ∀ a b : Nat, a < g.xr → b < g.yr → ¬ ((g.os ≤ a ∧ a < g.xs + g.os) ∧ g.os ≤ b ∧ b < g.ys + g.os) → g.cell a b = 0

theorem clean_of_zero {m b : Grid ℝ} (wf : m.WF) (sh : SameShape m b) (z : ∀ x y : Int, m.Inside x y → b.get x y = .ok 0) :
    Clean b := by
  intro r c hr hc _
  have ins : m.Inside ((r : Int) - m.os) ((c : Int) - m.os) := by
    rw [Grid.xr, sh.1, sh.2.1] at hr
    rw [Grid.yr, sh.1, sh.2.2] at hc
    unfold Grid.Inside
    omega
  have k := z _ _ ins
  rw [get_inside b (sh.wf wf) ((sh.inside _ _).mpr ins)] at k
  have k' := Res.ok.inj k
  rw [sh.1] at k'
  have e1 : ((r : Int) - m.os + m.os).toNat = r := by omega
  have e2 : ((c : Int) - m.os + m.os).toNat = c := by omega
  rw [e1, e2] at k'
  exact k'

theorem clean_set {g h : Grid ℝ} (wf : g.WF) (c : Clean g) {x y : Nat} (hx : x < g.xs) (hy : y < g.ys) {v : ℝ}
    (e : g.set x y v = .ok h) : Clean h ∧ SameShape g h := by
  have e' : g.wr (Grid.uidx (x : Int) g.os) (Grid.uidx (y : Int) g.os) v = .ok h := e
  have sh := shape_wr e'
  refine ⟨?_, sh⟩
  obtain ⟨w1, w2⟩ := wf
  unfold Grid.xr at w1
  unfold Grid.yr at w2
  have u1 : Grid.uidx (x : Int) g.os = x + g.os := by unfold Grid.uidx; omega
  have u2 : Grid.uidx (y : Int) g.os = y + g.os := by unfold Grid.uidx; omega
  rw [u1, u2] at e'
  unfold Grid.wr at e'
  split at e'
  · cases e'
    intro a b ha hb hn
    have hn' : ¬ ((g.os ≤ a ∧ a < g.xs + g.os) ∧ g.os ≤ b ∧ b < g.ys + g.os) := hn
    show (if a = x + g.os ∧ b = y + g.os then v else g.cell a b) = 0
    rw [if_neg (by omega)]
    exact c a b ha hb hn'
  · cases e'

/-- Loops over the cells of a domain that set their own cell. -/
theorem clean_cells {geo : Geom ℝ} (body : Nat × Nat → Grid ℝ → Res (Grid ℝ))
    (hb : ∀ p g h, body p g = .ok h → h = g ∨ ∃ v, g.set p.1 p.2 v = .ok h) {g h : Grid ℝ} (M : geo.MapOf g) (c : Clean g)
    (e : loop body (idx2 0 geo.nr 0 geo.nz) g = .ok h) : Clean h := by
  refine (loop_keeps (fun g => geo.MapOf g ∧ Clean g) body _ ?_ g h ⟨M, c⟩ e).2
  intro p hp g h ⟨Mg, cg⟩ k
  rw [mem_idx2] at hp
  rcases hb p g h k with rfl | ⟨v, k⟩
  · exact ⟨Mg, cg⟩
  · obtain ⟨c', s'⟩ := clean_set Mg.wf cg (by rw [Mg.xs]; omega) (by rw [Mg.ys]; omega) k
    exact ⟨Mg.same s', c'⟩

theorem clean_energy {q : Par} {g : Geom ℝ} {s t : St} {ps : List VP} (S : s.Over g) (e : calcEnergy q g ps s = .ok t) :
    Clean t.energy := by
  unfold calcEnergy at e
  obtain ⟨a, ea, e⟩ := Res.bind_ok e
  obtain ⟨b, eb, e⟩ := Res.bind_ok e
  obtain ⟨d, ed, e⟩ := Res.bind_ok e
  obtain ⟨m, em, e⟩ := Res.bind_ok e
  obtain ⟨x, ex, e⟩ := Res.bind_ok e
  cases e
  obtain ⟨a', b', ea', eb', sb, z⟩ := clear_map s.energy S.energy
  cases ea.symm.trans ea'
  cases eb.symm.trans eb'
  refine clean_cells _ ?_ (S.energy.same sb) (clean_of_zero S.energy.wf sb z) ex
  intro p y z k
  unfold energyCell at k
  obtain ⟨n, _, k⟩ := Res.bind_ok k
  split at k
  · exact Or.inr ⟨_, k⟩
  · obtain ⟨_, _, k⟩ := Res.bind_ok k
    obtain ⟨_, _, k⟩ := Res.bind_ok k
    exact Or.inr ⟨_, k⟩

theorem clean_temperature {q : Par} {g : Geom ℝ} {s t : St} {ps : List VP} (S : s.Over g)
    (e : calcTemperature q g ps s = .ok t) : Clean t.temperature := by
  unfold calcTemperature at e
  obtain ⟨a, ea, e⟩ := Res.bind_ok e
  obtain ⟨b, eb, e⟩ := Res.bind_ok e
  obtain ⟨d, ed, e⟩ := Res.bind_ok e
  obtain ⟨m, em, e⟩ := Res.bind_ok e
  obtain ⟨x, ex, e⟩ := Res.bind_ok e
  cases e
  obtain ⟨a', b', ea', eb', sb, z⟩ := clear_map s.temperature S.temperature
  cases ea.symm.trans ea'
  cases eb.symm.trans eb'
  refine clean_cells _ ?_ (S.temperature.same sb) (clean_of_zero S.temperature.wf sb z) ex
  intro p y z k
  unfold temperatureCell at k
  obtain ⟨n, _, k⟩ := Res.bind_ok k
  split at k
  · exact Or.inr ⟨_, k⟩
  · obtain ⟨_, _, k⟩ := Res.bind_ok k
    obtain ⟨_, _, k⟩ := Res.bind_ok k
    obtain ⟨_, _, k⟩ := Res.bind_ok k
    obtain ⟨_, _, k⟩ := Res.bind_ok k
    obtain ⟨_, _, k⟩ := Res.bind_ok k
    exact Or.inr ⟨_, k⟩

theorem clean_momentum {q : Par} {g : Geom ℝ} {s t : St} {ps : List VP} (S : s.Over g)
    (e : calcMomentum q g ps s = .ok t) : Clean t.mom.r ∧ Clean t.mom.phi ∧ Clean t.mom.z := by
  unfold calcMomentum at e
  obtain ⟨d, ed, e⟩ := Res.bind_ok e
  obtain ⟨m, em, e⟩ := Res.bind_ok e
  obtain ⟨a, ea, e⟩ := Res.bind_ok e
  obtain ⟨b, eb, e⟩ := Res.bind_ok e
  obtain ⟨x, ex, e⟩ := Res.bind_ok e
  cases e
  obtain ⟨a', b', ea', eb', sb, z1, z2, z3⟩ := clear3 s.mom S.mom
  cases ea.symm.trans ea'
  cases eb.symm.trans eb'
  have key := loop_keeps (fun w : Grid3D ℝ => Map3 g w ∧ Clean w.r ∧ Clean w.phi ∧ Clean w.z) (momentumCell d m) _ ?_ b x
    ⟨⟨S.mom.r.same sb.1, S.mom.phi.same sb.2.1, S.mom.z.same sb.2.2⟩, clean_of_zero S.mom.r.wf sb.1 z1,
      clean_of_zero S.mom.phi.wf sb.2.1 z2, clean_of_zero S.mom.z.wf sb.2.2 z3⟩ ex
  · exact key.2
  · intro p hp w w' ⟨M, c1, c2, c3⟩ k
    rw [mem_idx2] at hp
    unfold momentumCell at k
    obtain ⟨n, _, k⟩ := Res.bind_ok k
    split at k
    · obtain ⟨_, _, k⟩ := Res.bind_ok k
      obtain ⟨r, er, k⟩ := Res.bind_ok k
      obtain ⟨_, _, k⟩ := Res.bind_ok k
      obtain ⟨ph, ep, k⟩ := Res.bind_ok k
      obtain ⟨_, _, k⟩ := Res.bind_ok k
      obtain ⟨zz, ez, k⟩ := Res.bind_ok k
      cases k
      obtain ⟨d1, s1⟩ := clean_set M.r.wf c1 (by rw [M.r.xs]; omega) (by rw [M.r.ys]; omega) er
      obtain ⟨d2, s2⟩ := clean_set M.phi.wf c2 (by rw [M.phi.xs]; omega) (by rw [M.phi.ys]; omega) ep
      obtain ⟨d3, s3⟩ := clean_set M.z.wf c3 (by rw [M.z.xs]; omega) (by rw [M.z.ys]; omega) ez
      exact ⟨⟨M.r.same s1, M.phi.same s2, M.z.same s3⟩, d1, d2, d3⟩
    · cases k
      exact ⟨M, c1, c2, c3⟩

/-! ### Exchanges of maps with empty overlays -/

/-- One of the maps of a species. -/
structure Lens where
  get : St → Grid ℝ
  put : St → Grid ℝ → St
  got : ∀ s g, get (put s g) = g
  map : ∀ g s, Maps2 g s → g.MapOf (get s) ∧ (get s).os = 2
  same : ∀ s g, SameShape (get s) g → SameSt s (put s g)

/-- Two different maps. -/
def Lens.Apart (A B : Lens) : Prop := ∀ s g, B.get (A.put s g) = B.get s

def lensE : Lens := ⟨St.energy, putEnergy, fun _ _ => rfl, lens_energy.1, fun s g h => (lens_energy.2 s g h).1⟩
def lensT : Lens := ⟨St.temperature, putTemperature, fun _ _ => rfl, lens_temperature.1, fun s g h => (lens_temperature.2 s g h).1⟩
def lensR : Lens := ⟨fun m => m.mom.r, putMomR, fun _ _ => rfl, lens_momR.1, fun s g h => (lens_momR.2 s g h).1⟩
def lensP : Lens := ⟨fun m => m.mom.phi, putMomPhi, fun _ _ => rfl, lens_momPhi.1, fun s g h => (lens_momPhi.2 s g h).1⟩
def lensZ : Lens := ⟨fun m => m.mom.z, putMomZ, fun _ _ => rfl, lens_momZ.1, fun s g h => (lens_momZ.2 s g h).1⟩

/-- The cells of a map in all domains. -/
def Lens.mem (A : Lens) (M : SMaps) : DLoc → ℝ := memOf fun a b => A.get (M a b)

/-- All maps of a species make sense. -/
def GoodM (W : World) (M : SMaps) : Prop := ∀ i j, i < W.nr → j < W.nz → Maps2 (W.geo i j) (M i j)

theorem Lens.layout (A : Lens) {W : World} {M : SMaps} (hM : GoodM W M) :
    Layout (fun a b => A.get (M a b)) W.nr W.nz 2 W.xs W.ys :=
  ⟨fun i j hi hj => (A.map _ _ (hM i j hi hj)).2, fun i j hi hj => (A.map _ _ (hM i j hi hj)).1.xs,
    fun i j hi hj => (A.map _ _ (hM i j hi hj)).1.ys⟩

theorem Lens.onX (A : Lens) {W : World} {M : SMaps} (hM : GoodM W M) (i : Nat) {j : Nat} (hj : j < W.nz) :
    ∃ M', onMap A.get A.put (exchX W.nr i j) M = .ok M' ∧ GoodM W M' ∧
      A.mem M' = (if i + 1 < W.nr then stX 2 W.xs W.ys i j (A.mem M) else A.mem M) ∧
      ∀ B : Lens, A.Apart B → ∀ a b, B.get (M' a b) = B.get (M a b) := by
  have k := exchX_mem (fun a b => A.get (M a b)) 2 W.xs W.ys W.nr W.nz (A.layout hM) (A.mem M) i j hj
  have e : ofMemD (fun a b => A.get (M a b)) (A.mem M) = fun a b => A.get (M a b) := rfl
  rw [e] at k
  refine ⟨_, by unfold onMap; rw [k, Res.ok_bind], ?_, ?_, ?_⟩
  · intro a b ha hb
    exact (hM a b ha hb).same (A.same _ _ ⟨rfl, rfl, rfl⟩)
  · funext ⟨a, b, r, c⟩
    unfold Lens.mem memOf
    dsimp only
    rw [A.got]
    rfl
  · intro B hB a b
    exact hB _ _

theorem Lens.onY (A : Lens) {W : World} {M : SMaps} (hM : GoodM W M) {i : Nat} (j : Nat) (hi : i < W.nr) :
    ∃ M', onMap A.get A.put (exchY W.nz i j) M = .ok M' ∧ GoodM W M' ∧
      A.mem M' = (if j + 1 < W.nz then stY 2 W.xs W.ys i j (A.mem M) else A.mem M) ∧
      ∀ B : Lens, A.Apart B → ∀ a b, B.get (M' a b) = B.get (M a b) := by
  have k := exchY_mem (fun a b => A.get (M a b)) 2 W.xs W.ys W.nr W.nz (A.layout hM) (A.mem M) i j hi
  have e : ofMemD (fun a b => A.get (M a b)) (A.mem M) = fun a b => A.get (M a b) := rfl
  rw [e] at k
  refine ⟨_, by unfold onMap; rw [k, Res.ok_bind], ?_, ?_, ?_⟩
  · intro a b ha hb
    exact (hM a b ha hb).same (A.same _ _ ⟨rfl, rfl, rfl⟩)
  · funext ⟨a, b, r, c⟩
    unfold Lens.mem memOf
    dsimp only
    rw [A.got]
    rfl
  · intro B hB a b
    exact hB _ _

/-- State of the exchanges of one map: `DX` and `DY` tell which have been done. -/
def Lens.Kept (A : Lens) (W : World) (M0 M : SMaps) (DX DY : Nat → Nat → Prop) : Prop :=
  Acc 2 W.xs W.ys W.nr W.nz (A.mem M0) (A.mem M) DX DY

theorem wide {W : World} (h : W.Good) : (∀ i, i < W.nr → 2 ≤ W.xs i) ∧ ∀ j, j < W.nz → 2 ≤ W.ys j :=
  ⟨fun i hi => by have := h.rows i hi; unfold World.xs; omega, fun j hj => by have := h.cols j hj; unfold World.ys; omega⟩

theorem Lens.keptX (A : Lens) {W : World} (h : W.Good) {M0 M : SMaps} {DX DY : Nat → Nat → Prop} (K : A.Kept W M0 M DX DY)
    (hM : GoodM W M) {d : Nat × Nat} (hd : d.1 < W.nr ∧ d.2 < W.nz) (hn : ¬ DX d.1 d.2) :
    ∃ M', onMap A.get A.put (exchX W.nr d.1 d.2) M = .ok M' ∧ GoodM W M' ∧
      A.Kept W M0 M' (fun i j => DX i j ∨ (i = d.1 ∧ j = d.2)) DY ∧
      ∀ B : Lens, A.Apart B → ∀ a b, B.get (M' a b) = B.get (M a b) := by
  obtain ⟨M', e, g, m, o⟩ := A.onX hM d.1 hd.2
  refine ⟨M', e, g, ?_, o⟩
  unfold Lens.Kept
  rw [m]
  by_cases c : d.1 + 1 < W.nr
  · rw [if_pos c]
    exact K.stepX (wide h).1 d.1 d.2 c hd.2 hn
  · rw [if_neg c]
    exact K.mono (fun i j h1 h2 => ⟨Or.inl, fun k => k.resolve_right (by omega)⟩) (fun _ _ _ _ => Or.inl)
      (fun _ _ _ _ => Iff.rfl) (fun _ _ _ _ => id)

theorem Lens.keptY (A : Lens) {W : World} (h : W.Good) {M0 M : SMaps} {DX DY : Nat → Nat → Prop} (K : A.Kept W M0 M DX DY)
    (hM : GoodM W M) {d : Nat × Nat} (hd : d.1 < W.nr ∧ d.2 < W.nz) (hn : ¬ DY d.1 d.2) :
    ∃ M', onMap A.get A.put (exchY W.nz d.1 d.2) M = .ok M' ∧ GoodM W M' ∧
      A.Kept W M0 M' DX (fun i j => DY i j ∨ (i = d.1 ∧ j = d.2)) ∧
      ∀ B : Lens, A.Apart B → ∀ a b, B.get (M' a b) = B.get (M a b) := by
  obtain ⟨M', e, g, m, o⟩ := A.onY hM d.2 hd.1
  refine ⟨M', e, g, ?_, o⟩
  unfold Lens.Kept
  rw [m]
  by_cases c : d.2 + 1 < W.nz
  · rw [if_pos c]
    exact K.stepY (wide h).2 d.1 d.2 hd.1 c hn
  · rw [if_neg c]
    exact K.mono (fun _ _ _ _ => Iff.rfl) (fun _ _ _ _ => id)
      (fun i j h1 h2 => ⟨Or.inl, fun k => k.resolve_right (by omega)⟩) (fun _ _ _ _ => Or.inl)

/-- Before the exchanges. -/
theorem Lens.kept_start (A : Lens) {W : World} {M : SMaps} (hM : GoodM W M)
    (hC : ∀ i j, i < W.nr → j < W.nz → Clean (A.get (M i j))) :
    A.Kept W M M (fun _ _ => False) (fun _ _ => False) := by
  refine Acc.start 2 W.xs W.ys W.nr W.nz _ ?_ ?_
  · intro i j r c hi hj hr h1 h2
    have m := A.map _ _ (hM i j hi hj)
    have xe : (A.get (M i j)).xs = W.xs i := m.1.xs
    have ye : (A.get (M i j)).ys = W.ys j := m.1.ys
    exact hC i j hi hj r c (by unfold Grid.xr; omega) (by unfold Grid.yr; omega) (by omega)
  · intro i j r c hi hj hr h1 h2
    have m := A.map _ _ (hM i j hi hj)
    have xe : (A.get (M i j)).xs = W.xs i := m.1.xs
    have ye : (A.get (M i j)).ys = W.ys j := m.1.ys
    exact hC i j hi hj r c (by unfold Grid.xr; omega) (by unfold Grid.yr; omega) (by omega)

/-- After any exchanges: nothing has changed in the cells of the domains. -/
theorem Lens.kept_end (A : Lens) {W : World} {M0 M : SMaps} {DX DY : Nat → Nat → Prop} (K : A.Kept W M0 M DX DY)
    (h0 : GoodM W M0) (hM : GoodM W M) (hC : ∀ i j, i < W.nr → j < W.nz → Clean (A.get (M0 i j)))
    {i j : Nat} (hi : i < W.nr) (hj : j < W.nz) {x y : Int} (hx0 : 0 ≤ x) (hx : x < W.xs i) (hy0 : 0 ≤ y) (hy : y < W.ys j) :
    (A.get (M i j)).get x y = (A.get (M0 i j)).get x y := by
  have val : ∀ N : SMaps, GoodM W N → (A.get (N i j)).get x y = .ok (A.mem N (i, j, (x + 2).toNat, (y + 2).toNat)) := by
    intro N hN
    have m := A.map _ _ (hN i j hi hj)
    have xe : (A.get (N i j)).xs = W.xs i := m.1.xs
    have ye : (A.get (N i j)).ys = W.ys j := m.1.ys
    have oe := m.2
    rw [get_inside _ m.1.wf (by unfold Grid.Inside; rw [xe, ye, oe]; omega), oe]
    rfl
  have zero : ∀ a b, a < W.nr → b < W.nz → ∀ r c : Nat, r < W.xs a + 4 → c < W.ys b + 4 →
      ¬ ((2 ≤ r ∧ r < W.xs a + 2) ∧ 2 ≤ c ∧ c < W.ys b + 2) → A.mem M0 (a, b, r, c) = 0 := by
    intro a b ha hb r c hr hc hn
    have m := A.map _ _ (h0 a b ha hb)
    have xe : (A.get (M0 a b)).xs = W.xs a := m.1.xs
    have ye : (A.get (M0 a b)).ys = W.ys b := m.1.ys
    exact hC a b ha hb r c (by unfold Grid.xr; omega) (by unfold Grid.yr; omega) (by rw [xe, ye, m.2]; exact hn)
  rw [val M hM, val M0 h0]
  have k := K.log i j (x + 2).toNat (y + 2).toNat hi hj (by omega) (by omega) (by omega) (by omega)
  rw [k]
  have g1 : gotX 2 W.xs (A.mem M0) DX i j (x + 2).toNat (y + 2).toNat = 0 := by
    unfold gotX
    split
    · next c => exact zero (i-1) j (by omega) hj _ _ (by omega) (by omega) (by omega)
    · rfl
  have g2 : gotY 2 W.ys (A.mem M0) DY i j (x + 2).toNat (y + 2).toNat = 0 := by
    unfold gotY
    split
    · next c => exact zero i (j-1) hi (by omega) _ _ (by omega) (by omega) (by omega)
    · rfl
  rw [g1, g2, add_zero, add_zero]

/-- A list of exchanges, of each domain once. -/
theorem kept_loop {W : World} (body : Nat × Nat → SMaps → Res SMaps) (P : (Nat → Nat → Prop) → SMaps → Prop)
    (hb : ∀ D d M, d.1 < W.nr ∧ d.2 < W.nz → ¬ D d.1 d.2 → P D M →
      ∃ M', body d M = .ok M' ∧ P (fun i j => D i j ∨ (i = d.1 ∧ j = d.2)) M') (l : List (Nat × Nat)) :
    (∀ p ∈ l, p.1 < W.nr ∧ p.2 < W.nz) → l.Nodup → ∀ D M, (∀ p ∈ l, ¬ D p.1 p.2) → P D M →
    ∃ M' D', loop body l M = .ok M' ∧ P D' M' := by
  induction l with
  | nil => intro _ _ D M _ h; exact ⟨M, D, rfl, h⟩
  | cons d l ih =>
    intro hl nd D M hD h
    obtain ⟨n1, n2⟩ := List.nodup_cons.mp nd
    obtain ⟨M1, e1, h1⟩ := hb D d M (hl d List.mem_cons_self) (hD d List.mem_cons_self) h
    obtain ⟨M2, D2, e2, h2⟩ := ih (fun p hp => hl p (List.mem_cons_of_mem _ hp)) n2 _ M1 (by
      intro p hp k
      rcases k with k | k
      · exact hD p (List.mem_cons_of_mem _ hp) k
      · have : p = d := Prod.ext k.1 k.2
        rw [this] at hp
        exact n1 hp) h1
    exact ⟨M2, D2, by rw [loop_cons, e1, Res.ok_bind, e2], h2⟩

theorem all_doms (W : World) : ∀ p ∈ idx2 0 W.nr 0 W.nz, p.1 < W.nr ∧ p.2 < W.nz := by
  intro p hp
  rw [mem_idx2] at hp
  exact ⟨hp.1.2, hp.2.2⟩

/-- The exchanges of the energy. -/
theorem exch_energy {W : World} (h : W.Good) {M : SMaps} (hM : GoodM W M)
    (hC : ∀ i j, i < W.nr → j < W.nz → Clean (M i j).energy) :
    ∃ M', loop (exchAt W .energy) (idx2 0 W.nr 0 W.nz) M = .ok M' ∧ GoodM W M' ∧
      ∀ i j, i < W.nr → j < W.nz → ∀ x y : Int, 0 ≤ x → x < W.xs i → 0 ≤ y → y < W.ys j →
        (M' i j).energy.get x y = (M i j).energy.get x y := by
  obtain ⟨M', D', e, g, k⟩ := kept_loop (exchAt W .energy)
    (fun D N => GoodM W N ∧ lensE.Kept W M N D (fun _ _ => False)) (by
      intro D d N hd hn ⟨gN, kN⟩
      obtain ⟨N', e, g, k, _⟩ := lensE.keptX h kN gN hd hn
      exact ⟨N', e, g, k⟩) _ (all_doms W) (nodup_idx2 _ _ _ _) (fun _ _ => False) M (fun _ _ => id)
    ⟨hM, lensE.kept_start hM hC⟩
  exact ⟨M', e, g, fun i j hi hj x y a b c d => lensE.kept_end k hM g hC hi hj a b c d⟩

/-- The exchanges of the temperature. -/
theorem exch_temperature {W : World} (h : W.Good) {M : SMaps} (hM : GoodM W M)
    (hC : ∀ i j, i < W.nr → j < W.nz → Clean (M i j).temperature) :
    ∃ M', loop (exchAt W .temperature) (idx2 0 W.nr 0 W.nz) M = .ok M' ∧ GoodM W M' ∧
      ∀ i j, i < W.nr → j < W.nz → ∀ x y : Int, 0 ≤ x → x < W.xs i → 0 ≤ y → y < W.ys j →
        (M' i j).temperature.get x y = (M i j).temperature.get x y := by
  obtain ⟨M', D', e, g, k⟩ := kept_loop (exchAt W .temperature)
    (fun D N => GoodM W N ∧ lensT.Kept W M N D D) (by
      intro D d N hd hn ⟨gN, kN⟩
      obtain ⟨N1, e1, g1, k1, _⟩ := lensT.keptX h kN gN hd hn
      obtain ⟨N2, e2, g2, k2, _⟩ := lensT.keptY h k1 g1 hd hn
      refine ⟨N2, ?_, g2, k2⟩
      have e1' : onMap St.temperature putTemperature (exchX W.nr d.1 d.2) N = .ok N1 := e1
      unfold exchAt
      dsimp only
      rw [e1', Res.ok_bind]
      exact e2) _ (all_doms W) (nodup_idx2 _ _ _ _) (fun _ _ => False) M (fun _ _ => id)
    ⟨hM, lensT.kept_start hM hC⟩
  exact ⟨M', e, g, fun i j hi hj x y a b c d => lensT.kept_end k hM g hC hi hj a b c d⟩

theorem mem_congr (B : Lens) {M N : SMaps} (h : ∀ a b, B.get (M a b) = B.get (N a b)) : B.mem M = B.mem N := by
  unfold Lens.mem
  congr 1
  funext a b
  exact h a b

/-- The exchanges of the momentum. -/
theorem exch_momentum {W : World} (h : W.Good) {M : SMaps} (hM : GoodM W M)
    (hC : ∀ i j, i < W.nr → j < W.nz → Clean (M i j).mom.r ∧ Clean (M i j).mom.phi ∧ Clean (M i j).mom.z) :
    ∃ M', loop (exchAt W .momentum) (idx2 0 W.nr 0 W.nz) M = .ok M' ∧ GoodM W M' ∧
      ∀ i j, i < W.nr → j < W.nz → ∀ x y : Int, 0 ≤ x → x < W.xs i → 0 ≤ y → y < W.ys j →
        (M' i j).mom.r.get x y = (M i j).mom.r.get x y ∧ (M' i j).mom.phi.get x y = (M i j).mom.phi.get x y ∧
        (M' i j).mom.z.get x y = (M i j).mom.z.get x y := by
  obtain ⟨M', D', e, g, k1, k2, k3⟩ := kept_loop (exchAt W .momentum)
    (fun D N => GoodM W N ∧ lensR.Kept W M N D (fun _ _ => False) ∧ lensP.Kept W M N D (fun _ _ => False) ∧
      lensZ.Kept W M N D (fun _ _ => False)) (by
      intro D d N hd hn ⟨gN, kR, kP, kZ⟩
      obtain ⟨N1, e1, g1, q1, o1⟩ := lensR.keptX h kR gN hd hn
      have kP1 : lensP.Kept W M N1 D (fun _ _ => False) := by
        unfold Lens.Kept
        rw [mem_congr lensP (o1 lensP fun _ _ => rfl)]
        exact kP
      have kZ1 : lensZ.Kept W M N1 D (fun _ _ => False) := by
        unfold Lens.Kept
        rw [mem_congr lensZ (o1 lensZ fun _ _ => rfl)]
        exact kZ
      obtain ⟨N2, e2, g2, q2, o2⟩ := lensP.keptX h kP1 g1 hd hn
      have kZ2 : lensZ.Kept W M N2 D (fun _ _ => False) := by
        unfold Lens.Kept
        rw [mem_congr lensZ (o2 lensZ fun _ _ => rfl)]
        exact kZ1
      have q1' : lensR.Kept W M N2 (fun i j => D i j ∨ (i = d.1 ∧ j = d.2)) (fun _ _ => False) := by
        unfold Lens.Kept
        rw [mem_congr lensR (o2 lensR fun _ _ => rfl)]
        exact q1
      obtain ⟨N3, e3, g3, q3, o3⟩ := lensZ.keptX h kZ2 g2 hd hn
      refine ⟨N3, ?_, g3, ?_, ?_, q3⟩
      · have e1' : onMap (fun m => m.mom.r) putMomR (exchX W.nr d.1 d.2) N = .ok N1 := e1
        have e2' : onMap (fun m => m.mom.phi) putMomPhi (exchX W.nr d.1 d.2) N1 = .ok N2 := e2
        unfold exchAt
        dsimp only
        rw [e1', Res.ok_bind, e2', Res.ok_bind]
        exact e3
      · unfold Lens.Kept
        rw [mem_congr lensR (o3 lensR fun _ _ => rfl)]
        exact q1'
      · unfold Lens.Kept
        rw [mem_congr lensP (o3 lensP fun _ _ => rfl)]
        exact q2) _ (all_doms W) (nodup_idx2 _ _ _ _) (fun _ _ => False) M (fun _ _ => id)
    ⟨hM, lensR.kept_start hM (fun i j hi hj => (hC i j hi hj).1), lensP.kept_start hM (fun i j hi hj => (hC i j hi hj).2.1),
      lensZ.kept_start hM (fun i j hi hj => (hC i j hi hj).2.2)⟩
  exact ⟨M', e, g, fun i j hi hj x y a b c d =>
    ⟨lensR.kept_end k1 hM g (fun i j hi hj => (hC i j hi hj).1) hi hj a b c d,
      lensP.kept_end k2 hM g (fun i j hi hj => (hC i j hi hj).2.1) hi hj a b c d,
      lensZ.kept_end k3 hM g (fun i j hi hj => (hC i j hi hj).2.2) hi hj a b c d⟩⟩

end Dump
end Pico
