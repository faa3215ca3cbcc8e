import Verif.Model.DumpRead
import Verif.Lemmas.DumpMaps
import Verif.Props.Dump

/-! # C95 — what energy, momentum and temperature probes show in a divided area -/

set_option linter.unusedSimpArgs false
set_option linter.unusedVariables false

namespace Pico
namespace Dump

open Maps SMB

/-! ### Specification -/

/-- Mean of the size of the momentum (with the factor the code uses, see C59). -/
noncomputable def meanAbs (q : Par) (g : Geom ℝ) (ps : List VP) (x y : Int) : ℝ :=
  mean q g ps (fun p => factor q p * q.mass * Real.sqrt p.v2) x y

/-- Mean momentum along the radius, the angle and the axis. -/
noncomputable def meanR (q : Par) (g : Geom ℝ) (ps : List VP) (x y : Int) : ℝ := mean q g ps (fun p => factor q p * q.mass * p.vr) x y
noncomputable def meanPhi (q : Par) (g : Geom ℝ) (ps : List VP) (x y : Int) : ℝ := mean q g ps (fun p => factor q p * q.mass * p.vp) x y
noncomputable def meanZ (q : Par) (g : Geom ℝ) (ps : List VP) (x y : Int) : ℝ := mean q g ps (fun p => factor q p * q.mass * p.vz) x y

/-- Energy of the particles at a cell: the kinetic energy of the mean momentum in electron volts, 0 without particles. -/
noncomputable def energyAt (q : Par) (g : Geom ℝ) (ps : List VP) (x y : Int) : ℝ :=
  if dens q g ps x y = 0 then 0 else kin q (meanAbs q g ps x y ^ 2) / q.qe

/-- Temperature of the particles at a cell: the same without the common motion. -/
noncomputable def temperatureAt (q : Par) (g : Geom ℝ) (ps : List VP) (x y : Int) : ℝ :=
  if dens q g ps x y = 0 then 0 else
    kin q (meanAbs q g ps x y ^ 2 - (meanR q g ps x y ^ 2 + meanPhi q g ps x y ^ 2 + meanZ q g ps x y ^ 2)) / q.qe

/-- A cell that is neither in the first row of an inner domain nor in its first column. -/
def Inner (i j : Nat) (x y : Int) : Prop := (0 < i → 0 < x) ∧ (0 < j → 0 < y)

/-! ### What a probe does not touch -/

theorem calc_frame {W : World} {s : Nat} {c : Comp} {d : Nat × Nat} {M M' : SMaps} (e : calcAt W s c d M = .ok M') (a b : Nat) :
    (c ≠ .energy → (M' a b).energy = (M a b).energy ∧ (M' a b).momAbs = (M a b).momAbs) ∧
    (c ≠ .momentum → (M' a b).mom = (M a b).mom) ∧ (c ≠ .temperature → (M' a b).temperature = (M a b).temperature) := by
  have put : ∀ t : St, ∀ f : St → Grid ℝ, f t = f (M d.1 d.2) → f (setM M d.1 d.2 t a b) = f (M a b) := by
    intro t f h
    unfold setM
    split
    · next k => rw [h, k.1, k.2]
    · rfl
  have put3 : ∀ t : St, t.mom = (M d.1 d.2).mom → (setM M d.1 d.2 t a b).mom = (M a b).mom := by
    intro t h
    unfold setM
    split
    · next k => rw [h, k.1, k.2]
    · rfl
  cases c with
  | density =>
    obtain ⟨x, _, e⟩ := Res.bind_ok e
    cases e
    exact ⟨fun _ => ⟨put _ St.energy rfl, put _ St.momAbs rfl⟩, fun _ => put3 _ rfl, fun _ => put _ St.temperature rfl⟩
  | temperature =>
    obtain ⟨t, k, e⟩ := Res.bind_ok e
    cases e
    unfold calcTemperature at k
    obtain ⟨_, _, k⟩ := Res.bind_ok k
    obtain ⟨_, _, k⟩ := Res.bind_ok k
    obtain ⟨_, _, k⟩ := Res.bind_ok k
    obtain ⟨_, _, k⟩ := Res.bind_ok k
    obtain ⟨_, _, k⟩ := Res.bind_ok k
    cases k
    exact ⟨fun _ => ⟨put _ St.energy rfl, put _ St.momAbs rfl⟩, fun _ => put3 _ rfl, fun h => absurd rfl h⟩
  | energy =>
    obtain ⟨t, k, e⟩ := Res.bind_ok e
    cases e
    unfold calcEnergy at k
    obtain ⟨_, _, k⟩ := Res.bind_ok k
    obtain ⟨_, _, k⟩ := Res.bind_ok k
    obtain ⟨_, _, k⟩ := Res.bind_ok k
    obtain ⟨_, _, k⟩ := Res.bind_ok k
    obtain ⟨_, _, k⟩ := Res.bind_ok k
    cases k
    exact ⟨fun h => absurd rfl h, fun _ => put3 _ rfl, fun _ => put _ St.temperature rfl⟩
  | momentum =>
    obtain ⟨t, k, e⟩ := Res.bind_ok e
    cases e
    unfold calcMomentum at k
    obtain ⟨_, _, k⟩ := Res.bind_ok k
    obtain ⟨_, _, k⟩ := Res.bind_ok k
    obtain ⟨_, _, k⟩ := Res.bind_ok k
    obtain ⟨_, _, k⟩ := Res.bind_ok k
    obtain ⟨_, _, k⟩ := Res.bind_ok k
    cases k
    exact ⟨fun _ => ⟨put _ St.energy rfl, put _ St.momAbs rfl⟩, fun h => absurd rfl h, fun _ => put _ St.temperature rfl⟩
  | other =>
    cases e
    exact ⟨fun _ => ⟨rfl, rfl⟩, fun _ => rfl, fun _ => rfl⟩

theorem onMap_frame {γ : Type _} (f : St → γ) {get : St → Grid ℝ} {put : St → Grid ℝ → St} {op : Domains ℝ → Res (Domains ℝ)}
    (hf : ∀ s g, f (put s g) = f s) {M M' : SMaps} (e : onMap get put op M = .ok M') (a b : Nat) : f (M' a b) = f (M a b) := by
  obtain ⟨D, _, e⟩ := Res.bind_ok e
  cases e
  exact hf _ _

theorem exch_frame {W : World} {c : Comp} {d : Nat × Nat} {M M' : SMaps} (e : exchAt W c d M = .ok M') (a b : Nat) :
    (M' a b).momAbs = (M a b).momAbs ∧ (c ≠ .energy → (M' a b).energy = (M a b).energy) ∧
    (c ≠ .momentum → (M' a b).mom = (M a b).mom) ∧ (c ≠ .temperature → (M' a b).temperature = (M a b).temperature) := by
  cases c with
  | density =>
    obtain ⟨M1, e1, e2⟩ := Res.bind_ok e
    have k : ∀ {γ : Type} (f : St → γ), (∀ s g, f (putDensity s g) = f s) → f (M' a b) = f (M a b) := fun f hf =>
      (onMap_frame f hf e2 a b).trans (onMap_frame f hf e1 a b)
    exact ⟨k St.momAbs fun _ _ => rfl, fun _ => k St.energy fun _ _ => rfl, fun _ => k St.mom fun _ _ => rfl,
      fun _ => k St.temperature fun _ _ => rfl⟩
  | temperature =>
    obtain ⟨M1, e1, e2⟩ := Res.bind_ok e
    have k : ∀ {γ : Type} (f : St → γ), (∀ s g, f (putTemperature s g) = f s) → f (M' a b) = f (M a b) := fun f hf =>
      (onMap_frame f hf e2 a b).trans (onMap_frame f hf e1 a b)
    exact ⟨k St.momAbs fun _ _ => rfl, fun _ => k St.energy fun _ _ => rfl, fun _ => k St.mom fun _ _ => rfl,
      fun h => absurd rfl h⟩
  | energy =>
    have k : ∀ {γ : Type} (f : St → γ), (∀ s g, f (putEnergy s g) = f s) → f (M' a b) = f (M a b) := fun f hf =>
      onMap_frame f hf e a b
    exact ⟨k St.momAbs fun _ _ => rfl, fun h => absurd rfl h, fun _ => k St.mom fun _ _ => rfl,
      fun _ => k St.temperature fun _ _ => rfl⟩
  | momentum =>
    obtain ⟨M1, e1, e⟩ := Res.bind_ok e
    obtain ⟨M2, e2, e3⟩ := Res.bind_ok e
    have k : ∀ {γ : Type} (f : St → γ), (∀ s g, f (putMomR s g) = f s) → (∀ s g, f (putMomPhi s g) = f s) →
        (∀ s g, f (putMomZ s g) = f s) → f (M' a b) = f (M a b) := fun f h1 h2 h3 =>
      ((onMap_frame f h3 e3 a b).trans (onMap_frame f h2 e2 a b)).trans (onMap_frame f h1 e1 a b)
    exact ⟨k St.momAbs (fun _ _ => rfl) (fun _ _ => rfl) fun _ _ => rfl, fun _ => k St.energy (fun _ _ => rfl) (fun _ _ => rfl) fun _ _ => rfl,
      fun h => absurd rfl h, fun _ => k St.temperature (fun _ _ => rfl) (fun _ _ => rfl) fun _ _ => rfl⟩
  | other =>
    cases e
    exact ⟨rfl, fun _ => rfl, fun _ => rfl, fun _ => rfl⟩

/-- Steps of the preparation for one probe. -/
theorem prepareOne_split {W : World} {p : Probe} {S S' : Nat → SMaps} {s : Nat} (hk : lookup W.names p.specie = some s)
    (e : prepareOne W p S = .ok S') :
    ∃ M1 M2, loop (calcAt W s p.comp) (idx2 0 W.nr 0 W.nz) (S s) = .ok M1 ∧
      loop (exchAt W p.comp) (idx2 0 W.nr 0 W.nz) M1 = .ok M2 ∧ S' s = M2 := by
  unfold prepareOne at e
  rw [hk] at e
  obtain ⟨M1, e1, e⟩ := Res.bind_ok e
  obtain ⟨M2, e2, e⟩ := Res.bind_ok e
  cases e
  exact ⟨M1, M2, e1, e2, if_pos rfl⟩

/-- Something about the maps that neither the calculation nor the exchange changes. -/
theorem one_frame {γ : Type} (f : St → γ) {W : World} {s : Nat} {c : Comp}
    (h1 : ∀ d M M', calcAt W s c d M = .ok M' → ∀ a b, f (M' a b) = f (M a b))
    (h2 : ∀ d M M', exchAt W c d M = .ok M' → ∀ a b, f (M' a b) = f (M a b)) {M M1 M2 : SMaps}
    (e1 : loop (calcAt W s c) (idx2 0 W.nr 0 W.nz) M = .ok M1) (e2 : loop (exchAt W c) (idx2 0 W.nr 0 W.nz) M1 = .ok M2)
    (a b : Nat) : f (M2 a b) = f (M a b) := by
  have k1 := loop_keeps (fun N : SMaps => ∀ a b, f (N a b) = f (M a b)) _ _ (fun d _ N N' hN e a b =>
    (h1 d N N' e a b).trans (hN a b)) M M1 (fun _ _ => rfl) e1
  exact loop_keeps (fun N : SMaps => ∀ a b, f (N a b) = f (M a b)) _ _ (fun d _ N N' hN e a b =>
    (h2 d N N' e a b).trans (hN a b)) M1 M2 k1 e2 a b

/-- Each domain is calculated once. -/
theorem step_loop (step : Nat × Nat → St → Res St) (l : List (Nat × Nat)) : l.Nodup → ∀ M M' : SMaps,
    loop (fun d M => step d (M d.1 d.2) >>= fun t => .ok (setM M d.1 d.2 t)) l M = .ok M' →
    (∀ d ∈ l, step d (M d.1 d.2) = .ok (M' d.1 d.2)) ∧ ∀ d : Nat × Nat, d ∉ l → M' d.1 d.2 = M d.1 d.2 := by
  induction l with
  | nil => intro _ M M' e; cases e; exact ⟨fun d hd => absurd hd List.not_mem_nil, fun _ _ => rfl⟩
  | cons d l ih =>
    intro nd M M' e
    obtain ⟨n1, n2⟩ := List.nodup_cons.mp nd
    rw [loop_cons] at e
    obtain ⟨M1, e1, e⟩ := Res.bind_ok e
    obtain ⟨t, et, e1⟩ := Res.bind_ok e1
    cases e1
    obtain ⟨k1, k2⟩ := ih n2 _ _ e
    constructor
    · intro d' hd'
      rcases List.mem_cons.mp hd' with rfl | hd'
      · rw [k2 d' n1]
        unfold setM
        rw [if_pos ⟨rfl, rfl⟩]
        exact et
      · have := k1 d' hd'
        unfold setM at this
        rw [if_neg] at this
        · exact this
        · rintro ⟨h1, h2⟩
          exact n1 (by have k : d' = d := Prod.ext h1 h2; rw [← k]; exact hd')
    · intro d' hd'
      rw [k2 d' fun k => hd' (List.mem_cons_of_mem _ k)]
      unfold setM
      rw [if_neg]
      rintro ⟨h1, h2⟩
      exact hd' (List.mem_cons.mpr (Or.inl (Prod.ext h1 h2)))

/-! ### Each kind of probe -/

/-- Cells of a domain. -/
def InDom (W : World) (i j : Nat) (x y : Int) : Prop := (i < W.nr ∧ j < W.nz) ∧ (0 ≤ x ∧ x < W.xs i) ∧ 0 ≤ y ∧ y < W.ys j

/-- The energy map holds the energies of the domain's own particles, and `momentum_abs_map_w` their momenta. -/
def OwnE (W : World) (s : Nat) (S : Nat → SMaps) : Prop := ∀ i j x y, InDom W i j x y →
  readEnergy S s i j x y = .ok (energyAt (W.par s) (W.geo i j) (W.parts s i j) x y)

def OwnA (W : World) (s : Nat) (S : Nat → SMaps) : Prop := ∀ i j x y, InDom W i j x y → (S s i j).momAbs.get x y =
  .ok ((W.parts s i j).map fun p => share (W.par s) (W.geo i j) p x y * (factor (W.par s) p * (W.par s).mass * Real.sqrt p.v2)).sum

def OwnM (W : World) (s : Nat) (S : Nat → SMaps) : Prop := ∀ i j x y, InDom W i j x y →
  readMomR S s i j x y = .ok (meanR (W.par s) (W.geo i j) (W.parts s i j) x y) ∧
  readMomPhi S s i j x y = .ok (meanPhi (W.par s) (W.geo i j) (W.parts s i j) x y) ∧
  readMomZ S s i j x y = .ok (meanZ (W.par s) (W.geo i j) (W.parts s i j) x y)

def OwnT (W : World) (s : Nat) (S : Nat → SMaps) : Prop := ∀ i j x y, InDom W i j x y →
  readTemperature S s i j x y = .ok (temperatureAt (W.par s) (W.geo i j) (W.parts s i j) x y)

theorem InDom.nat {W : World} {i j : Nat} {x y : Int} (h : InDom W i j x y) :
    ∃ a b : Nat, x = a ∧ y = b ∧ a < (W.geo i j).nr ∧ b < (W.geo i j).nz := by
  obtain ⟨_, ⟨h1, h2⟩, h3, h4⟩ := h
  refine ⟨x.toNat, y.toNat, by omega, by omega, ?_, ?_⟩
  · unfold World.xs at h2; simp only [World.geo]; omega
  · unfold World.ys at h4; simp only [World.geo]; omega

theorem dom_mem {W : World} {i j : Nat} (hi : i < W.nr) (hj : j < W.nz) : (i, j) ∈ idx2 0 W.nr 0 W.nz := by
  rw [mem_idx2]; simp [hi, hj]

theorem one_energy {W : World} (h : W.Good) {p : Probe} {S S' : Nat → SMaps} {s : Nat} (hS : AllGood W S)
    (hk : lookup W.names p.specie = some s) (hc : p.comp = .energy) (e : prepareOne W p S = .ok S') :
    OwnE W s S' ∧ OwnA W s S' := by
  obtain ⟨M1, M2, e1, e2, es⟩ := prepareOne_split hk e
  rw [hc] at e1 e2
  obtain ⟨k1, _⟩ := step_loop (fun d m => calcEnergy (W.par s) (W.geo d.1 d.2) (W.parts s d.1 d.2) m) _ (nodup_idx2 _ _ _ _) _ _ e1
  have val : ∀ i j, i < W.nr → j < W.nz → Maps2 (W.geo i j) (M1 i j) ∧ Clean (M1 i j).energy ∧ ∀ x y, InDom W i j x y →
      (M1 i j).energy.get x y = .ok (energyAt (W.par s) (W.geo i j) (W.parts s i j) x y) ∧
      (M1 i j).momAbs.get x y = .ok ((W.parts s i j).map fun p => share (W.par s) (W.geo i j) p x y *
        (factor (W.par s) p * (W.par s).mass * Real.sqrt p.v2)).sum := by
    intro i j hi hj
    have c := k1 (i, j) (dom_mem hi hj)
    dsimp only at c
    have m := hS s i j hi hj
    obtain ⟨t, et, _, v, a⟩ := energy_value (W.par s) (h.par s) (W.geo i j) (h.geo hi hj) (S s i j) m.over (W.parts s i j)
      (h.inside s i j hi hj)
    obtain rfl : t = M1 i j := Res.ok.inj (et.symm.trans c)
    refine ⟨m.same (shape_energy c).1, clean_energy m.over c, fun x y hd => ?_⟩
    obtain ⟨a', b', rfl, rfl, ha, hb⟩ := hd.nat
    exact ⟨v a' b' ha hb, a _ _ (inside_nat m.over.momAbs ha hb)⟩
  obtain ⟨M2', e2', _, k2⟩ := exch_energy h (fun i j hi hj => (val i j hi hj).1) (fun i j hi hj => (val i j hi hj).2.1)
  obtain rfl : M2' = M2 := Res.ok.inj (e2'.symm.trans e2)
  constructor
  · intro i j x y hd
    unfold readEnergy
    rw [es, k2 i j hd.1.1 hd.1.2 x y hd.2.1.1 hd.2.1.2 hd.2.2.1 hd.2.2.2]
    exact ((val i j hd.1.1 hd.1.2).2.2 x y hd).1
  · intro i j x y hd
    have f := loop_keeps (fun N : SMaps => ∀ a b, (N a b).momAbs = (M1 a b).momAbs) _ _ (fun d _ N N' hN e a b =>
      (exch_frame e a b).1.trans (hN a b)) M1 M2' (fun _ _ => rfl) e2
    rw [es, f i j]
    exact ((val i j hd.1.1 hd.1.2).2.2 x y hd).2

theorem one_momentum {W : World} (h : W.Good) {p : Probe} {S S' : Nat → SMaps} {s : Nat} (hS : AllGood W S)
    (hk : lookup W.names p.specie = some s) (hc : p.comp = .momentum) (e : prepareOne W p S = .ok S') : OwnM W s S' := by
  obtain ⟨M1, M2, e1, e2, es⟩ := prepareOne_split hk e
  rw [hc] at e1 e2
  obtain ⟨k1, _⟩ := step_loop (fun d m => calcMomentum (W.par s) (W.geo d.1 d.2) (W.parts s d.1 d.2) m) _ (nodup_idx2 _ _ _ _) _ _ e1
  have val : ∀ i j, i < W.nr → j < W.nz → Maps2 (W.geo i j) (M1 i j) ∧
      (Clean (M1 i j).mom.r ∧ Clean (M1 i j).mom.phi ∧ Clean (M1 i j).mom.z) ∧ ∀ x y, InDom W i j x y →
      (M1 i j).mom.r.get x y = .ok (meanR (W.par s) (W.geo i j) (W.parts s i j) x y) ∧
      (M1 i j).mom.phi.get x y = .ok (meanPhi (W.par s) (W.geo i j) (W.parts s i j) x y) ∧
      (M1 i j).mom.z.get x y = .ok (meanZ (W.par s) (W.geo i j) (W.parts s i j) x y) := by
    intro i j hi hj
    have c := k1 (i, j) (dom_mem hi hj)
    dsimp only at c
    have m := hS s i j hi hj
    obtain ⟨t, et, _, v, _⟩ := momentum_value (W.par s) (h.par s) (W.geo i j) (h.geo hi hj) (S s i j) m.over (W.parts s i j)
      (h.inside s i j hi hj)
    obtain rfl : t = M1 i j := Res.ok.inj (et.symm.trans c)
    refine ⟨m.same (shape_momentum c).1, clean_momentum m.over c, fun x y hd => ?_⟩
    obtain ⟨a', b', rfl, rfl, ha, hb⟩ := hd.nat
    exact v a' b' ha hb
  obtain ⟨M2', e2', _, k2⟩ := exch_momentum h (fun i j hi hj => (val i j hi hj).1) (fun i j hi hj => (val i j hi hj).2.1)
  obtain rfl : M2' = M2 := Res.ok.inj (e2'.symm.trans e2)
  intro i j x y hd
  unfold readMomR readMomPhi readMomZ
  obtain ⟨q1, q2, q3⟩ := k2 i j hd.1.1 hd.1.2 x y hd.2.1.1 hd.2.1.2 hd.2.2.1 hd.2.2.2
  rw [es, q1, q2, q3]
  exact (val i j hd.1.1 hd.1.2).2.2 x y hd

theorem one_temperature {W : World} (h : W.Good) {p : Probe} {S S' : Nat → SMaps} {s : Nat} (hS : AllGood W S)
    (hk : lookup W.names p.specie = some s) (hc : p.comp = .temperature) (hA : OwnA W s S) (e : prepareOne W p S = .ok S') :
    OwnT W s S' := by
  obtain ⟨M1, M2, e1, e2, es⟩ := prepareOne_split hk e
  rw [hc] at e1 e2
  obtain ⟨k1, _⟩ := step_loop (fun d m => calcTemperature (W.par s) (W.geo d.1 d.2) (W.parts s d.1 d.2) m) _
    (nodup_idx2 _ _ _ _) _ _ e1
  have val : ∀ i j, i < W.nr → j < W.nz → Maps2 (W.geo i j) (M1 i j) ∧ Clean (M1 i j).temperature ∧ ∀ x y, InDom W i j x y →
      (M1 i j).temperature.get x y = .ok (temperatureAt (W.par s) (W.geo i j) (W.parts s i j) x y) := by
    intro i j hi hj
    have c := k1 (i, j) (dom_mem hi hj)
    dsimp only at c
    have m := hS s i j hi hj
    obtain ⟨t, et, _, v⟩ := temperature_value (W.par s) (h.par s) (W.geo i j) (h.geo hi hj) (S s i j) m.over (W.parts s i j)
      (h.inside s i j hi hj) (fun x y => ((W.parts s i j).map fun p => share (W.par s) (W.geo i j) p x y *
        (factor (W.par s) p * (W.par s).mass * Real.sqrt p.v2)).sum) (fun x y hx hy => hA i j x y (by
          simp only [World.geo] at hx hy
          refine ⟨⟨hi, hj⟩, ⟨by omega, ?_⟩, by omega, ?_⟩
          · unfold World.xs; omega
          · unfold World.ys; omega))
    obtain rfl : t = M1 i j := Res.ok.inj (et.symm.trans c)
    refine ⟨m.same (shape_temperature c).1, clean_temperature m.over c, fun x y hd => ?_⟩
    obtain ⟨a', b', rfl, rfl, ha, hb⟩ := hd.nat
    rw [v a' b' ha hb]
    unfold temperatureAt meanAbs meanR meanPhi meanZ
    by_cases hn : dens (W.par s) (W.geo i j) (W.parts s i j) a' b' = 0
    · rw [if_pos hn, if_pos hn]
    · rw [if_neg hn, if_neg hn]
      congr 4
      unfold mean
      rw [if_neg hn]
  obtain ⟨M2', e2', _, k2⟩ := exch_temperature h (fun i j hi hj => (val i j hi hj).1) (fun i j hi hj => (val i j hi hj).2.1)
  obtain rfl : M2' = M2 := Res.ok.inj (e2'.symm.trans e2)
  intro i j x y hd
  unfold readTemperature
  rw [es, k2 i j hd.1.1 hd.1.2 x y hd.2.1.1 hd.2.1.2 hd.2.2.1 hd.2.2.2]
  exact (val i j hd.1.1 hd.1.2).2.2 x y hd

/-! ### Later probes -/

theorem one_keeps {W : World} (h : W.Good) {p : Probe} {S S' : Nat → SMaps} {s : Nat} (hS : AllGood W S)
    (e : prepareOne W p S = .ok S') :
    AllGood W S' ∧ (OwnE W s S → OwnE W s S') ∧ (OwnA W s S → OwnA W s S') ∧ (OwnM W s S → OwnM W s S') ∧
      (OwnA W s S → OwnT W s S → OwnT W s S') := by
  obtain ⟨S'', e', g, k, _⟩ := prepareOne_ok h p S hS
  obtain rfl : S'' = S' := Res.ok.inj (e'.symm.trans e)
  refine ⟨g, ?_⟩
  by_cases hk : lookup W.names p.specie = some s
  · obtain ⟨M1, M2, e1, e2, es⟩ := prepareOne_split hk e
    have fr : ∀ {γ : Type} (f : St → γ), (∀ d M M', calcAt W s p.comp d M = .ok M' → ∀ a b, f (M' a b) = f (M a b)) →
        (∀ d M M', exchAt W p.comp d M = .ok M' → ∀ a b, f (M' a b) = f (M a b)) → ∀ a b, f (S'' s a b) = f (S s a b) := by
      intro γ f h1 h2 a b
      rw [es]
      exact one_frame f h1 h2 e1 e2 a b
    refine ⟨?_, ?_, ?_, ?_⟩
    · intro o
      by_cases c : p.comp = .energy
      · exact (one_energy h hS hk c e).1
      · intro i j x y hd
        unfold readEnergy
        rw [fr St.energy (fun d M M' e a b => ((calc_frame e a b).1 c).1) (fun d M M' e a b => (exch_frame e a b).2.1 c)]
        exact o i j x y hd
    · intro o
      by_cases c : p.comp = .energy
      · exact (one_energy h hS hk c e).2
      · intro i j x y hd
        rw [fr St.momAbs (fun d M M' e a b => ((calc_frame e a b).1 c).2) (fun d M M' e a b => (exch_frame e a b).1)]
        exact o i j x y hd
    · intro o
      by_cases c : p.comp = .momentum
      · exact one_momentum h hS hk c e
      · intro i j x y hd
        unfold readMomR readMomPhi readMomZ
        rw [fr St.mom (fun d M M' e a b => (calc_frame e a b).2.1 c) (fun d M M' e a b => (exch_frame e a b).2.2.1 c)]
        exact o i j x y hd
    · intro oa o
      by_cases c : p.comp = .temperature
      · exact one_temperature h hS hk c oa e
      · intro i j x y hd
        unfold readTemperature
        rw [fr St.temperature (fun d M M' e a b => (calc_frame e a b).2.2 c) (fun d M M' e a b => (exch_frame e a b).2.2.2 c)]
        exact o i j x y hd
  · have same : S'' s = S s := k s hk
    unfold OwnE OwnA OwnM OwnT readEnergy readMomR readMomPhi readMomZ readTemperature
    rw [same]
    exact ⟨id, id, id, fun _ => id⟩

theorem all_keep {W : World} (h : W.Good) {s : Nat} (ps : List Probe) {S S' : Nat → SMaps} (hS : AllGood W S)
    (e : prepare W ps S = .ok S') :
    AllGood W S' ∧ (OwnE W s S → OwnE W s S') ∧ (OwnA W s S → OwnA W s S') ∧ (OwnM W s S → OwnM W s S') ∧
      (OwnA W s S → OwnT W s S → OwnT W s S') := by
  unfold prepare at e
  induction ps generalizing S with
  | nil => cases e; exact ⟨hS, id, id, id, fun _ => id⟩
  | cons p ps ih =>
    rw [loop_cons] at e
    obtain ⟨S1, e1, e⟩ := Res.bind_ok e
    obtain ⟨g1, a1, a2, a3, a4⟩ := one_keeps h (s := s) hS e1
    obtain ⟨g2, b1, b2, b3, b4⟩ := ih g1 e
    exact ⟨g2, fun x => b1 (a1 x), fun x => b2 (a2 x), fun x => b3 (a3 x), fun x y => b4 (a2 x) (a4 x y)⟩

theorem prepare_split {W : World} {pre post : List Probe} {q : Probe} {S S' : Nat → SMaps}
    (e : prepare W (pre ++ q :: post) S = .ok S') :
    ∃ S1 S2, prepare W pre S = .ok S1 ∧ prepareOne W q S1 = .ok S2 ∧ prepare W post S2 = .ok S' := by
  unfold prepare at e ⊢
  rw [loop_append] at e
  obtain ⟨S1, e1, e⟩ := Res.bind_ok e
  rw [loop_cons] at e
  obtain ⟨S2, e2, e⟩ := Res.bind_ok e
  exact ⟨S1, S2, e1, e2, e⟩

/-! ### Who has a share in an inner cell -/

theorem share_zero {W : World} (h : W.Good) {s i j : Nat} (hi : i < W.nr) (hj : j < W.nz) {p : VP} (hp : p ∈ W.parts s i j)
    {X Y : Int} (hxy : X < W.offR i ∨ W.offR (i+1) < X ∨ Y < W.offZ j ∨ W.offZ (j+1) < Y) :
    share (W.par s) W.whole p X Y = 0 := by
  let W' : World := { W with parts := fun _ a b => if a = i ∧ b = j then [p] else [] }
  have h' : W'.Good := ⟨h.dr, h.dz, h.rows, h.cols, h.fitR, h.fitZ, h.par, by
    intro s' a b ha hb q hq
    have : q ∈ (if a = i ∧ b = j then [p] else []) := hq
    split at this
    · next e =>
      rw [List.mem_singleton.mp this, e.1, e.2]
      exact h.inside s i j hi hj p hp
    · cases this⟩
  have z := part_zero h' (s := s) hi hj hxy
  unfold part dens at z
  have e : W'.parts s (i, j).1 (i, j).2 = [p] := if_pos ⟨rfl, rfl⟩
  rw [e] at z
  simp only [List.map_cons, List.map_nil, List.sum_cons, List.sum_nil, add_zero] at z
  exact z

theorem sum_one {l : List (Nat × Nat)} (f : Nat × Nat → ℝ) {d : Nat × Nat} (nd : l.Nodup) (hd : d ∈ l)
    (hf : ∀ e ∈ l, e ≠ d → f e = 0) : (l.map f).sum = f d := by
  induction l with
  | nil => cases hd
  | cons a l ih =>
    obtain ⟨n1, n2⟩ := List.nodup_cons.mp nd
    rw [List.map_cons, List.sum_cons]
    by_cases c : a = d
    · subst c
      rw [List.sum_eq_zero, add_zero]
      intro v hv
      obtain ⟨e, he, rfl⟩ := List.mem_map.mp hv
      exact hf e (List.mem_cons_of_mem _ he) (fun k => n1 (by rw [← k]; exact he))
    · rw [hf a List.mem_cons_self c, zero_add]
      exact ih n2 ((List.mem_cons.mp hd).resolve_left (Ne.symm c)) (fun e he => hf e (List.mem_cons_of_mem _ he))

/-- A weighted sum over all particles at an inner cell is the sum over the particles of the domain. -/
theorem sum_inner {W : World} (h : W.Good) {s i j : Nat} {x y : Int} (hd : InDom W i j x y) (hn : Inner i j x y) (f : VP → ℝ) :
    ((W.all s).map fun p => share (W.par s) W.whole p (x + W.offR i) (y + W.offZ j) * f p).sum =
      ((W.parts s i j).map fun p => share (W.par s) (W.geo i j) p x y * f p).sum := by
  obtain ⟨⟨hi, hj⟩, ⟨hx0, hx⟩, hy0, hy⟩ := hd
  unfold World.xs at hx
  unfold World.ys at hy
  have e1 : ((W.all s).map fun p => share (W.par s) W.whole p (x + W.offR i) (y + W.offZ j) * f p).sum =
      ((idx2 0 W.nr 0 W.nz).map fun d => ((W.parts s d.1 d.2).map fun p =>
        share (W.par s) W.whole p (x + W.offR i) (y + W.offZ j) * f p).sum).sum := by
    unfold World.all
    generalize idx2 0 W.nr 0 W.nz = l
    induction l with
    | nil => rfl
    | cons d l ih => rw [List.flatMap_cons, List.map_cons, List.sum_cons, ← ih, List.map_append, List.sum_append]
  rw [e1, sum_one _ (nodup_idx2 _ _ _ _) (dom_mem hi hj)]
  · congr 1
    refine List.map_congr_left fun p _ => ?_
    rw [share_shift]
  · rintro ⟨a, b⟩ hab hne
    rw [mem_idx2] at hab
    obtain ⟨⟨_, ha⟩, _, hb⟩ := hab
    dsimp only at ha hb ⊢
    apply List.sum_eq_zero
    intro v hv
    obtain ⟨p, hp, rfl⟩ := List.mem_map.mp hv
    rw [share_zero h ha hb hp, zero_mul]
    have hri := h.rows i hi
    have hcj := h.cols j hj
    rcases Nat.lt_trichotomy a i with c | c | c
    · have := off_mono h.rows (show a + 1 ≤ i by omega) hi.le
      have := hn.1 (by omega)
      omega
    · subst c
      rcases Nat.lt_trichotomy b j with c | c | c
      · have := off_mono h.cols (show b + 1 ≤ j by omega) hj.le
        have := hn.2 (by omega)
        omega
      · subst c
        exact absurd rfl hne
      · have := off_mono h.cols (show j + 1 ≤ b by omega) hb.le
        omega
    · have := off_mono h.rows (show i + 1 ≤ a by omega) ha.le
      omega

theorem dens_inner {W : World} (h : W.Good) {s i j : Nat} {x y : Int} (hd : InDom W i j x y) (hn : Inner i j x y) :
    dens (W.par s) (W.geo i j) (W.parts s i j) x y = dens (W.par s) W.whole (W.all s) (x + W.offR i) (y + W.offZ j) := by
  have k := sum_inner h (s := s) hd hn fun _ => 1
  simp only [mul_one] at k
  exact k.symm

theorem mean_inner {W : World} (h : W.Good) {s i j : Nat} {x y : Int} (hd : InDom W i j x y) (hn : Inner i j x y) (f : VP → ℝ) :
    mean (W.par s) (W.geo i j) (W.parts s i j) f x y = mean (W.par s) W.whole (W.all s) f (x + W.offR i) (y + W.offZ j) := by
  unfold mean
  rw [dens_inner h hd hn, sum_inner h hd hn]

/-! ### Theorems -/

/-- **Every domain shows what its own particles make.**  Whatever the list of probes: where it has an energy (momentum)
probe of the species, the value shown at every cell of every domain is computed from the particles of this domain alone —
the exchanges between domains add nothing; the same for the temperature if an energy probe of the species comes first. -/
theorem C95_own (W : World) (h : W.Good) (ps : List Probe) (S : Nat → SMaps) (hS : AllGood W S) (s : Nat) :
    ∃ S', prepare W ps S = .ok S' ∧
      ((∃ q ∈ ps, lookup W.names q.specie = some s ∧ q.comp = .energy) → ∀ i j x y, InDom W i j x y →
        readEnergy S' s i j x y = .ok (energyAt (W.par s) (W.geo i j) (W.parts s i j) x y)) ∧
      ((∃ q ∈ ps, lookup W.names q.specie = some s ∧ q.comp = .momentum) → ∀ i j x y, InDom W i j x y →
        readMomR S' s i j x y = .ok (meanR (W.par s) (W.geo i j) (W.parts s i j) x y) ∧
        readMomPhi S' s i j x y = .ok (meanPhi (W.par s) (W.geo i j) (W.parts s i j) x y) ∧
        readMomZ S' s i j x y = .ok (meanZ (W.par s) (W.geo i j) (W.parts s i j) x y)) ∧
      ((∃ pre mid post q t, ps = pre ++ q :: (mid ++ t :: post) ∧ lookup W.names q.specie = some s ∧ q.comp = .energy ∧
          lookup W.names t.specie = some s ∧ t.comp = .temperature) → ∀ i j x y, InDom W i j x y →
        readTemperature S' s i j x y = .ok (temperatureAt (W.par s) (W.geo i j) (W.parts s i j) x y)) := by
  obtain ⟨S', e, _⟩ := prepare_all h ps S hS
  refine ⟨S', e, ?_, ?_, ?_⟩
  · rintro ⟨q, hq, hk, hc⟩
    obtain ⟨pre, post, rfl⟩ := List.append_of_mem hq
    obtain ⟨S1, S2, e1, e2, e3⟩ := prepare_split e
    have g1 := (all_keep h (s := s) pre hS e1).1
    have g2 := (one_keeps h (s := s) g1 e2).1
    exact (all_keep h post g2 e3).2.1 (one_energy h g1 hk hc e2).1
  · rintro ⟨q, hq, hk, hc⟩
    obtain ⟨pre, post, rfl⟩ := List.append_of_mem hq
    obtain ⟨S1, S2, e1, e2, e3⟩ := prepare_split e
    have g1 := (all_keep h (s := s) pre hS e1).1
    have g2 := (one_keeps h (s := s) g1 e2).1
    exact (all_keep h post g2 e3).2.2.2.1 (one_momentum h g1 hk hc e2)
  · rintro ⟨pre, mid, post, q, t, rfl, hk, hc, hk', hc'⟩
    obtain ⟨S1, S2, e1, e2, e3⟩ := prepare_split e
    obtain ⟨S3, S4, e3, e4, e5⟩ := prepare_split e3
    have g1 := (all_keep h (s := s) pre hS e1).1
    have g2 := (one_keeps h (s := s) g1 e2).1
    obtain ⟨g3, _, a3, _⟩ := all_keep h (s := s) mid g2 e3
    have oA := a3 (one_energy h g1 hk hc e2).2
    obtain ⟨g4, _, a4, _⟩ := one_keeps h (s := s) g3 e4
    exact (all_keep h post g4 e5).2.2.2.2 (a4 oA) (one_temperature h g3 hk' hc' oA e4)

/-- **C95 (partial).**  Energy, momentum and temperature probes show the value of all particles of the species at every cell
that is neither in the first row nor in the first column of an inner domain.  Missing: these rows and columns, see
`C95_row_fails`, `C95_column_fails`. -/
theorem C95_inside_partial (W : World) (h : W.Good) (ps : List Probe) (S : Nat → SMaps) (hS : AllGood W S) (s : Nat) :
    ∃ S', prepare W ps S = .ok S' ∧
      ((∃ q ∈ ps, lookup W.names q.specie = some s ∧ q.comp = .energy) → ∀ i j x y, InDom W i j x y → Inner i j x y →
        readEnergy S' s i j x y = .ok (energyAt (W.par s) W.whole (W.all s) (x + W.offR i) (y + W.offZ j))) ∧
      ((∃ q ∈ ps, lookup W.names q.specie = some s ∧ q.comp = .momentum) → ∀ i j x y, InDom W i j x y → Inner i j x y →
        readMomR S' s i j x y = .ok (meanR (W.par s) W.whole (W.all s) (x + W.offR i) (y + W.offZ j)) ∧
        readMomPhi S' s i j x y = .ok (meanPhi (W.par s) W.whole (W.all s) (x + W.offR i) (y + W.offZ j)) ∧
        readMomZ S' s i j x y = .ok (meanZ (W.par s) W.whole (W.all s) (x + W.offR i) (y + W.offZ j))) ∧
      ((∃ pre mid post q t, ps = pre ++ q :: (mid ++ t :: post) ∧ lookup W.names q.specie = some s ∧ q.comp = .energy ∧
          lookup W.names t.specie = some s ∧ t.comp = .temperature) → ∀ i j x y, InDom W i j x y → Inner i j x y →
        readTemperature S' s i j x y = .ok (temperatureAt (W.par s) W.whole (W.all s) (x + W.offR i) (y + W.offZ j))) := by
  obtain ⟨S', e, k1, k2, k3⟩ := C95_own W h ps S hS s
  refine ⟨S', e, ?_, ?_, ?_⟩
  · intro hq i j x y hd hn
    rw [k1 hq i j x y hd]
    unfold energyAt meanAbs
    rw [dens_inner h hd hn, mean_inner h hd hn]
  · intro hq i j x y hd hn
    obtain ⟨a, b, c⟩ := k2 hq i j x y hd
    rw [a, b, c]
    unfold meanR meanPhi meanZ
    rw [mean_inner h hd hn, mean_inner h hd hn, mean_inner h hd hn]
    exact ⟨rfl, rfl, rfl⟩
  · intro hq i j x y hd hn
    rw [k3 hq i j x y hd]
    unfold temperatureAt meanAbs meanR meanPhi meanZ
    rw [dens_inner h hd hn, mean_inner h hd hn, mean_inner h hd hn, mean_inner h hd hn, mean_inner h hd hn]

theorem kin_pos {q : Par} (hq : q.Good) {a : ℝ} (h : 0 < a) : 0 < kin q a := by
  unfold kin
  have c := hq.c
  have m := hq.mass
  split_ifs
  · have : q.mass * (q.c * q.c) < Real.sqrt (a * (q.c * q.c) + (q.mass * (q.c * q.c)) ^ 2) := by
      apply Real.lt_sqrt_of_sq_lt
      have : 0 < a * (q.c * q.c) := by positivity
      linarith
    linarith
  · positivity

theorem factor_pos {q : Par} (hq : q.Good) (p : VP) : 0 < factor q p := by
  unfold factor
  split_ifs with k
  · unfold VP.gamma
    have c := hq.c
    have rl := hq.rl
    have l : p.v2 < q.c ^ 2 := by
      have := hq.rlc
      nlinarith
    have : p.v2 / q.c ^ 2 < 1 := (div_lt_one (by positivity)).mpr l
    have := Real.sqrt_pos.mpr (show 0 < 1 - p.v2 / q.c ^ 2 by linarith)
    positivity
  · exact one_pos

theorem share_all_nonneg {W : World} (h : W.Good) (S : Nat → SMaps) (hS : AllGood W S) {s : Nat}
    (hw : ∀ p ∈ W.all s, 0 ≤ p.w) {p : VP} (hp : p ∈ W.all s) (X Y : Int) : 0 ≤ share (W.par s) W.whole p X Y := by
  have hp0 := hp
  unfold World.all at hp
  obtain ⟨⟨i, j⟩, hd, hp⟩ := List.mem_flatMap.mp hp
  rw [mem_idx2] at hd
  obtain ⟨⟨_, hi⟩, _, hj⟩ := hd
  dsimp only at hi hj hp
  by_cases c : X < W.offR i ∨ W.offR (i+1) < X ∨ Y < W.offZ j ∨ W.offZ (j+1) < Y
  · rw [share_zero h hi hj hp c]
  · have r := h.rows i hi
    have cc := h.cols j hj
    have m := hS s i j hi hj
    have k := share_nonneg (W.par s) (h.par s) (W.geo i j) (h.geo hi hj) _ m.over.density p (h.inside s i j hi hj p hp)
      (hw p hp0) (X - W.offR i) (Y - W.offZ j) (by
        have xe : (S s i j).density.xs = W.offR (i+1) - W.offR i := m.over.density.xs
        have ye : (S s i j).density.ys = W.offZ (j+1) - W.offZ j := m.over.density.ys
        have oe := m.density
        unfold Grid.Inside
        rw [xe, ye, oe]
        omega)
    rw [share_shift] at k
    rw [sub_add_cancel, sub_add_cancel] at k
    exact k

/-- A moving particle with a share at a cell makes the energy there positive. -/
theorem energy_pos {W : World} (h : W.Good) (S : Nat → SMaps) (hS : AllGood W S) {s : Nat} (hw : ∀ p ∈ W.all s, 0 ≤ p.w)
    {p : VP} (hp : p ∈ W.all s) (hv : 0 < p.v2) {X Y : Int} (hs : 0 < share (W.par s) W.whole p X Y) :
    0 < energyAt (W.par s) W.whole (W.all s) X Y := by
  have q := h.par s
  have nn : ∀ a ∈ W.all s, 0 ≤ share (W.par s) W.whole a X Y := fun a ha => share_all_nonneg h S hS hw ha X Y
  have d : 0 < dens (W.par s) W.whole (W.all s) X Y := by
    refine lt_of_lt_of_le hs ?_
    unfold dens
    refine List.single_le_sum ?_ _ (List.mem_map.mpr ⟨p, hp, rfl⟩)
    intro v hv
    obtain ⟨a, ha, rfl⟩ := List.mem_map.mp hv
    exact nn a ha
  have m : 0 < meanAbs (W.par s) W.whole (W.all s) X Y := by
    unfold meanAbs mean
    rw [if_neg d.ne']
    refine div_pos ?_ d
    have k : 0 < share (W.par s) W.whole p X Y * (factor (W.par s) p * (W.par s).mass * Real.sqrt p.v2) :=
      mul_pos hs (mul_pos (mul_pos (factor_pos q p) q.mass) (Real.sqrt_pos.mpr hv))
    refine lt_of_lt_of_le k ?_
    refine List.single_le_sum ?_ _ (List.mem_map.mpr ⟨p, hp, rfl⟩)
    intro v hv
    obtain ⟨a, ha, rfl⟩ := List.mem_map.mp hv
    exact mul_nonneg (nn a ha) (mul_nonneg (mul_nonneg (factor_pos q a).le q.mass.le) (Real.sqrt_nonneg _))
  unfold energyAt
  rw [if_neg d.ne']
  exact div_pos (kin_pos q (by positivity)) q.qe

/-- Particles at rest have no energy. -/
theorem energy_rest {q : Par} (hq : q.Good) (g : Geom ℝ) (ps : List VP) (hr : ∀ p ∈ ps, p.v2 = 0) (x y : Int) :
    energyAt q g ps x y = 0 := by
  unfold energyAt
  split_ifs with k
  · rfl
  · have : meanAbs q g ps x y = 0 := by
      unfold meanAbs mean
      rw [if_neg k]
      have z : (ps.map fun p => share q g p x y * (factor q p * q.mass * Real.sqrt p.v2)).sum = 0 := by
        apply List.sum_eq_zero
        intro v hv
        obtain ⟨p, hp, rfl⟩ := List.mem_map.mp hv
        rw [hr p hp, Real.sqrt_zero, mul_zero, mul_zero]
      rw [z, zero_div]
    rw [this, zero_pow (by norm_num), kin_zero hq, zero_div]

theorem all_of_part {W : World} {s i j : Nat} (hi : i < W.nr) (hj : j < W.nz) {p : VP} (hp : p ∈ W.parts s i j) :
    p ∈ W.all s := by
  unfold World.all
  exact List.mem_flatMap.mpr ⟨(i, j), dom_mem hi hj, hp⟩

/-- **No energy at the rows between domains.**  A moving particle in the last row of a domain gives energy to the first row
of the next domain; if the particles of that domain are at rest (or if it has none), the energy probe shows none. -/
theorem C95_row_fails (W : World) (h : W.Good) (ps : List Probe) (S : Nat → SMaps) (hS : AllGood W S) {s : Nat}
    (hq : ∃ q ∈ ps, lookup W.names q.specie = some s ∧ q.comp = .energy) (hw : ∀ p ∈ W.all s, 0 ≤ p.w)
    {i j y : Nat} (hi : i + 1 < W.nr) (hj : j < W.nz) (hy : y < W.ys j) (hr : ∀ p ∈ W.parts s (i+1) j, p.v2 = 0)
    {p : VP} (hp : p ∈ W.parts s i j) (wp : 0 < p.w) (hv : 0 < p.v2)
    (ra : ((W.offR (i+1) - 1 : Nat) : ℝ) * W.dr < p.r) (zb : ((W.offZ j + y : Nat) : ℝ) * W.dz < p.z)
    (zb' : p.z < ((W.offZ j + y : Nat) + 1 : ℝ) * W.dz) :
    ∃ S', prepare W ps S = .ok S' ∧ readEnergy S' s (i+1) j 0 y = .ok 0 ∧
      0 < energyAt (W.par s) W.whole (W.all s) (W.offR (i+1)) (W.offZ j + y) := by
  obtain ⟨S', e, k, _⟩ := C95_own W h ps S hS s
  have hx : (0 : Int) < W.xs (i+1) := by have := h.rows (i+1) hi; unfold World.xs; omega
  refine ⟨S', e, ?_, ?_⟩
  · rw [k hq (i+1) j 0 y ⟨⟨hi, hj⟩, ⟨le_rfl, hx⟩, by omega, by omega⟩, energy_rest (h.par s) _ _ hr]
  · refine energy_pos h S hS hw (all_of_part (by omega) hj hp) hv ?_
    have C := h.inside s i j (by omega) hj p hp
    have r := h.rows i (by omega)
    have a1 : p.r < (((W.offR (i+1) - 1 : Nat) : ℝ) + 1) * W.dr := by
      have := C.rhi
      have e1 : (W.geo i j).r0 + (W.geo i j).nr = (W.offR (i+1) - 1) + 1 := by simp only [World.geo]; omega
      rw [e1] at this
      push_cast at this ⊢
      exact this
    have k := (share_pos h (by omega) hj hp wp ra a1 zb zb').1
    have e1 : ((W.offR (i+1) - 1 : Nat) : Int) + 1 = W.offR (i+1) := by omega
    have e2 : ((W.offZ j + y : Nat) : Int) = W.offZ j + y := by push_cast; ring
    rw [e1, e2] at k
    exact k

/-- **Nor at the columns between domains.** -/
theorem C95_column_fails (W : World) (h : W.Good) (ps : List Probe) (S : Nat → SMaps) (hS : AllGood W S) {s : Nat}
    (hq : ∃ q ∈ ps, lookup W.names q.specie = some s ∧ q.comp = .energy) (hw : ∀ p ∈ W.all s, 0 ≤ p.w)
    {i j x : Nat} (hi : i < W.nr) (hj : j + 1 < W.nz) (hx : x + 1 < W.xs i) (hr : ∀ p ∈ W.parts s i (j+1), p.v2 = 0)
    {p : VP} (hp : p ∈ W.parts s i j) (wp : 0 < p.w) (hv : 0 < p.v2)
    (ra : ((W.offR i + x : Nat) : ℝ) * W.dr < p.r) (ra' : p.r < ((W.offR i + x : Nat) + 1 : ℝ) * W.dr)
    (zb : ((W.offZ (j+1) - 1 : Nat) : ℝ) * W.dz < p.z) :
    ∃ S', prepare W ps S = .ok S' ∧ readEnergy S' s i (j+1) (x + 1) 0 = .ok 0 ∧
      0 < energyAt (W.par s) W.whole (W.all s) (W.offR i + x + 1) (W.offZ (j+1)) := by
  obtain ⟨S', e, k, _⟩ := C95_own W h ps S hS s
  have hy : (0 : Int) < W.ys (j+1) := by have := h.cols (j+1) hj; unfold World.ys; omega
  refine ⟨S', e, ?_, ?_⟩
  · rw [k hq i (j+1) (x+1) 0 ⟨⟨hi, hj⟩, ⟨by omega, by omega⟩, le_rfl, hy⟩, energy_rest (h.par s) _ _ hr]
  · refine energy_pos h S hS hw (all_of_part hi (by omega) hp) hv ?_
    have C := h.inside s i j hi (by omega) p hp
    have r := h.cols j (by omega)
    have a1 : p.z < (((W.offZ (j+1) - 1 : Nat) : ℝ) + 1) * W.dz := by
      have := C.zhi
      have e1 : (W.geo i j).z0 + (W.geo i j).nz = (W.offZ (j+1) - 1) + 1 := by simp only [World.geo]; omega
      rw [e1] at this
      push_cast at this ⊢
      exact this
    have k := (share_pos h hi (by omega) hp wp ra ra' zb a1).2
    have e1 : ((W.offZ (j+1) - 1 : Nat) : Int) + 1 = W.offZ (j+1) := by omega
    have e2 : ((W.offR i + x : Nat) : Int) + 1 = W.offR i + x + 1 := by push_cast; ring
    rw [e1, e2] at k
    exact k

/-! ### Examples -/

theorem exAll_weights : ∀ p ∈ exWorld.all 0, 0 ≤ p.w := by
  intro p hp
  unfold World.all at hp
  obtain ⟨⟨i, j⟩, _, hp⟩ := List.mem_flatMap.mp hp
  simp only [exWorld] at hp
  split at hp
  · rw [List.mem_singleton.mp hp]; norm_num
  · split at hp
    · rw [List.mem_singleton.mp hp]; norm_num
    · cases hp

-- the hypotheses of `C95_row_fails`
example : ∃ S', prepare exWorld [⟨.temperature, ['e']⟩, ⟨.energy, ['e']⟩, ⟨.density, ['e']⟩] (fun _ _ _ => exMaps) = .ok S' ∧
    readEnergy S' 0 1 0 0 (1 : Nat) = .ok 0 ∧
    0 < energyAt (exWorld.par 0) exWorld.whole (exWorld.all 0) (exWorld.offR 1) (exWorld.offZ 0 + (1 : Nat)) := by
  refine C95_row_fails exWorld exWorld_good _ _ exMaps_good (s := 0)
    ⟨⟨.energy, ['e']⟩, by simp, by decide, rfl⟩ exAll_weights (i := 0) (j := 0) (y := 1) (by decide) (by decide) (by decide) ?_
    (p := ⟨3/2, 3/2, 1, 1, 2, 1⟩) (List.mem_singleton.mpr rfl) ?_ ?_ ?_ ?_ ?_
  · intro p hp
    simp [exWorld] at hp
  all_goals norm_num [exWorld, VP.v2]

/-- An electron in the last column of the first domain. -/
noncomputable def exWorldZ : World := { exWorld with parts := fun _ i j => if i = 0 ∧ j = 0 then [⟨1/2, 3/2, 1, 1, 2, 1⟩] else [] }

theorem exWorldZ_good : exWorldZ.Good := by
  refine ⟨exWorld_good.dr, exWorld_good.dz, exWorld_good.rows, exWorld_good.cols, exWorld_good.fitR, exWorld_good.fitZ,
    exWorld_good.par, ?_⟩
  intro s i j hi hj p hp
  simp only [exWorldZ] at hp
  split at hp
  · next e =>
    rw [List.mem_singleton.mp hp, e.1, e.2]
    constructor <;> norm_num [World.geo, exWorldZ, exWorld]
  · cases hp

-- the hypotheses of `C95_column_fails`
example : ∃ S', prepare exWorldZ [⟨.energy, ['e']⟩] (fun _ _ _ => exMaps) = .ok S' ∧
    readEnergy S' 0 0 1 ((0 : Nat) + 1) 0 = .ok 0 ∧
    0 < energyAt (exWorldZ.par 0) exWorldZ.whole (exWorldZ.all 0) (exWorldZ.offR 0 + (0 : Nat) + 1) (exWorldZ.offZ 1) := by
  refine C95_column_fails exWorldZ exWorldZ_good _ _ exMaps_good (s := 0)
    ⟨⟨.energy, ['e']⟩, by simp, by decide, rfl⟩ ?_ (i := 0) (j := 0) (x := 0) (by decide) (by decide) (by decide) ?_
    (p := ⟨1/2, 3/2, 1, 1, 2, 1⟩) (List.mem_singleton.mpr rfl) ?_ ?_ ?_ ?_ ?_
  · intro p hp
    unfold World.all at hp
    obtain ⟨⟨i, j⟩, _, hp⟩ := List.mem_flatMap.mp hp
    simp only [exWorldZ] at hp
    split at hp
    · rw [List.mem_singleton.mp hp]; norm_num
    · cases hp
  · intro p hp
    simp [exWorldZ] at hp
  all_goals norm_num [exWorldZ, exWorld, VP.v2]

-- the hypotheses of `C95_own` and `C95_inside_partial`: the list of probes has an energy probe and then a temperature probe
example : ∃ S', prepare exWorld [⟨.energy, ['e']⟩, ⟨.temperature, ['e']⟩] (fun _ _ _ => exMaps) = .ok S' ∧
    readTemperature S' 0 1 1 1 1 =
      .ok (temperatureAt (exWorld.par 0) exWorld.whole (exWorld.all 0) (1 + exWorld.offR 1) (1 + exWorld.offZ 1)) := by
  obtain ⟨S', e, _, _, k⟩ := C95_inside_partial exWorld exWorld_good [⟨.energy, ['e']⟩, ⟨.temperature, ['e']⟩] _ exMaps_good 0
  exact ⟨S', e, k ⟨[], [], [], _, _, rfl, by decide, rfl, by decide, rfl⟩ 1 1 1 1
    ⟨⟨by decide, by decide⟩, ⟨by decide, by decide⟩, by decide, by decide⟩ ⟨fun _ => by decide, fun _ => by decide⟩⟩

end Dump
end Pico
