import Verif.Spec.PicRest
import Verif.Props.PicStart
import Verif.Lemmas.Scale
import Verif.Lemmas.PicLaws

/-!
# C126 — a plasma at rest without fields stays at rest

Whatever the charges are: fields come from currents only.
-/

set_option linter.unusedSimpArgs false
set_option linter.unusedVariables false
set_option linter.unusedSectionVars false

namespace Pico

namespace Yee

open VB SMB

/-! ### Zero fields stay zero -/

/-- The memories of the domains of a process. -/
def InScaled (R Z : Nat) (s : ℝ) (M N : Solvers ℝ) : Prop := ∀ i j, i < R → j < Z → Scaled s (M i j) (N i j)

variable {s t : ℝ}

/-- The grids of the domains of a process. -/
def InDoms (R Z : Nat) (t : ℝ) (D F : SMB.Domains ℝ) : Prop := ∀ i j, i < R → j < Z → GridScaled t (D i j) (F i j)

theorem setD_in {R Z : Nat} {D F : SMB.Domains ℝ} (H : InDoms R Z t D F) (i j : Nat) {g h : Grid ℝ} (K : GridScaled t g h) :
    InDoms R Z t (SMB.setD D i j g) (SMB.setD F i j h) := by
  intro a b ha hb
  unfold SMB.setD
  split
  · exact K
  · exact H a b ha hb

theorem pass_in (R Z : Nat) {D F : SMB.Domains ℝ} (H : InDoms R Z t D F) : ResRel (InDoms R Z t) (SMB.overlayPass R Z D) (SMB.overlayPass R Z F) := by
  unfold SMB.overlayPass
  refine ResRel.loop' _ (fun p hp D F H => ?_) H
  have hp := mem_sweep.mp hp
  unfold SMB.overlayAt
  refine ResRel.bind (R := InDoms R Z t) ?_ fun D F H => ResRel.bind (R := InDoms R Z t) ?_ fun D F H => ?_
  · unfold SMB.exchX
    split
    · exact (overlayX_scaled (H _ _ hp.1 hp.2) (H _ _ (by omega) hp.2)).bind fun p q K => setD_in (setD_in H _ _ K.1) _ _ K.2
    · exact H
  · unfold SMB.exchY
    split
    · exact (overlayY_scaled (H _ _ hp.1 hp.2) (H _ _ hp.1 (by omega))).bind fun p q K => setD_in (setD_in H _ _ K.1) _ _ K.2
    · exact H
  · unfold SMB.exchXY
    split
    · exact (overlayXY_scaled (H _ _ hp.1 hp.2) (H _ _ (by omega) (by omega))).bind fun p q K => setD_in (setD_in H _ _ K.1) _ _ K.2
    · exact H

theorem overlayComp_in (P : Nat → Nat → Par ℝ) (R Z : Nat) (c : Comp) {M N : Solvers ℝ} (H : InScaled R Z s M N) :
    ResRel (InScaled R Z s) (overlayComp P R Z c M) (overlayComp P R Z c N) := by
  unfold overlayComp
  have G : InDoms R Z (fac s c) (fun i j => toGrid (P i j) (M i j) c) (fun i j => toGrid (P i j) (N i j) c) :=
    fun i j hi hj => ⟨rfl, rfl, rfl, fun a b => H i j hi hj c _ _⟩
  refine (pass_in R Z G).bind fun D F K => ?_
  intro i j hi hj c' x y
  dsimp only
  unfold ofGrid
  split
  · rename_i e
    rw [(K i j hi hj).cell, e.1]
  · exact H i j hi hj c' x y

theorem each_in (R Z : Nat) {f g : Nat → Nat → Mem ℝ → Res (Mem ℝ)} (hf : ∀ i j m n, i < R → j < Z → Scaled s m n → ResRel (Scaled s) (f i j m) (g i j n)) {M N : Solvers ℝ}
    (H : InScaled R Z s M N) : ResRel (InScaled R Z s) (each R Z f M) (each R Z g N) := by
  unfold each
  refine ResRel.loop' _ (fun q hq M N H => ?_) H
  have hq : q.1 < R ∧ q.2 < Z := by
    have := mem_idx2.mp hq
    omega
  refine (hf q.1 q.2 _ _ hq.1 hq.2 (H q.1 q.2 hq.1 hq.2)).bind fun m n K => ?_
  intro i j hi hj
  dsimp only
  split
  · exact K
  · exact H i j hi hj

theorem solveMaxwell_in (P : Nat → Nat → Par ℝ) (R Z : Nat) {M N : Solvers ℝ} (H : InScaled R Z s M N) :
    ResRel (InScaled R Z s) (solveMaxwell P R Z M) (solveMaxwell P R Z N) := by
  unfold solveMaxwell
  refine (each_in R Z (fun i j m n _ _ h => calcE_scaled (P i j) h) H).bind fun M N H => ?_
  refine (ResRel.loop' _ (fun c _ M N H => overlayComp_in P R Z c H) H).bind fun M N H => ?_
  refine (each_in R Z (fun i j m n _ _ h => calcH_scaled (P i j) h) H).bind fun M N H => ?_
  exact ResRel.loop' _ (fun c _ M N H => overlayComp_in P R Z c H) H

/-- No fields and currents in memory. -/
theorem scaled_zero {m : Mem ℝ} : Scaled 0 m m ↔ ∀ c, c ≠ .eps → c ≠ .sig → ∀ x y, m c x y = 0 := by
  constructor
  · intro h c h1 h2 x y
    rw [h c x y, fac_field (by rintro (k | k); exacts [h1 k, h2 k]), zero_mul]
  · intro h c x y
    by_cases k : c = .eps ∨ c = .sig
    · rw [fac_medium k, one_mul]
    · rw [h c (fun e => k (Or.inl e)) (fun e => k (Or.inr e)), mul_zero]

/-! ### Standing particles deposit nothing -/

/-- A particle that stands still. -/
def Standing (q : VB.Part ℝ) : Prop := q.r = q.rOld ∧ q.z = q.zOld ∧ q.vphi = 0

theorem relay_still {x dx : ℝ} (hd : 0 < dx) : ZigZag.relayPoint ⌊x / dx⌋ ⌊x / dx⌋ x x dx = x := by
  unfold ZigZag.relayPoint
  have h1 : (⌊x / dx⌋ : ℝ) * dx ≤ x := (le_div_iff₀ hd).mp (Int.floor_le _)
  have h2 : x < (⌊x / dx⌋ : ℝ) * dx + dx := by
    have := (div_lt_iff₀ hd).mp (Int.lt_floor_add_one (x / dx))
    linarith
  rw [min_self, max_self, show (x + x) / 2 = x by ring, max_eq_right h1, min_eq_right h2.le]

theorem zz_still (X : Ctx ℝ) (hX : X.Good) {q : VB.Part ℝ} (hq : Standing q) (iM : Int) :
    LinOps 0 (ZigZag.cellOps X q ⌊q.r / X.g.dr⌋ ⌊q.rOld / X.g.dr⌋ ⌊q.z / X.g.dz⌋ ⌊q.zOld / X.g.dz⌋ iM)
      (ZigZag.cellOps X q ⌊q.r / X.g.dr⌋ ⌊q.rOld / X.g.dr⌋ ⌊q.z / X.g.dz⌋ ⌊q.zOld / X.g.dz⌋ iM) := by
  obtain ⟨e1, e2, e3⟩ := hq
  unfold ZigZag.cellOps
  dsimp only
  rw [← e1, ← e2, e3, relay_still hX.geo.dr, relay_still hX.geo.dz]
  repeat' refine LinOps.inc ?_ (by decide) _ _ ?_
  · exact LinOps.nil
  all_goals simp

theorem cellNumber_inv {pos dx : ℝ} {n : Int} (h : cellNumber pos dx = .ok n) : n = ⌊pos / dx⌋ := by
  unfold cellNumber at h
  dsimp only at h
  split at h
  · exact (Res.ok.inj h).symm
  · cases h

theorem azimuthal_still (X : Ctx ℝ) {q : VB.Part ℝ} (hq : Standing q) : LinOps 0 (azimuthalOps X q) (azimuthalOps X q) := by
  unfold azimuthalOps
  dsimp only
  rw [hq.2.2]
  repeat' refine LinOps.inc ?_ (by decide) _ _ ?_
  · exact LinOps.nil
  all_goals simp

theorem two_ifs {α : Type} {c d : Prop} {_ : Decidable c} {_ : Decidable d} {x y z r : α} (e : (if c then x else if d then y else z) = r) (hd : d) : x = r ∨ y = r := by
  rw [if_pos hd] at e
  split at e
  · exact Or.inl e
  · exact Or.inr e

theorem rz_still (X : Ctx ℝ) (hX : X.Good) {q : VB.Part ℝ} (hq : Standing q) {ops : List (Op ℝ)} (e : rzOps X q = .ok ops) : ops = [] := by
  obtain ⟨e1, e2, e3⟩ := hq
  have m := hX.mnzl
  unfold rzOps at e
  obtain ⟨iO, _, e⟩ := Res.bind_ok e
  obtain ⟨kO, _, e⟩ := Res.bind_ok e
  dsimp only at e
  rcases two_ifs e (Or.inl (by rw [e1, sub_self, abs_zero]; exact m)) with e | e
  · exact (Res.ok.inj e).symm
  · unfold strictMotion at e
    obtain ⟨_, _, e⟩ := Res.bind_ok e
    obtain ⟨_, _, e⟩ := Res.bind_ok e
    obtain ⟨_, _, e⟩ := Res.bind_ok e
    obtain ⟨_, _, e⟩ := Res.bind_ok e
    rw [if_pos ⟨by rw [e1, sub_self, abs_zero]; exact m, by rw [e2, sub_self, abs_zero]; exact m⟩] at e
    exact (Res.ok.inj e).symm

/-- A scheme gives nothing for particles that stand still. -/
theorem still_zero {dist : Ctx ℝ → List (VB.Part ℝ) → Mem ℝ → Res (Mem ℝ)} (hz : Pic.Scheme dist) (X : Ctx ℝ) (hX : X.Good) {qs : List (VB.Part ℝ)}
    (hq : ∀ q ∈ qs, Standing q) {m n : Mem ℝ} (h : Scaled 0 m n) : ResRel (Scaled 0) (dist X qs m) (dist X qs n) := by
  rcases hz with rfl | rfl
  · unfold VB.currentDistribution
    refine ResRel.bind (R := Scaled 0) ?_ fun m n h => ?_
    · unfold VB.azimuthal
      exact ResRel.loop' _ (fun q hq' m n h => (azimuthal_still X (hq q hq')).run X.g h) (clear_scaled X.g h)
    · unfold VB.rz
      refine ResRel.loop' _ (fun q hq' m n h => ?_) (clear_scaled X.g h)
      unfold rzParticle
      cases e : rzOps X q with
      | ok ops =>
        rw [rz_still X hX (hq q hq') e]
        exact h
      | fatal => exact trivial
      | ub => exact trivial
  · unfold ZigZag.currentDistribution
    refine ResRel.loop' _ (fun q hq' m n h => ?_) (clear_scaled X.g h)
    unfold ZigZag.particle
    cases e : ZigZag.particleOps X q with
    | ok ops =>
      unfold ZigZag.particleOps at e
      obtain ⟨a, c1, e⟩ := Res.bind_ok e
      obtain ⟨b, c2, e⟩ := Res.bind_ok e
      obtain ⟨c, c3, e⟩ := Res.bind_ok e
      obtain ⟨d, c4, e⟩ := Res.bind_ok e
      obtain ⟨iM, _, e⟩ := Res.bind_ok e
      obtain rfl := Res.ok.inj e
      rw [cellNumber_inv c1, cellNumber_inv c2, cellNumber_inv c3, cellNumber_inv c4]
      exact (zz_still X hX (hq q hq') iM).run X.g h
    | fatal => exact trivial
    | ub => exact trivial

theorem solveCurrent_still {dist : Ctx ℝ → List (VB.Part ℝ) → Mem ℝ → Res (Mem ℝ)} (hz : Pic.Scheme dist) (p : Par ℝ) (R Z : Nat) (e : Consts ℝ)
    (hX : ∀ i j, i < R → j < Z → (domCtx p R Z e i j).Good) {ps : Nat → Nat → List (VB.Part ℝ)} (hq : ∀ i j, i < R → j < Z → ∀ q ∈ ps i j, Standing q) {M N : Solvers ℝ}
    (H : InScaled R Z 0 M N) : ResRel (InScaled R Z 0) (solveCurrent dist p R Z e ps M) (solveCurrent dist p R Z e ps N) := by
  unfold solveCurrent
  refine ResRel.bind (R := InScaled R Z 0) ?_ fun M N H => ?_
  · refine each_in R Z (fun i j m n hi hj h => ?_) H
    exact still_zero hz _ (hX i j hi hj) (hq i j hi hj) (reset_scaled _ h)
  exact ResRel.loop' _ (fun c _ M N H => overlayComp_in _ R Z c H) H

end Yee

namespace Pusher

/-- Every pusher leaves a particle alone that stands still in empty space, whatever the uninitialised flag of the default pusher is. -/
theorem push_still (kind : Kind) (P : Par) (junk : Bool) (hc : 0 < P.c) : pushV kind P junk ⟨0, 0, 0⟩ ⟨0, 0, 0⟩ ⟨0, 0, 0⟩ = .ok ⟨0, 0, 0⟩ := by
  have hv : (⟨0, 0, 0⟩ : Vec3 ℝ).length2 < P.c ^ 2 := by
    unfold Vec3.length2
    have := pow_pos hc 2
    simpa using this
  cases kind with
  | boris =>
    obtain ⟨w, e, _, k⟩ := C71_boris .boris (Or.inl rfl) P junk hc ⟨0, 0, 0⟩ ⟨0, 0, 0⟩ hv
    rw [k rfl] at e
    exact e
  | borisRelativistic =>
    obtain ⟨w, e, _, k⟩ := C71_boris .borisRelativistic (Or.inr (Or.inl rfl)) P junk hc ⟨0, 0, 0⟩ ⟨0, 0, 0⟩ hv
    rw [k rfl] at e
    exact e
  | borisAdaptive =>
    obtain ⟨w, e, _, k⟩ := C71_boris .borisAdaptive (Or.inr (Or.inr rfl)) P junk hc ⟨0, 0, 0⟩ ⟨0, 0, 0⟩ hv
    rw [k rfl] at e
    exact e
  | vay =>
    obtain ⟨w, e, _⟩ := C72_step .vay (Or.inr (Or.inl rfl)) P junk hc ⟨0, 0, 0⟩ ⟨0, 0, 0⟩ ⟨0, 0, 0⟩ hv
    refine e.trans (congrArg Res.ok ?_)
    change vay P _ _ _ = _ at e
    unfold vay at e
    obtain ⟨g, _, e⟩ := Res.bind_ok e
    dsimp only at e
    obtain ⟨g, _, e⟩ := Res.bind_ok e
    rw [← Res.ok.inj e]
    clear * -
    simp [Vec3.smul, Vec3.add, Vec3.dot, Vec3.zip]
  | hc =>
    obtain ⟨w, e, _⟩ := C72_step .hc (Or.inr (Or.inr rfl)) P junk hc ⟨0, 0, 0⟩ ⟨0, 0, 0⟩ ⟨0, 0, 0⟩ hv
    refine e.trans (congrArg Res.ok ?_)
    change Pusher.hc P _ _ _ = _ at e
    unfold Pusher.hc at e
    obtain ⟨g, _, e⟩ := Res.bind_ok e
    dsimp only at e
    obtain ⟨g, _, e⟩ := Res.bind_ok e
    rw [← Res.ok.inj e]
    clear * -
    simp [Vec3.smul, Vec3.add, Vec3.mulV, Vec3.zip, hcRotate]

end Pusher

namespace Pic

open SMB Yee

section
variable {E : Env} (h : Chamber E)
include h

/-- The push in a chamber without fields. -/
theorem rest_push {m : Mem ℝ} (hm : Scaled 0 m m) (kind : Pusher.Kind) (id : Nat) (junk : Bool) {i j : Nat} (hi : i < E.domR) (hj : j < E.domZ) {a : Part ℝ} (ha : InPlace E i j a)
    (hv : vel a = ⟨0, 0, 0⟩) : Pusher.push kind (E.pushPar id) junk E.e.pi (E.geom i j) m a.posR a.posZ (vel a) = .ok ⟨0, 0, 0⟩ := by
  obtain ⟨v, p, _⟩ := push_ok (E := { E with kind := .borisRelativistic }) ⟨h.r0, h.walls, h.div, h.good, h.c, h.cr, h.cz, h.mass⟩ (Or.inl rfl) hi hj
    (a := a) ⟨ha.phi, ha.dom, ha.r1, ha.r2, ha.z1, ha.z2, ha.slow, ha.cellR, ha.cellZ⟩ id m
  have p := p junk
  change Pusher.push .borisRelativistic (E.pushPar id) junk E.e.pi (E.geom i j) m a.posR a.posZ (vel a) = _ at p
  unfold Pusher.push at p ⊢
  obtain ⟨e, e1, p⟩ := Res.bind_ok p
  obtain ⟨b, e2, p⟩ := Res.bind_ok p
  obtain ⟨f1, f2⟩ := field_scaled E.e.pi (E.geom i j) hm a.posR a.posZ
  rw [e1] at f1
  rw [e2] at f2
  have z1 : e = ⟨0, 0, 0⟩ := by
    have : e = e.smul 0 := f1
    rw [this]
    simp [Vec3.smul]
  have z2 : b = ⟨0, 0, 0⟩ := by
    have : b = b.smul 0 := f2
    rw [this]
    simp [Vec3.smul]
  rw [e1, Res.ok_bind, e2, Res.ok_bind, z1, z2, hv]
  exact Pusher.push_still kind _ junk h.c

/-- A particle that stands still lands where it is. -/
theorem rest_landed {i j : Nat} (hi : i < E.domR) (hj : j < E.domZ) {a : Part ℝ} (ha : InPlace E i j a) :
    landR E a ⟨0, 0, 0⟩ = a.posR ∧ landZ E a ⟨0, 0, 0⟩ = a.posZ ∧ (landed E a ⟨0, 0, 0⟩).posR = a.posR ∧ (landed E a ⟨0, 0, 0⟩).posZ = a.posZ ∧
      vel (landed E a ⟨0, 0, 0⟩) = ⟨0, 0, 0⟩ := by
  have dr : 0 < E.p.dr := h.good.geo.dr
  have r0 : 0 ≤ a.posR := by linarith [ha.r1]
  have l1 : landR E a ⟨0, 0, 0⟩ = a.posR := by
    unfold landR
    rw [ha.phi]
    simp [Real.sqrt_sq r0]
  have l2 : landZ E a ⟨0, 0, 0⟩ = a.posZ := by
    unfold landZ
    simp
  have c1 : ¬ (E.p.nr * E.p.dr - E.p.dr / 2 < a.posR) := not_lt.mpr ha.r2
  have c2 : ¬ (a.posR < E.p.dr / 2) := not_lt.mpr ha.r1
  have c3 : ¬ (E.p.nz * E.p.dz - E.p.dz / 2 < a.posZ) := not_lt.mpr ha.z2
  have c4 : ¬ (a.posZ < E.p.dz / 2) := not_lt.mpr ha.z1
  refine ⟨l1, l2, ?_, ?_, ?_⟩
  · unfold landed
    dsimp only
    rw [l1]
    unfold Part.mirX
    simp [c1, c2]
  · unfold landed
    dsimp only
    rw [l2]
    unfold Part.mirX
    simp [c3, c4]
  · unfold landed vel
    dsimp only
    rw [l1, l2]
    unfold Part.mirV
    simp [c1, c2, c3, c4]

theorem same_dom {i j i' j' : Nat} (hi : i < E.domR) (hj : j < E.domZ) (hi' : i' < E.domR) (hj' : j' < E.domZ) {r z : ℝ}
    (a : (E.geom i j).Contains r z) (b : (E.geom i' j').Contains r z) : i = i' ∧ j = j' := by
  have dr : 0 < E.p.dr := h.good.geo.dr
  have dz : 0 < E.p.dz := h.good.geo.dz
  have one : ∀ {n d k k' : Nat} {x dx : ℝ}, 0 < dx → (low n d k : ℝ) * dx ≤ x → x < ((low n d k' + hgt n d k' : Nat) : ℝ) * dx → k ≤ k' := by
    intro n d k k' x dx hd h1 h2
    by_contra c
    have m : low n d (k' + 1) ≤ low n d k := low_mono (by omega)
    have e : low n d k' + hgt n d k' = low n d (k' + 1) := by
      have : low n d k' ≤ low n d (k' + 1) := low_mono (by omega)
      unfold hgt
      omega
    rw [e] at h2
    have : ((low n d (k' + 1) : Nat) : ℝ) * dx ≤ (low n d k : ℝ) * dx := mul_le_mul_of_nonneg_right (by exact_mod_cast m) hd.le
    linarith
  rw [geom_eq h] at a b
  obtain ⟨a1, a2, a3, a4⟩ := a
  obtain ⟨b1, b2, b3, b4⟩ := b
  exact ⟨le_antisymm (one dr a1 b2) (one dr b1 a2), le_antisymm (one dz a3 b4) (one dz b3 a4)⟩

variable (hz : Scheme E.dist) {ids : List Nat} (nd : ids.Nodup)
include hz nd

/-- C126, one step, for every pusher and both schemes, whatever the charges of the particles are. -/
theorem C126_step {S : State} (A : Alive E ids S) (R : AtRest E S) (B : OffBorder E S) :
    ∃ S', (∀ T, Step E S T ↔ T = S') ∧ Alive E ids S' ∧ AtRest E S' ∧ OffBorder E S' ∧ Unchanged E ids S S' := by
  let F : Env := { E with kind := .borisRelativistic }
  have hF : Chamber F := ⟨h.r0, h.walls, h.div, h.good, h.c, h.cr, h.cz, h.mass⟩
  have pl : ∀ {i j a}, InPlace E i j a ↔ InPlace F i j a := fun {i j a} =>
    ⟨fun k => ⟨k.phi, k.dom, k.r1, k.r2, k.z1, k.z2, k.slow, k.cellR, k.cellZ⟩, fun k => ⟨k.phi, k.dom, k.r1, k.r2, k.z1, k.z2, k.slow, k.cellR, k.cellZ⟩⟩
  have al : ∀ {T}, Alive E ids T ↔ Alive F ids T := fun {T} =>
    ⟨fun k => ⟨k.species, k.once, fun i j hi hj sp hsp o ho => pl.mp (k.place i j hi hj sp hsp o ho), k.fields⟩,
      fun k => ⟨k.species, k.once, fun i j hi hj sp hsp o ho => pl.mpr (k.place i j hi hj sp hsp o ho), k.fields⟩⟩
  have zero : InScaled E.domR E.domZ 0 S.M S.M := fun i j hi hj => scaled_zero.mpr (R.fields i j hi hj)
  have max : ∀ M1, solveMaxwell (domPar E.p E.domR E.domZ) E.domR E.domZ S.M = .ok M1 → InScaled E.domR E.domZ 0 M1 M1 := by
    intro M1 e
    obtain ⟨b, e', k⟩ := (solveMaxwell_in (domPar E.p E.domR E.domZ) E.domR E.domZ zero).of_ok e
    obtain rfl := Res.ok.inj (e.symm.trans e')
    exact k
  have P : ∀ M1, solveMaxwell (domPar E.p E.domR E.domZ) E.domR E.domZ S.M = .ok M1 → ∀ i j, i < E.domR → j < E.domZ → ∀ sp ∈ S.D i j, ∀ o ∈ sp.parts, ∀ kind junk,
      Pusher.push kind (E.pushPar sp.id) junk E.e.pi (E.geom i j) (M1 i j) (S.heap o.tag).posR (S.heap o.tag).posZ (vel (S.heap o.tag)) = .ok ⟨0, 0, 0⟩ :=
    fun M1 e i j hi hj sp hsp o ho kind junk => rest_push h (max M1 e i j hi hj) kind sp.id junk hi hj (A.place i j hi hj sp hsp o ho) (R.still i j hi hj sp hsp o ho)
  have st : ∀ T, Step E S T ↔ Step F S T := by
    intro T
    have mv : ∀ M1, solveMaxwell (domPar E.p E.domR E.domZ) E.domR E.domZ S.M = .ok M1 → ∀ i j, i < E.domR → j < E.domZ → ∀ sp ∈ S.D i j, ∀ o ∈ sp.parts, ∀ b,
        Moves E i j (M1 i j) sp.id (S.heap o.tag) b ↔ Moves F i j (M1 i j) sp.id (S.heap o.tag) b := by
      intro M1 e i j hi hj sp hsp o ho b
      have P1 := P M1 e i j hi hj sp hsp o ho
      constructor
      · rintro ⟨junk, v, e1, e2⟩
        exact ⟨junk, v, (P1 .borisRelativistic junk).trans ((P1 E.kind junk).symm.trans e1), e2⟩
      · rintro ⟨junk, v, e1, e2⟩
        exact ⟨junk, v, (P1 E.kind junk).trans ((P1 .borisRelativistic junk).symm.trans e1), e2⟩
    constructor
    · rintro ⟨M1, e, k1, k2⟩
      exact ⟨M1, e, fun i j hi hj sp hsp o ho => (mv M1 e i j hi hj sp hsp o ho _).mp (k1 i j hi hj sp hsp o ho), k2⟩
    · rintro ⟨M1, e, k1, k2⟩
      exact ⟨M1, e, fun i j hi hj sp hsp o ho => (mv M1 e i j hi hj sp hsp o ho _).mpr (k1 i j hi hj sp hsp o ho), k2⟩
  have nb : NoBorder F S := by
    intro M1 e i j hi hj sp hsp o ho junk v ev
    obtain rfl := Res.ok.inj ((P M1 e i j hi hj sp hsp o ho .borisRelativistic junk).symm.trans ev)
    obtain ⟨l1, l2, _⟩ := rest_landed h hi hj (A.place i j hi hj sp hsp o ho)
    have b := B i j hi hj sp hsp o ho
    exact ⟨fun k => b.1 (l1.symm.trans k), fun k => b.2 (l2.symm.trans k)⟩
  obtain ⟨S', s1, s2, s3, s4⟩ := step_all hF (Or.inl rfl) (scheme_sound hz) nd (al.mp A) nb
  obtain ⟨M1, e1, g1, g2, g3, g4⟩ := (s1 S').mpr rfl
  have A' := al.mpr s2
  have mem : ∀ {T : State} {id t : Nat}, t ∈ tagsOf E T.D id ↔ ∃ i j, i < E.domR ∧ j < E.domZ ∧ ∃ sp ∈ T.D i j, sp.id = id ∧ ∃ o ∈ sp.parts, o.tag = t := fun {T id t} => mem_tags
  have land : ∀ id t, t ∈ tagsOf E S.D id → ∃ i j, i < E.domR ∧ j < E.domZ ∧ InPlace E i j (S.heap t) ∧ vel (S.heap t) = ⟨0, 0, 0⟩ ∧
      S'.heap t = landed E (S.heap t) ⟨0, 0, 0⟩ := by
    intro id t ht
    obtain ⟨i, j, hi, hj, sp, hsp, rfl, o, ho, rfl⟩ := mem.mp ht
    refine ⟨i, j, hi, hj, A.place i j hi hj sp hsp o ho, R.still i j hi hj sp hsp o ho, ?_⟩
    obtain ⟨v, p1, _, p3⟩ := moves_iff hF (Or.inl rfl) (al.mp A) nb e1 hi hj hsp ho
    obtain rfl := Res.ok.inj ((p1 true).symm.trans (P M1 e1 i j hi hj sp hsp o ho .borisRelativistic true))
    exact (p3 _).mp (g1 i j hi hj sp hsp o ho)
  have back : ∀ i j, i < E.domR → j < E.domZ → ∀ sp ∈ S'.D i j, ∀ o ∈ sp.parts, o.tag ∈ tagsOf E S.D sp.id := by
    intro i j hi hj sp hsp o ho
    have hid : sp.id ∈ ids := by
      rw [← A'.species i j]
      exact List.mem_map_of_mem hsp
    exact (s3 sp.id hid).mem_iff.mp (mem.mpr ⟨i, j, hi, hj, sp, hsp, rfl, o, ho, rfl⟩)
  have still : ∀ i j, i < E.domR → j < E.domZ → ∀ q ∈ depositsOf E S'.heap S'.D i j, Standing q := by
    intro i j hi hj q hq
    obtain ⟨sp, hsp, hq⟩ := List.mem_flatMap.mp hq
    obtain ⟨o, ho, rfl⟩ := List.mem_map.mp hq
    obtain ⟨i', j', hi', hj', a1, a2, a3⟩ := land _ _ (back i j hi hj sp hsp o ho)
    obtain ⟨_, _, l3, l4, l5⟩ := rest_landed h hi' hj' a1
    refine ⟨?_, ?_, ?_⟩
    · show (S'.heap o.tag).posR = (S'.heap o.tag).oldR
      rw [a3, l3]
      rfl
    · show (S'.heap o.tag).posZ = (S'.heap o.tag).oldZ
      rw [a3, l4]
      rfl
    · show (S'.heap o.tag).velPhi = 0
      rw [a3]
      exact congrArg Vec3.y l5
  have zero' : InScaled E.domR E.domZ 0 S'.M S'.M := by
    obtain ⟨b, e', k⟩ := (solveCurrent_still hz E.p E.domR E.domZ E.e (fun i j hi hj => dom_good h.div E.e h.good hi hj) still (max M1 e1)).of_ok g4
    obtain rfl := Res.ok.inj (g4.symm.trans e')
    exact k
  refine ⟨S', fun T => (st T).trans (s1 T), A', ⟨fun i j hi hj => scaled_zero.mp (zero' i j hi hj), ?_⟩, ?_, s3, ?_, ?_⟩
  · intro i j hi hj sp hsp o ho
    obtain ⟨i', j', hi', hj', a1, a2, a3⟩ := land _ _ (back i j hi hj sp hsp o ho)
    obtain ⟨_, _, l3, l4, l5⟩ := rest_landed h hi' hj' a1
    rw [a3, l5]
  · intro i j hi hj sp hsp o ho
    have p' := A'.place i j hi hj sp hsp o ho
    obtain ⟨i', j', hi', hj', sp', hsp', _, o', ho', et⟩ := mem.mp (back i j hi hj sp hsp o ho)
    have p := A.place i' j' hi' hj' sp' hsp' o' ho'
    have b := B i' j' hi' hj' sp' hsp' o' ho'
    obtain ⟨_, _, hi2, hj2, a1, a2, a3⟩ := land _ _ (back i j hi hj sp hsp o ho)
    obtain ⟨_, _, l3, l4, l5⟩ := rest_landed h hi2 hj2 a1
    rw [et] at p b
    have d' := p'.dom
    rw [a3, l3, l4]
    rw [a3, l3, l4] at d'
    obtain ⟨q1, q2⟩ := same_dom h hi hj hi' hj' d' p.dom
    rw [q1, q2]
    exact b
  · intro id hid t ht
    obtain ⟨i', j', hi', hj', a1, a2, a3⟩ := land _ _ ht
    obtain ⟨_, _, l3, l4, l5⟩ := rest_landed h hi' hj' a1
    rw [a3, l3, l4, l5, a2]
    exact ⟨rfl, a1.phi.symm, rfl, rfl, rfl⟩
  · intro i j hi hj c hc x y
    rw [solve_keeps hz E.p E.domR E.domZ E.e _ g4 (c := c) (by rcases hc with rfl | rfl <;> (unfold isJ; decide))]
    obtain ⟨m, W⟩ := A.fields
    obtain ⟨N1, _, e2, _, k⟩ := maxwell_ok E.p h.div W
    obtain rfl := Res.ok.inj (e1.symm.trans e2)
    exact k i j c x y hi hj (by rcases hc with rfl | rfl <;> rfl)

/-- **C126**: a chamber without fields and currents whose particles stand still is a state that never changes: the simulation goes on for
ever, in exactly one way, for every pusher and both schemes, and in all its states there are no fields and no currents and every
particle is where it was.  The charges do not matter: not even particles of one sign only push each other apart. -/
theorem C126_run {S : State} (A : Alive E ids S) (R : AtRest E S) (B : OffBorder E S) (n : Nat) :
    ∃ S', (∀ T, Run E S n T ↔ T = S') ∧ Alive E ids S' ∧ AtRest E S' ∧ OffBorder E S' ∧ Unchanged E ids S S' := by
  induction n with
  | zero =>
    refine ⟨S, fun T => ⟨fun r => ?_, fun e => e ▸ .start⟩, A, R, B, ⟨fun _ _ => .refl _, fun _ _ _ _ => ⟨rfl, rfl, rfl, rfl, rfl⟩, fun _ _ _ _ _ _ _ _ => rfl⟩⟩
    cases r
    rfl
  | succ n ih =>
    obtain ⟨S1, a1, a2, a3, a4, a5⟩ := ih
    obtain ⟨S2, b1, b2, b3, b4, b5⟩ := C126_step h hz nd a2 a3 a4
    refine ⟨S2, fun T => ⟨fun r => ?_, fun e => e ▸ .step ((a1 S1).mpr rfl) ((b1 S2).mpr rfl)⟩, b2, b3, b4, ?_, ?_, ?_⟩
    · cases r with
      | step ra rb =>
        obtain rfl := (a1 _).mp ra
        exact (b1 _).mp rb
    · exact fun id hid => (b5.lists id hid).trans (a5.lists id hid)
    · intro id hid t ht
      obtain ⟨p1, p2, p3, p4, p5⟩ := a5.heap id hid t ht
      obtain ⟨q1, q2, q3, q4, q5⟩ := b5.heap id hid t ((a5.lists id hid).mem_iff.mpr ht)
      exact ⟨q1.trans p1, q2.trans p2, q3.trans p3, q4.trans p4, q5.trans p5⟩
    · exact fun i j hi hj c hc x y => (b5.media i j hi hj c hc x y).trans (a5.media i j hi hj c hc x y)

end

/-! ### From the configuration on -/

theorem cold_zero {X : Setup} (h : X.Sane) {s : Species} (h0 : s.temperature = 0) : X.Cold s := by
  have c := h.chamber.c
  unfold Setup.Cold
  rw [h0]
  cases X.speedy with
  | thermal =>
    refine Or.inl ⟨by norm_num, ?_⟩
    unfold Vel.ratio
    simp
    positivity
  | rectangular | eigen =>
    unfold Vel.ratio
    simp
    positivity

theorem switch_zero (k : Vel.Cst) (hl : 0 < k.lim) {u e : ℝ} (hu : u = 0) (he : e = 0) : Vel.switch k u e = some 0 := by
  unfold Vel.switch
  rw [hu, he, if_neg (not_lt.mpr hl.le), zero_mul, if_neg (lt_irrefl _), Real.sqrt_zero]

theorem spread_zero (r : ℝ × ℝ × ℝ) : Vel.spread (some 0) r = some ⟨0, 0, 0⟩ := by
  unfold Vel.spread
  simp

theorem classical_zero (us : List ℝ) {es : List ℝ} (e : Vel.classical 0 us = .ok es) : ∀ x ∈ es, x = 0 := by
  induction us generalizing es with
  | nil =>
    obtain rfl := Res.ok.inj e
    simp
  | cons u us ih =>
    unfold Vel.classical at e
    obtain ⟨f, _, e⟩ := Res.bind_ok e
    obtain ⟨l, e1, e⟩ := Res.bind_ok e
    obtain rfl := Res.ok.inj e
    intro x hx
    rcases List.mem_cons.mp hx with rfl | hx
    · exact zero_mul _
    · exact ih e1 x hx

theorem thermal_zero {k : Vel.Cst} (hl : 0 < k.lim) (es : List (Option ℝ)) (rs : List (ℝ × ℝ × ℝ)) (he : ∀ x ∈ es, x = some 0) {vs : List (Option (Vec3 ℝ))}
    (e : Vel.thermal k es rs = .ok vs) : ∀ v ∈ vs, v = some ⟨0, 0, 0⟩ := by
  induction rs generalizing es vs with
  | nil =>
    unfold Vel.thermal at e
    obtain rfl := Res.ok.inj e
    simp
  | cons r rs ih =>
    cases es with
    | nil => cases e
    | cons x es =>
      unfold Vel.thermal at e
      split at e
      · cases e
      · obtain ⟨l, e1, e⟩ := Res.bind_ok e
        obtain rfl := Res.ok.inj e
        intro v hv
        rcases List.mem_cons.mp hv with rfl | hv
        · rw [he x List.mem_cons_self]
          unfold Vel.thermalScale
          dsimp only
          rw [switch_zero k hl (zero_mul _) rfl]
          show Vel.spread (some (0 * 0.7071067811865475)) r = _
          rw [zero_mul]
          exact spread_zero r
        · exact ih es (fun x hx => he x (List.mem_cons_of_mem _ hx)) e1 v hv

/-- A species of temperature zero stands still. -/
theorem speeds_zero {X : Setup} (h : X.Sane) {i j : Nat} {s : Species} (h0 : s.temperature = 0) {n m : Nat} {vs : List (Option (Vec3 ℝ))}
    (e : Speeds0 X i j s n m vs) : ∀ v ∈ vs, v = some ⟨0, 0, 0⟩ := by
  have pz : Vel.plainScale (X.cst s.id) 0 = some 0 := switch_zero _ h.lim (by ring) rfl
  unfold Speeds0 at e
  rw [h0] at e
  cases hs : X.speedy with
  | thermal =>
    rw [hs] at e
    obtain ⟨es, e1, e2⟩ := e
    refine thermal_zero h.lim es _ (fun x hx => ?_) e2
    unfold Vel.sample at e1
    rw [if_pos (by norm_num)] at e1
    obtain ⟨l, e3, e4⟩ := Res.bind_ok (Option.some.inj e1)
    obtain rfl := Res.ok.inj e4
    obtain ⟨y, hy, rfl⟩ := List.mem_map.mp hx
    rw [classical_zero _ e3 y hy]
  | rectangular =>
    rw [hs] at e
    dsimp only at e
    unfold Vel.rectangular at e
    split at e
    · cases e
    · obtain rfl := Res.ok.inj e
      intro v hv
      obtain ⟨r, _, rfl⟩ := List.mem_map.mp hv
      rw [pz]
      exact spread_zero r
  | eigen =>
    rw [hs] at e
    dsimp only at e
    unfold Vel.eigen at e
    split at e
    · cases e
    · obtain rfl := Res.ok.inj e
      intro v hv
      rw [List.eq_of_mem_replicate hv, pz]
      rfl

/-- The beginning of a run without beams whose species have temperature zero. -/
theorem start_rest {X : Setup} (h : X.Sane) (h0 : ∀ s ∈ X.species, s.temperature = 0) {S : State} (st : Starts X S) : AtRest X.env S where
  fields := fun i j hi hj c c1 c2 x y => solver_zero h (st.solver i j hi hj) c c1 c2 x y
  still := by
    intro i j hi hj sp hsp o ho
    have hid : sp.id ∈ X.species.map Species.id ++ X.beams := by
      rw [← st.lists i j]
      exact List.mem_map_of_mem hsp
    rcases List.mem_append.mp hid with k | k
    · obtain ⟨s, hs, e⟩ := List.mem_map.mp k
      obtain ⟨n, ps, qs, vs, d1, d2, d3, d4, d5, d6⟩ := st.plasma i j hi hj sp hsp s hs e
      have : S.heap o.tag ∈ List.zipWith setVel qs vs := by
        rw [← d6]
        exact List.mem_map_of_mem (f := fun o => S.heap o.tag) ho
      have z : ∀ v ∈ vs, v = ⟨0, 0, 0⟩ := fun v hv => Option.some.inj (speeds_zero h (h0 s hs) d4 _ (List.mem_map_of_mem hv))
      obtain ⟨q, v, hv, e⟩ : ∃ q v, v ∈ vs ∧ S.heap o.tag = setVel q v := by
        clear d1 d2 d4 d5 d6
        induction d3 generalizing vs with
        | nil => simp at this
        | cons _ _ ih =>
          cases vs with
          | nil => simp at this
          | cons v vs =>
            rw [List.zipWith_cons_cons] at this
            rcases List.mem_cons.mp this with e | e
            · exact ⟨_, v, List.mem_cons_self, e⟩
            · obtain ⟨q, w, hw, e⟩ := ih vs e fun v hv => z v (List.mem_cons_of_mem _ hv)
              exact ⟨q, w, List.mem_cons_of_mem _ hw, e⟩
      rw [e, z v hv]
      rfl
    · rw [st.beam i j hi hj sp hsp k] at ho
      simp at ho

/-- C126 from the configuration on: in an undivided chamber the run of a sane configuration whose species all have temperature zero
(any placement, any velocity distribution, any densities and charges, with or without absorbing layers; a configuration with beams as long as
the first bunch has not been injected) never shows anything: no fields, no currents, and all particles where they were placed. -/
theorem C126_cold {X : Setup} (h : X.Sane) (hz : Scheme X.env.dist) (h0 : ∀ s ∈ X.species, s.temperature = 0) (h1 : X.env.domR = 1) (h2 : X.env.domZ = 1)
    {S : State} (st : Starts X S) (n : Nat) :
    ∃ S', (∀ T, Run X.env S n T ↔ T = S') ∧ AtRest X.env S' ∧ Unchanged X.env X.ids S S' := by
  have dr : 0 < X.env.p.dr := h.chamber.good.geo.dr
  have dz : 0 < X.env.p.dz := h.chamber.good.geo.dz
  have A := begun_single h.chamber h1 h2 (C110_start_partial h (fun s hs => cold_zero h (h0 s hs)) st)
  have B : OffBorder X.env S := by
    intro i j hi hj sp hsp o ho
    have p := A.place i j hi hj sp hsp o ho
    obtain rfl : i = 0 := by omega
    obtain rfl : j = 0 := by omega
    rw [low_zero, low_zero, Nat.cast_zero, zero_mul, zero_mul]
    exact ⟨by linarith [p.r1], by linarith [p.z1]⟩
  obtain ⟨S', a, _, b, _, c⟩ := C126_run h.chamber hz h.ids A (start_rest h h0 st) B n
  exact ⟨S', a, b, c⟩

/-! ### Non-vacuity -/

/-- A single charged particle that stands still in the middle of nothing. -/
noncomputable def exLone : Part ℝ := exPart (13/10) (14/10) 0 0 1 1

/-- The hypotheses of `C126_run` in a divided chamber: a charged particle. -/
example : Chamber (exEnv 2 2 1) ∧ Scheme (exEnv 2 2 1).dist ∧ Alive (exEnv 2 2 1) [7] (exState 0 exLone) ∧ AtRest (exEnv 2 2 1) (exState 0 exLone) ∧
    OffBorder (exEnv 2 2 1) (exState 0 exLone) := by
  have h := exEnv_chamber ex_div2 1
  refine ⟨h, .inr rfl, exState_alive ⟨rfl, ?_, ?_, ?_, ?_, ?_, ?_, ?_, ?_⟩ (by rfl), ⟨fun i j _ _ c c1 _ x y => if_neg c1, fun i j _ _ sp hsp o ho => rfl⟩, ?_⟩
  · rw [geom_eq h]
    constructor <;> norm_num [exEnv, exLone, exPart, low, hgt]
  on_goal 8 =>
    intro i j _ _ sp hsp o ho
    obtain ⟨rfl, rfl, _⟩ := ex_listed hsp ho
    norm_num [exEnv, exLone, exPart, exState, low]
  all_goals norm_num [exEnv, exLone, exPart, vel, Vec3.length2, Int.floor_eq_iff]

/-- The hypotheses of `C126_cold`, in all four modes of placement: 100 charged particles of one sign and temperature zero. -/
example (sp : Spatial) : ∃ X : Setup, ∃ S, X.Sane ∧ Scheme X.env.dist ∧ (∀ s ∈ X.species, s.temperature = 0 ∧ X.env.charge s.id = 1 ∧ s.amount = 100) ∧
    X.species ≠ [] ∧ X.env.domR = 1 ∧ X.env.domZ = 1 ∧ Starts X S := by
  have s := exSetup_sane (E := exEnv 1 1 1) (exEnv_chamber ex_div1 1) rfl 100 sp (beams := []) List.nodup_nil (by simp)
  have h : Setup.Sane { exSetup (exEnv 1 1 1) 100 sp [] with species := [⟨7, 100, 1, 2, 0⟩] } :=
    ⟨s.1, s.2, s.3, s.4, s.5, s.6, s.7, s.8, s.9, fun t ht => by obtain rfl := List.mem_singleton.mp ht; norm_num, s.11, s.12, s.13, s.14⟩
  have d : ∀ t ∈ [(⟨7, 100, 1, 2, 0⟩ : Species)], Setup.Drawable { exSetup (exEnv 1 1 1) 100 sp [] with species := [⟨7, 100, 1, 2, 0⟩] } t := by
    intro t ht
    obtain rfl := List.mem_singleton.mp ht
    have := exSetup_drawable (E := exEnv 1 1 1) (a := 100) rfl (by norm_num) (by norm_num [exEnv]) sp [] _ (List.mem_singleton.mpr rfl)
    exact ⟨this.1, this.2.1, this.2.2.1, .inl ⟨by norm_num, fun _ _ _ => by
      show Vel.lnln (Real.exp (-Real.exp 1)) ≠ 2
      rw [Vel.ex_lnln]
      norm_num⟩⟩
  obtain ⟨S, st⟩ := C110_exists h (fun t ht => .inr (cold_zero h (by obtain rfl := List.mem_singleton.mp ht; rfl))) d
  exact ⟨_, S, h, .inr rfl, fun t ht => by obtain rfl := List.mem_singleton.mp ht; exact ⟨rfl, rfl, rfl⟩, by simp, rfl, rfl, st⟩

end Pic
end Pico
