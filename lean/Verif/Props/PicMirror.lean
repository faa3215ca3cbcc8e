import Verif.Props.PicPlane
import Verif.Lemmas.Scale
import Verif.Lemmas.Dump
import Verif.Spec.PicMirror
/-! C141: the mirror image of a simulation is a simulation. -/

set_option linter.unusedSimpArgs false
set_option linter.unusedVariables false
set_option linter.unusedSectionVars false

namespace Pico
namespace Yee

open VB SMB
open Pic (mirrorSign)

/-- The second memory is the first one in the mirror. -/
def Mirrored (m n : Mem ℝ) : Prop := ∀ c x y, n c x y = mirrorSign c * m c x y

theorem rd_mirror {p : Par ℝ} {m n : Mem ℝ} (h : Mirrored m n) (c : Comp) (i k : Int) : ResRel (fun a b => b = mirrorSign c * a) (rd p m c i k) (rd p n c i k) := by
  unfold rd
  split
  · exact h c i k
  · exact trivial

theorem put_mirror {m n : Mem ℝ} (h : Mirrored m n) (c : Comp) (i k : Int) {v w : ℝ} (hv : w = mirrorSign c * v) : Mirrored (put m c i k v) (put n c i k w) := by
  intro c' x y
  unfold put
  split
  · rename_i e; rw [hv, e.1]
  · exact h c' x y

theorem upd_mirror {p : Par ℝ} {m n : Mem ℝ} (h : Mirrored m n) (c : Comp) (i k : Int) {f g : ℝ → ℝ} (hf : ∀ v, g (mirrorSign c * v) = mirrorSign c * f v) :
    ResRel Mirrored (upd p m c i k f) (upd p n c i k g) := by
  unfold upd
  split
  · exact put_mirror h c i k (by rw [h, hf])
  · exact trivial

theorem overlay0_mirror {p : Par ℝ} {m n : Mem ℝ} (h : Mirrored m n) (cs : List Comp) : Mirrored (overlay0 p cs m) (overlay0 p cs n) := by
  intro c x y
  unfold overlay0
  split
  · rw [mul_zero]
  · exact h c x y

theorem relax_mirror {p : Par ℝ} {m n : Mem ℝ} (h : Mirrored m n) (c : Comp) (i k : Int) (ke kh : ℝ) {x y : ℝ} (hx : y = mirrorSign c * x) :
    ResRel Mirrored (relax p m c i k ke kh x) (relax p n c i k ke kh y) := by
  unfold relax
  refine (upd_mirror h c i k fun v => by ring).bind fun m n h => upd_mirror h c i k fun v => by rw [hx]; ring

theorem hWall_mirror (p : Par ℝ) (k : Nat) {m n : Mem ℝ} (h : Mirrored m n) : ResRel Mirrored (hWallBody p k m) (hWallBody p k n) := by
  unfold hWallBody
  dsimp only
  refine (rd_mirror h _ _ _).bind fun a a' ea => (rd_mirror h _ _ _).bind fun b b' eb => (rd_mirror h _ _ _).bind fun d d' ed => ?_
  simp only [mirrorSign] at ea eb ed
  subst ea eb ed
  refine (upd_mirror h _ _ _ fun v => ?_).bind fun m n h => upd_mirror h _ _ _ fun v => ?_
  all_goals simp only [mirrorSign]; ring

theorem hBody_mirror (p : Par ℝ) (q : Nat × Nat) {m n : Mem ℝ} (h : Mirrored m n) : ResRel Mirrored (hBody p q m) (hBody p q n) := by
  unfold hBody
  dsimp only
  refine (rd_mirror h _ _ _).bind fun a a' ea => (rd_mirror h _ _ _).bind fun b b' eb => (rd_mirror h _ _ _).bind fun d d' ed => ?_
  simp only [mirrorSign] at ea eb ed
  subst ea eb ed
  refine (upd_mirror h _ _ _ fun v => ?_).bind fun m n h => ?_
  · simp only [mirrorSign]; ring
  refine (upd_mirror h _ _ _ fun v => ?_).bind fun m n h => ?_
  · simp only [mirrorSign]; ring
  refine (rd_mirror h _ _ _).bind fun a a' ea => (rd_mirror h _ _ _).bind fun b b' eb => (rd_mirror h _ _ _).bind fun d d' ed =>
    (rd_mirror h _ _ _).bind fun f f' ef => (rd_mirror h _ _ _).bind fun g g' eg => ?_
  simp only [mirrorSign] at ea eb ed ef eg
  subst ea eb ed ef eg
  refine (upd_mirror h _ _ _ fun v => ?_).bind fun m n h => ?_
  · simp only [mirrorSign]; ring
  refine (upd_mirror h _ _ _ fun v => ?_).bind fun m n h => ?_
  · simp only [mirrorSign]; ring
  refine (rd_mirror h _ _ _).bind fun a a' ea => (rd_mirror h _ _ _).bind fun b b' eb => (rd_mirror h _ _ _).bind fun d d' ed => ?_
  simp only [mirrorSign] at ea eb ed
  subst ea eb ed
  refine (upd_mirror h _ _ _ fun v => ?_).bind fun m n h => upd_mirror h _ _ _ fun v => ?_
  all_goals simp only [mirrorSign]; ring

theorem calcH_mirror (p : Par ℝ) {m n : Mem ℝ} (h : Mirrored m n) : ResRel Mirrored (calcH p m) (calcH p n) := by
  unfold calcH
  have h := overlay0_mirror (p := p) (overlay0_mirror (p := p) h [.fr, .fp, .fz]) [.hr, .hp, .hz]
  refine ResRel.bind (R := Mirrored) ?_ fun m n h => ResRel.loop' _ (fun q _ m n h => hBody_mirror p q h) h
  split
  · exact ResRel.loop' _ (fun q _ m n h => hWall_mirror p q h) h
  · exact h

theorem ezPart_mirror (p : Par ℝ) (i k : Nat) (eps sig : ℝ) {m n : Mem ℝ} (h : Mirrored m n) : ResRel Mirrored (ezPart p i k eps sig m) (ezPart p i k eps sig n) := by
  unfold ezPart
  dsimp only
  refine (rd_mirror h _ _ _).bind fun a a' ea => (rd_mirror h _ _ _).bind fun b b' eb => (rd_mirror h _ _ _).bind fun d d' ed => ?_
  simp only [mirrorSign] at ea eb ed
  subst ea eb ed
  exact relax_mirror h _ _ _ _ _ (by simp only [mirrorSign]; ring)

theorem eAxis_mirror (p : Par ℝ) (k : Nat) {m n : Mem ℝ} (h : Mirrored m n) : ResRel Mirrored (eAxisBody p k m) (eAxisBody p k n) := by
  unfold eAxisBody
  dsimp only
  refine (rd_mirror h _ _ _).bind fun e e' ee => (rd_mirror h _ _ _).bind fun g g' eg => ?_
  simp only [mirrorSign, one_mul] at ee eg
  subst ee eg
  refine (rd_mirror h _ _ _).bind fun a a' ea => (rd_mirror h _ _ _).bind fun b b' eb => (rd_mirror h _ _ _).bind fun d d' ed => ?_
  simp only [mirrorSign] at ea eb ed
  subst ea eb ed
  refine (relax_mirror h _ _ _ _ _ (by simp only [mirrorSign]; ring)).bind fun m n h => ?_
  refine (rd_mirror h _ _ _).bind fun a a' ea => (rd_mirror h _ _ _).bind fun b b' eb => ?_
  simp only [mirrorSign] at ea eb
  subst ea eb
  exact relax_mirror h _ _ _ _ _ (by simp only [mirrorSign]; ring)

theorem eLeft_mirror (p : Par ℝ) (k : Nat) {m n : Mem ℝ} (h : Mirrored m n) : ResRel Mirrored (eLeftBody p k m) (eLeftBody p k n) := by
  unfold eLeftBody
  refine (rd_mirror h _ _ _).bind fun e e' ee => (rd_mirror h _ _ _).bind fun g g' eg => ?_
  simp only [mirrorSign, one_mul] at ee eg
  subst ee eg
  exact ezPart_mirror p _ _ _ _ h

theorem eBody_mirror (p : Par ℝ) (q : Nat × Nat) {m n : Mem ℝ} (h : Mirrored m n) : ResRel Mirrored (eBody p q m) (eBody p q n) := by
  unfold eBody
  dsimp only
  refine (rd_mirror h _ _ _).bind fun e e' ee => (rd_mirror h _ _ _).bind fun g g' eg => ?_
  simp only [mirrorSign, one_mul] at ee eg
  subst ee eg
  refine (rd_mirror h _ _ _).bind fun a a' ea => (rd_mirror h _ _ _).bind fun b b' eb => (rd_mirror h _ _ _).bind fun d d' ed => ?_
  simp only [mirrorSign] at ea eb ed
  subst ea eb ed
  refine (relax_mirror h _ _ _ _ _ (by simp only [mirrorSign]; ring)).bind fun m n h => ?_
  refine (rd_mirror h _ _ _).bind fun a a' ea => (rd_mirror h _ _ _).bind fun b b' eb => (rd_mirror h _ _ _).bind fun d d' ed =>
    (rd_mirror h _ _ _).bind fun f f' ef => (rd_mirror h _ _ _).bind fun g g' eg => ?_
  simp only [mirrorSign] at ea eb ed ef eg
  subst ea eb ed ef eg
  refine (relax_mirror h _ _ _ _ _ (by simp only [mirrorSign]; ring)).bind fun m n h => ?_
  exact ezPart_mirror p _ _ _ _ h

theorem calcE_mirror (p : Par ℝ) {m n : Mem ℝ} (h : Mirrored m n) : ResRel Mirrored (calcE p m) (calcE p n) := by
  unfold calcE
  have h := overlay0_mirror (p := p) h [.er, .ep, .ez]
  refine ResRel.bind (R := Mirrored) ?_ fun m n h => ResRel.bind (R := Mirrored) ?_ fun m n h => ResRel.loop' _ (fun q _ m n h => eBody_mirror p q h) h
  · split
    · exact ResRel.loop' _ (fun q _ m n h => eAxis_mirror p q h) h
    · exact h
  · split
    · exact ResRel.loop' _ (fun q _ m n h => eLeft_mirror p q h) h
    · exact h

/-- The memories of all domains. -/
def AllMirrored (M N : Solvers ℝ) : Prop := ∀ i j, Mirrored (M i j) (N i j)

theorem overlayComp_mirror (P : Nat → Nat → Par ℝ) (R Z : Nat) (c : Comp) {M N : Solvers ℝ} (H : AllMirrored M N) :
    ResRel AllMirrored (overlayComp P R Z c M) (overlayComp P R Z c N) := by
  unfold overlayComp
  have G : DomsScaled (mirrorSign c) (fun i j => toGrid (P i j) (M i j) c) (fun i j => toGrid (P i j) (N i j) c) := fun i j => ⟨rfl, rfl, rfl, fun a b => H i j c _ _⟩
  refine (pass_scaled R Z G).bind fun D F K => ?_
  intro i j c' x y
  dsimp only
  unfold ofGrid
  split
  · rename_i e
    rw [(K i j).cell, e.1]
  · exact H i j c' x y

theorem each_mirror (R Z : Nat) {f g : Nat → Nat → Mem ℝ → Res (Mem ℝ)} (hf : ∀ i j m n, Mirrored m n → ResRel Mirrored (f i j m) (g i j n)) {M N : Solvers ℝ}
    (H : AllMirrored M N) : ResRel AllMirrored (each R Z f M) (each R Z g N) := by
  unfold each
  refine ResRel.loop' _ (fun q _ M N H => (hf q.1 q.2 _ _ (H q.1 q.2)).bind fun m n K => ?_) H
  intro i j
  dsimp only
  split
  · exact K
  · exact H i j

theorem solveMaxwell_mirror (P : Nat → Nat → Par ℝ) (R Z : Nat) {M N : Solvers ℝ} (H : AllMirrored M N) :
    ResRel AllMirrored (solveMaxwell P R Z M) (solveMaxwell P R Z N) := by
  unfold solveMaxwell
  refine (each_mirror R Z (fun i j m n h => calcE_mirror (P i j) h) H).bind fun M N H => ?_
  refine (ResRel.loop' _ (fun c _ M N H => overlayComp_mirror P R Z c H) H).bind fun M N H => ?_
  refine (each_mirror R Z (fun i j m n h => calcH_mirror (P i j) h) H).bind fun M N H => ?_
  exact ResRel.loop' _ (fun c _ M N H => overlayComp_mirror P R Z c H) H

/-! ### Deposition -/

open VB

/-- The particle in the mirror. -/
def turned (p : VB.Part ℝ) : VB.Part ℝ := { p with vphi := -p.vphi }

/-- The operation in the mirror. -/
noncomputable def opTurned : Op ℝ → Op ℝ
  | .inc c i k v => .inc c i k (mirrorSign c * v)
  | .set c i k v => .set c i k (mirrorSign c * v)

theorem runOps_mirror (g : Geom ℝ) (l : List (Op ℝ)) {m n : Mem ℝ} (h : Mirrored m n) :
    ResRel Mirrored (runOps g l m) (runOps g (l.map opTurned) n) := by
  unfold runOps
  refine ResRel.loop l (fun o ho m n h => ?_) h
  cases o with
  | inc c i k v =>
    show ResRel Mirrored (if insideG g i k then .ok (put m c i k (m c i k + v)) else .ub) (if insideG g i k then .ok (put n c i k (n c i k + mirrorSign c * v)) else .ub)
    split
    · exact put_mirror h c i k (by rw [h, mul_add])
    · exact trivial
  | set c i k v =>
    show ResRel Mirrored (if insideG g i k then .ok (put m c i k v) else .ub) (if insideG g i k then .ok (put n c i k (mirrorSign c * v)) else .ub)
    split
    · exact put_mirror h c i k rfl
    · exact trivial

theorem clear_mirror (g : Geom ℝ) {m n : Mem ℝ} (h : Mirrored m n) : Mirrored (overlayClear g m) (overlayClear g n) := by
  intro c x y
  unfold overlayClear
  split
  · rw [mul_zero]
  · exact h c x y

theorem reset_mirror (g : Geom ℝ) {m n : Mem ℝ} (h : Mirrored m n) : Mirrored (resetCurrent g m) (resetCurrent g n) := by
  intro c x y
  unfold resetCurrent
  split
  · rw [mul_zero]
  · exact h c x y

/-- The second list of operations is the first one in the mirror. -/
structure MirOps (l l' : List (Op ℝ)) : Prop where
  eq : l' = l.map opTurned

theorem MirOps.nil : MirOps [] [] := ⟨rfl⟩

theorem MirOps.append {l l' k k' : List (Op ℝ)} (h : MirOps l l') (h' : MirOps k k') : MirOps (l ++ k) (l' ++ k') :=
  ⟨by rw [h.eq, h'.eq, List.map_append]⟩

theorem MirOps.inc {l l' : List (Op ℝ)} (h : MirOps l l') {c : Comp} (i k : Int) {v w : ℝ} (hv : w = mirrorSign c * v) :
    MirOps (.inc c i k v :: l) (.inc c i k w :: l') :=
  ⟨by rw [h.eq, hv]; rfl⟩

theorem MirOps.set {l l' : List (Op ℝ)} (h : MirOps l l') {c : Comp} (i k : Int) {v w : ℝ} (hv : w = mirrorSign c * v) :
    MirOps (.set c i k v :: l) (.set c i k w :: l') :=
  ⟨by rw [h.eq, hv]; rfl⟩

theorem MirOps.run {l l' : List (Op ℝ)} (h : MirOps l l') (g : Geom ℝ) {m n : Mem ℝ} (H : Mirrored m n) : ResRel Mirrored (runOps g l m) (runOps g l' n) := by
  rw [h.eq]
  exact runOps_mirror g l H

theorem zz_mir (x : Ctx ℝ) (p : VB.Part ℝ) (a b c d e : Int) : MirOps (ZigZag.cellOps x p a b c d e) (ZigZag.cellOps x (turned p) a b c d e) := by
  unfold ZigZag.cellOps turned
  dsimp only
  repeat' refine MirOps.inc ?_ _ _ ?_
  · exact MirOps.nil
  all_goals simp only [mirrorSign]; ring

theorem zigzag_mirror (x : Ctx ℝ) (ps : List (VB.Part ℝ)) {m n : Mem ℝ} (h : Mirrored m n) :
    ResRel Mirrored (ZigZag.currentDistribution x ps m) (ZigZag.currentDistribution x (ps.map turned) n) := by
  unfold ZigZag.currentDistribution
  refine ResRel.loop ps (fun p _ m n h => ?_) (clear_mirror x.g h)
  unfold ZigZag.particle ZigZag.particleOps
  refine ResRel.bind (R := MirOps) ?_ fun l l' H => H.run x.g h
  refine ResRel.rfl'.bind fun iN _ e => ResRel.rfl'.bind fun iO _ e1 => ResRel.rfl'.bind fun kN _ e2 => ResRel.rfl'.bind fun kO _ e3 => ResRel.rfl'.bind fun iM _ e4 => ?_
  subst e e1 e2 e3 e4
  exact zz_mir x p _ _ _ _ _

/-- What leaves the azimuthal current alone is its own mirror image. -/
theorem Fine.mir {l : List (Op ℝ)} (h : Fine l) : MirOps l l := by
  refine ⟨?_⟩
  have : ∀ o ∈ l, opTurned o = o := by
    intro o ho
    have f := h o ho
    have k : ∀ c (v : ℝ), (swirl c = true → v = 0) → mirrorSign c * v = v := by
      intro c v hv
      cases c
      all_goals first | (rw [hv rfl, mul_zero]) | exact one_mul v
    cases o with
    | inc c i k' v => exact congrArg _ (k c v f)
    | set c i k' v => exact congrArg _ (k c v f)
  rw [List.map_congr_left this, List.map_id']

theorem vb_mirror (x : Ctx ℝ) (ps : List (VB.Part ℝ)) {m n : Mem ℝ} (h : Mirrored m n) :
    ResRel Mirrored (VB.currentDistribution x ps m) (VB.currentDistribution x (ps.map turned) n) := by
  unfold VB.currentDistribution
  refine ResRel.bind (R := Mirrored) ?_ fun m n h => ?_
  · unfold azimuthal
    refine ResRel.loop ps (fun p _ m n h => ?_) (clear_mirror x.g h)
    refine MirOps.run ?_ x.g h
    unfold azimuthalOps turned
    dsimp only
    repeat' refine MirOps.inc ?_ _ _ ?_
    · exact MirOps.nil
    all_goals simp only [mirrorSign]; ring
  · unfold rz
    refine ResRel.loop ps (fun p _ m n h => ?_) (clear_mirror x.g h)
    unfold rzParticle
    refine ResRel.bind (R := MirOps) ?_ fun l l' H => H.run x.g h
    have f := rz_fine x p
    have e : rzOps x (turned p) = rzOps x p := rfl
    rw [e]
    cases k : rzOps x p with
    | ok l => exact (f l k).mir
    | fatal => exact trivial
    | ub => exact trivial

theorem solveCurrent_mirror {dist : Ctx ℝ → List (VB.Part ℝ) → Mem ℝ → Res (Mem ℝ)} (hd : dist = VB.currentDistribution ∨ dist = ZigZag.currentDistribution)
    (p : Par ℝ) (R Z : Nat) (e : Consts ℝ) {ps qs : Nat → Nat → List (VB.Part ℝ)} (hq : ∀ i j, qs i j = (ps i j).map turned) {M N : Solvers ℝ} (H : AllMirrored M N) :
    ResRel (AllMirrored) (solveCurrent dist p R Z e ps M) (solveCurrent dist p R Z e qs N) := by
  unfold solveCurrent
  refine (each_mirror R Z (fun i j m n h => ?_) H).bind fun M N H => ResRel.loop' _ (fun c _ M N H => overlayComp_mirror _ R Z c H) H
  rw [hq]
  rcases hd with rfl | rfl
  · exact vb_mirror _ _ (reset_mirror _ h)
  · exact zigzag_mirror _ _ (reset_mirror _ h)

/-! ### Interpolation and push -/

theorem four_mirror (pi : ℝ) (g : Geom ℝ) {m n : Mem ℝ} (h : Mirrored m n) (c : Comp) (i k : Int) (r1 r2 r3 d1 d2 v1 v2 : ℝ) :
    ResRel (fun a b => Interp.sum4 b = mirrorSign c * Interp.sum4 a) (Interp.four pi g m c i k r1 r2 r3 d1 d2 v1 v2) (Interp.four pi g n c i k r1 r2 r3 d1 d2 v1 v2) := by
  have rd : ∀ i k, ResRel (fun a b => b = mirrorSign c * a) (Interp.rdG g m c i k) (Interp.rdG g n c i k) := by
    intro i k
    unfold Interp.rdG
    split
    · exact h c i k
    · exact trivial
  have qt : ∀ a v w : ℝ, ResRel (fun a b => b = mirrorSign c * a) (Interp.quot (a * v) w) (Interp.quot (mirrorSign c * a * v) w) := by
    intro a v w
    unfold Interp.quot
    split
    · exact trivial
    · show mirrorSign c * a * v / w = mirrorSign c * (a * v / w)
      ring
  unfold Interp.four
  dsimp only
  refine (rd _ _).bind fun a _ e => ?_
  subst e
  refine (qt _ _ _).bind fun a' _ e => ?_
  subst e
  refine (rd _ _).bind fun b _ e => ?_
  subst e
  refine (qt _ _ _).bind fun b' _ e => ?_
  subst e
  refine (rd _ _).bind fun d _ e => ?_
  subst e
  refine (qt _ _ _).bind fun d' _ e => ?_
  subst e
  refine (rd _ _).bind fun f _ e => ?_
  subst e
  refine (qt _ _ _).bind fun f' _ e => ?_
  subst e
  show Interp.sum4 _ = _
  unfold Interp.sum4
  dsimp only
  ring

/-- A vector and an axial vector in the mirror. -/
def pol (v : Vec3 ℝ) : Vec3 ℝ := ⟨v.x, -v.y, v.z⟩
def axi (v : Vec3 ℝ) : Vec3 ℝ := ⟨-v.x, v.y, -v.z⟩

theorem field_mirror (pi : ℝ) (g : Geom ℝ) {m n : Mem ℝ} (h : Mirrored m n) (h0 : ∀ x y, m .ep x y = 0) (r z : ℝ) :
    ResRel (fun a b => b = pol a) (Interp.getE pi g m r z) (Interp.getE pi g n r z) ∧
    ResRel (fun a b => b = axi a) (Interp.getH pi g m r z) (Interp.getH pi g n r z) := by
  have hw : ∀ c, ResRel (fun a b => Interp.sum4 b = mirrorSign c * Interp.sum4 a) (Interp.halfWhole pi g m c r z) (Interp.halfWhole pi g n c r z) := by
    intro c
    unfold Interp.halfWhole
    refine ResRel.rfl'.bind fun i _ e => ResRel.rfl'.bind fun k _ e1 => ?_
    subst e e1
    exact four_mirror pi g h c _ _ _ _ _ _ _ _ _
  have wh : ∀ c, ResRel (fun a b => Interp.sum4 b = mirrorSign c * Interp.sum4 a) (Interp.wholeHalf pi g m c r z) (Interp.wholeHalf pi g n c r z) := by
    intro c
    unfold Interp.wholeHalf
    refine ResRel.rfl'.bind fun i _ e => ResRel.rfl'.bind fun k _ e1 => ?_
    subst e e1
    exact four_mirror pi g h c _ _ _ _ _ _ _ _ _
  have hh : ∀ c, ResRel (fun a b => Interp.sum4 b = mirrorSign c * Interp.sum4 a) (Interp.halfHalf pi g m c r z) (Interp.halfHalf pi g n c r z) := by
    intro c
    unfold Interp.halfHalf
    refine ResRel.rfl'.bind fun i _ e => ResRel.rfl'.bind fun k _ e1 => ?_
    subst e e1
    exact four_mirror pi g h c _ _ _ _ _ _ _ _ _
  have ww : ResRel (fun a b => a = (0, 0, 0, 0) ∧ b = (0, 0, 0, 0)) (Interp.wholeWhole pi g m .ep r z) (Interp.wholeWhole pi g n .ep r z) := by
    have n0 : ∀ x y, n .ep x y = 0 := fun x y => by rw [h, h0, mul_zero]
    have rd : ∀ i k, ResRel (fun a b => a = 0 ∧ b = 0) (Interp.rdG g m .ep i k) (Interp.rdG g n .ep i k) := by
      intro i k
      unfold Interp.rdG
      split
      · exact ⟨h0 i k, n0 i k⟩
      · exact trivial
    have qt : ∀ v w : ℝ, ResRel (fun a b => a = 0 ∧ b = 0) (Interp.quot (0 * v) w) (Interp.quot (0 * v) w) := by
      intro v w
      unfold Interp.quot
      split
      · exact trivial
      · exact ⟨by rw [zero_mul, zero_div], by rw [zero_mul, zero_div]⟩
    unfold Interp.wholeWhole
    refine ResRel.rfl'.bind fun i _ e => ResRel.rfl'.bind fun k _ e1 => ?_
    subst e e1
    unfold Interp.four
    dsimp only
    refine (rd _ _).bind fun a a' e => ?_
    obtain ⟨rfl, rfl⟩ := e
    refine (qt _ _).bind fun a a' e1 => (rd _ _).bind fun b b' e => ?_
    obtain ⟨rfl, rfl⟩ := e
    refine (qt _ _).bind fun b b' e2 => (rd _ _).bind fun d d' e => ?_
    obtain ⟨rfl, rfl⟩ := e
    refine (qt _ _).bind fun d d' e3 => (rd _ _).bind fun f f' e => ?_
    obtain ⟨rfl, rfl⟩ := e
    refine (qt _ _).bind fun f f' e4 => ?_
    obtain ⟨rfl, rfl⟩ := e1
    obtain ⟨rfl, rfl⟩ := e2
    obtain ⟨rfl, rfl⟩ := e3
    obtain ⟨rfl, rfl⟩ := e4
    exact ⟨rfl, rfl⟩
  constructor
  · unfold Interp.getE
    refine (hw _).bind fun a a' e => (wh _).bind fun b b' e1 => ww.bind fun d d' e2 => ?_
    simp only [mirrorSign, one_mul] at e e1
    obtain ⟨rfl, rfl⟩ := e2
    show _ = _
    unfold pol
    dsimp only
    rw [e, e1]
    norm_num
  · unfold Interp.getH
    refine (hw _).bind fun a a' e => (wh _).bind fun b b' e1 => (hh _).bind fun d d' e2 => ?_
    simp only [mirrorSign, one_mul, neg_one_mul] at e e1 e2
    show _ = _
    unfold axi
    dsimp only
    rw [e, e1, e2]

theorem len_pol (v : Vec3 ℝ) : (pol v).length2 = v.length2 := by unfold pol Vec3.length2; ring
theorem len_axi (v : Vec3 ℝ) : (axi v).length2 = v.length2 := by unfold axi Vec3.length2; ring
theorem smul_pol (v : Vec3 ℝ) (k : ℝ) : (pol v).smul k = pol (v.smul k) := by unfold pol Vec3.smul; dsimp only; rw [neg_mul]
theorem smul_axi (v : Vec3 ℝ) (k : ℝ) : (axi v).smul k = axi (v.smul k) := by unfold axi Vec3.smul; dsimp only; rw [neg_mul, neg_mul]
theorem add_pol (v w : Vec3 ℝ) : (pol v).add (pol w) = pol (v.add w) := by unfold pol Vec3.add Vec3.zip; dsimp only; congr 1; ring
theorem dot_mirror (v w : Vec3 ℝ) : (pol v).dot (axi w) = -(v.dot w) := by unfold pol axi Vec3.dot; dsimp only; ring

theorem rotate_mirror (b v : Vec3 ℝ) : Pusher.rotate (axi b) (pol v) = pol (Pusher.rotate b v) := by
  unfold Pusher.rotate
  rw [len_axi]
  unfold axi pol
  dsimp only
  congr 1 <;> ring

theorem borisClassic_mirror (P : Pusher.Par) (e b v : Vec3 ℝ) : Pusher.borisClassic P (pol e) (axi b) (pol v) = pol (Pusher.borisClassic P e b v) := by
  unfold Pusher.borisClassic
  dsimp only
  rw [smul_pol, smul_axi, add_pol, rotate_mirror, add_pol]

theorem borisRel_mirror (P : Pusher.Par) (e b v : Vec3 ℝ) : ResRel (fun u w => w = pol u) (Pusher.borisRel P e b v) (Pusher.borisRel P (pol e) (axi b) (pol v)) := by
  unfold Pusher.borisRel
  dsimp only
  rw [len_pol]
  refine ResRel.rfl'.bind fun g _ k => ?_
  subst k
  show _ = _
  simp only [smul_pol, smul_axi, add_pol, len_pol, rotate_mirror]

/-- The second half of the pusher of Vay. -/
noncomputable def vayEnd (P : Pusher.Par) (up b : Vec3 ℝ) : Res (Vec3 ℝ) :=
  Pusher.invGammaNew (1 + up.length2 - b.length2) (b.length2 + up.dot b ^ 2) >>= fun alpha =>
  let b := b.smul alpha
  let s := 1 / (1 + b.length2)
  let alpha := up.dot b
  let p : Vec3 ℝ := ⟨s * (up.x + alpha * b.x + b.z * up.y - b.y * up.z),
    s * (up.y + alpha * b.y + b.x * up.z - b.z * up.x),
    s * (up.z + alpha * b.z + b.y * up.x - b.x * up.y)⟩
  .ok (p.smul (Rel.lorenzFactorInv P.c p.length2))

theorem vay_mirror (P : Pusher.Par) (e b v : Vec3 ℝ) : ResRel (fun u w => w = pol u) (Pusher.vay P e b v) (Pusher.vay P (pol e) (axi b) (pol v)) := by
  have mk : ∀ (g : ℝ) (u up b : Vec3 ℝ), (⟨(pol up).x + g * ((pol u).y * (axi b).z - (pol u).z * (axi b).y), (pol up).y + g * ((pol u).z * (axi b).x - (pol u).x * (axi b).z),
      (pol up).z + g * ((pol u).x * (axi b).y - (pol u).y * (axi b).x)⟩ : Vec3 ℝ) =
      pol ⟨up.x + g * (u.y * b.z - u.z * b.y), up.y + g * (u.z * b.x - u.x * b.z), up.z + g * (u.x * b.y - u.y * b.x)⟩ := by
    intro g u up b
    unfold pol axi
    dsimp only
    congr 1 <;> ring
  have mp : ∀ (s a : ℝ) (up b : Vec3 ℝ), (⟨s * ((pol up).x + (-a) * (axi b).x + (axi b).z * (pol up).y - (axi b).y * (pol up).z),
      s * ((pol up).y + (-a) * (axi b).y + (axi b).x * (pol up).z - (axi b).z * (pol up).x),
      s * ((pol up).z + (-a) * (axi b).z + (axi b).y * (pol up).x - (axi b).x * (pol up).y)⟩ : Vec3 ℝ) =
      pol ⟨s * (up.x + a * b.x + b.z * up.y - b.y * up.z), s * (up.y + a * b.y + b.x * up.z - b.z * up.x), s * (up.z + a * b.z + b.y * up.x - b.x * up.y)⟩ := by
    intro s a up b
    unfold pol axi
    dsimp only
    congr 1 <;> ring
  have key : ∀ up b : Vec3 ℝ, ResRel (fun u w => w = pol u) (vayEnd P up b) (vayEnd P (pol up) (axi b)) := by
    intro up b
    unfold vayEnd
    dsimp only
    rw [len_pol, len_axi, dot_mirror, neg_sq]
    refine ResRel.rfl'.bind fun a _ k => ?_
    subst k
    show _ = _
    rw [smul_axi, len_axi, dot_mirror, mp, len_pol, smul_pol]
  show ResRel _ (Rel.lorenzFactor P.c v.length2 >>= fun gamma => vayEnd P ⟨((v.smul gamma).add (e.smul (2 * P.k))).x + _ * (_ - _), _, _⟩ (b.smul (P.k * P.mu)))
    (Rel.lorenzFactor P.c (pol v).length2 >>= fun gamma => vayEnd P ⟨(((pol v).smul gamma).add ((pol e).smul (2 * P.k))).x + _ * (_ - _), _, _⟩ ((axi b).smul (P.k * P.mu)))
  rw [len_pol]
  refine ResRel.rfl'.bind fun g _ k => ?_
  subst k
  rw [smul_pol, smul_pol, smul_axi, add_pol, len_pol, mk]
  exact key _ _

theorem pushV_mirror {kind : Pusher.Kind} (hk : kind ≠ .hc) (P : Pusher.Par) (junk : Bool) (e b v : Vec3 ℝ) :
    ResRel (fun u w => w = pol u) (Pusher.pushV kind P junk e b v) (Pusher.pushV kind P junk (pol e) (axi b) (pol v)) := by
  cases kind with
  | boris => exact borisClassic_mirror P e b v
  | borisRelativistic => exact borisRel_mirror P e b v
  | borisAdaptive =>
    show ResRel _ (Pusher.borisAdaptive P junk e b v) (Pusher.borisAdaptive P junk (pol e) (axi b) (pol v))
    unfold Pusher.borisAdaptive
    dsimp only
    have s : (pol v).x ^ 2 + (pol v).y ^ 2 + (pol v).z ^ 2 = v.x ^ 2 + v.y ^ 2 + v.z ^ 2 := by unfold pol; ring
    rw [s]
    split_ifs
    all_goals first
      | exact borisRel_mirror P e b v
      | exact borisClassic_mirror P e b v
  | vay => exact vay_mirror P e b v
  | hc => exact absurd rfl hk

theorem push_mirror {kind : Pusher.Kind} (hk : kind ≠ .hc) (P : Pusher.Par) (junk : Bool) (pi : ℝ) (g : Geom ℝ) {m n : Mem ℝ} (h : Mirrored m n) (h0 : ∀ x y, m .ep x y = 0) (r z : ℝ) (v : Vec3 ℝ) :
    ResRel (fun u w => w = pol u) (Pusher.push kind P junk pi g m r z v) (Pusher.push kind P junk pi g n r z (pol v)) := by
  unfold Pusher.push
  obtain ⟨h1, h2⟩ := field_mirror pi g h h0 r z
  refine h1.bind fun e _ e1 => h2.bind fun b _ e2 => ?_
  subst e1 e2
  exact pushV_mirror hk P junk e b v

end Yee

namespace Pic

open SMB Yee

theorem mirror_mirror (a : Part ℝ) : mirrorPart (mirrorPart a) = a := by
  unfold mirrorPart
  simp only [neg_neg]

theorem sign_sq (c : Yee.Comp) : mirrorSign c * mirrorSign c = 1 := by cases c <;> norm_num [mirrorSign]

theorem mirrored_mirrored (S : State) : S.mirrored.mirrored = S := by
  unfold State.mirrored
  simp only [mirror_mirror, ← mul_assoc, sign_sq, one_mul]

theorem advance_mirror {dt : ℝ} {g : Geom ℝ} {w : Part.Walls} {p q : Part ℝ} (h : Part.Advance dt g w p q) : Part.Advance dt g w (mirrorPart p) (mirrorPart q) := by
  obtain ⟨x, y, h1, h2, h3⟩ := h
  have key : (-p.posPhi + -p.velPhi * dt) * (-p.posPhi + -p.velPhi * dt) = (p.posPhi + p.velPhi * dt) * (p.posPhi + p.velPhi * dt) := by ring
  refine ⟨mirrorPart x, mirrorPart y, ?_, ?_, ?_⟩
  · unfold Part.backPos at h1 ⊢
    dsimp only [Part.move, Part.dumpOld, mirrorPart] at h1 ⊢
    rw [key]
    split at h1
    · exact nomatch h1
    · rename_i k
      rw [if_neg k, ← Res.ok.inj h1]
      dsimp only
      rw [show -p.posPhi + -p.velPhi * dt = -(p.posPhi + p.velPhi * dt) by ring, neg_div, neg_zero]
  · obtain ⟨s, h2, rfl⟩ := h2
    exact ⟨s, h2, rfl⟩
  · have b : Part.backVel (mirrorPart y) = mirrorPart (Part.backVel y) := by
      unfold Part.backVel mirrorPart
      dsimp only
      rw [neg_mul_neg, neg_mul_neg]
      congr 1
      ring
    rw [b]
    unfold Part.bindCell at h3 ⊢
    obtain ⟨r, e1, h3⟩ := Res.bind_ok h3
    obtain ⟨z, e2, h3⟩ := Res.bind_ok h3
    rw [← Res.ok.inj h3]
    show Part.bindCell g (mirrorPart (Part.backVel y)) = _
    unfold Part.bindCell
    have e1' : cellNumber (mirrorPart (Part.backVel y)).posR g.dr = .ok r := e1
    have e2' : cellNumber (mirrorPart (Part.backVel y)).posZ g.dz = .ok z := e2
    rw [e1', e2']
    rfl

theorem step_mirrored {E : Env} (hk : NotHC E.kind) (hz : Scheme E.dist) {S T : State} (c : Calm E S) (h : Step E S T) : Step E S.mirrored T.mirrored := by
  obtain ⟨M1, h1, h2, h3, h4, h5⟩ := h
  obtain ⟨N1, e1, H1⟩ := (solveMaxwell_mirror (domPar E.p E.domR E.domZ) E.domR E.domZ (M := S.M) (N := S.mirrored.M) fun i j c x y => rfl).of_ok h1
  refine ⟨N1, e1, ?_, ?_, h4, ?_⟩
  · intro i j hi hj sp hsp o ho
    obtain ⟨junk, v, hv, hA⟩ := h2 i j hi hj sp hsp o ho
    obtain ⟨w, hw, rfl⟩ := (push_mirror hk (E.pushPar sp.id) junk E.e.pi (E.geom i j) (H1 i j) (c M1 h1 i j hi hj) (S.heap o.tag).posR (S.heap o.tag).posZ (vel (S.heap o.tag))).of_ok hv
    exact ⟨junk, pol v, hw, advance_mirror hA⟩
  · intro t ht
    show mirrorPart (T.heap t) = mirrorPart (S.heap t)
    rw [h3 t ht]
  · have hq : ∀ i j, depositsOf E T.mirrored.heap T.D i j = (depositsOf E T.heap T.D i j).map turned := by
      intro i j
      unfold depositsOf
      rw [List.map_flatMap]
      congr 1
      funext sp
      rw [List.map_map]
      rfl
    obtain ⟨N2, e2, H2⟩ := (solveCurrent_mirror hz E.p E.domR E.domZ E.e hq H1).of_ok h5
    have : N2 = T.mirrored.M := by
      funext i j c x y
      exact H2 i j c x y
    rw [this] at e2
    exact e2

theorem mirror_fields (P : Nat → Nat → Par ℝ) (R Z : Nat) (M N : Solvers ℝ) (h : solveMaxwell P R Z M = .ok N) :
    solveMaxwell P R Z (mirrorFields M) = .ok (mirrorFields N) := by
  obtain ⟨N1, e1, H1⟩ := (solveMaxwell_mirror P R Z (M := M) (N := mirrorFields M) fun i j c x y => rfl).of_ok h
  rw [e1]
  congr 1
  funext i j c x y
  exact H1 i j c x y

theorem fields_twice (M : Solvers ℝ) : mirrorFields (mirrorFields M) = M := by
  unfold mirrorFields
  simp only [← mul_assoc, sign_sq, one_mul]

theorem calm_mirrored {E : Env} {S : State} (c : Calm E S) : Calm E S.mirrored := by
  intro N hN i j hi hj x y
  have := mirror_fields _ _ _ _ _ hN
  rw [show mirrorFields S.mirrored.M = S.M from fields_twice S.M] at this
  have := c _ this i j hi hj x y
  unfold mirrorFields at this
  simpa [mirrorSign] using this

/-- **C141** for the fields alone, without any condition: fields and currents in the mirror have the mirror image as their future; one
computation fails exactly when the other one does. -/
theorem C141_fields (P : Nat → Nat → Par ℝ) (R Z : Nat) (M N : Solvers ℝ) :
    solveMaxwell P R Z (mirrorFields M) = .ok N ↔ ∃ M', solveMaxwell P R Z M = .ok M' ∧ N = mirrorFields M' := by
  constructor
  · intro h
    have := mirror_fields _ _ _ _ _ h
    rw [fields_twice] at this
    exact ⟨_, this, (fields_twice N).symm⟩
  · rintro ⟨M', h, rfl⟩
    exact mirror_fields _ _ _ _ _ h

/-- **C141** for a particle's push in given fields, with the pushers of Boris and of Vay: the mirror image of the velocity in the mirror
images of the fields becomes the mirror image. -/
theorem C141_push_partial {kind : Pusher.Kind} (hk : NotHC kind) (P : Pusher.Par) (junk : Bool) (e b v w : Vec3 ℝ) :
    Pusher.pushV kind P junk e b v = .ok w → Pusher.pushV kind P junk ⟨e.x, -e.y, e.z⟩ ⟨-b.x, b.y, -b.z⟩ ⟨v.x, -v.y, v.z⟩ = .ok ⟨w.x, -w.y, w.z⟩ := by
  intro h
  obtain ⟨u, h1, rfl⟩ := (pushV_mirror hk P junk e b v).of_ok h
  exact h1

/-- **C141**, one step, as long as particles feel no azimuthal electric field: in the mirror happens the mirror image of what happens, and
nothing else; in particular one step fails exactly when the other one does.  Any division of the chamber, both ways of distributing the
currents, the pushers of Boris and of Vay. -/
theorem C141_step_partial {E : Env} (hk : NotHC E.kind) (hz : Scheme E.dist) {S : State} (c : Calm E S) (U : State) :
    Step E S.mirrored U ↔ ∃ T, Step E S T ∧ U = T.mirrored := by
  constructor
  · intro h
    have := step_mirrored hk hz (calm_mirrored c) h
    rw [mirrored_mirrored] at this
    exact ⟨_, this, (mirrored_mirrored U).symm⟩
  · rintro ⟨T, h, rfl⟩
    exact step_mirrored hk hz c h

/-- **C141**, whole runs, as long as particles feel no azimuthal electric field. -/
theorem C141_run_partial {E : Env} (hk : NotHC E.kind) (hz : Scheme E.dist) (s : Nat → State) (n : Nat) (c : ∀ k < n, Calm E (s k)) :
    (∀ k < n, Step E (s k).mirrored (s (k + 1)).mirrored) ↔ ∀ k < n, Step E (s k) (s (k + 1)) := by
  refine forall_congr' fun k => forall_congr' fun hn => ?_
  rw [C141_step_partial hk hz (c k hn)]
  constructor
  · rintro ⟨T, h, e⟩
    have := congrArg State.mirrored e
    rw [mirrored_mirrored, mirrored_mirrored] at this
    rwa [this]
  · exact fun h => ⟨_, h, rfl⟩

/-- **C141** at the start: the first step from every configuration, whatever its particles do, has its mirror image. -/
theorem C141_start_partial {X : Setup} (h : X.Sane) (hk : NotHC X.env.kind) (hz : Scheme X.env.dist) {S : State} (st : Starts X S) (U : State) :
    Step X.env S.mirrored U ↔ ∃ T, Step X.env S T ∧ U = T.mirrored := by
  refine C141_step_partial hk hz (fun M1 h1 i j hi hj x y => ?_) U
  have N : NoSwirls X.env.domR X.env.domZ S.M := fun i j hi hj c hc x y => solver_zero h (st.solver i j hi hj) c (by rintro rfl; cases hc) (by rintro rfl; cases hc) x y
  exact solveMaxwell0 _ _ _ N M1 h1 i j hi hj .ep rfl x y

/-- **C141** fails as soon as there is an azimuthal electric field: a charged particle at rest anywhere inside a domain, off the borders
between cells, in an azimuthal electric field and nothing else is driven along the axis, and in the mirror it is driven the other way. -/
theorem C141_mixed_fails {pi : ℝ} (hpi : 0 < pi) {g : Geom ℝ} (G : g.Good) {r z : ℝ} (hc : g.Contains r z) (hr : g.dr / 2 ≤ r)
    (hnr : r ≠ (⌊r / g.dr⌋ : ℝ) * g.dr) (hnz : z ≠ (⌊z / g.dz⌋ : ℝ) * g.dz) (P : Pusher.Par) (hk : P.k ≠ 0) (junk : Bool) {m : Mem ℝ}
    (hm : ∀ c, c ≠ .ep → ∀ a b, m c a b = 0) (he : m .ep (⌊r / g.dr⌋ - g.r0 + 1) (⌊z / g.dz⌋ - g.z0 + 1) ≠ 0) :
    ∃ v w : Vec3 ℝ, Pusher.push .boris P junk pi g m r z ⟨0, 0, 0⟩ = .ok v ∧
      Pusher.push .boris P junk pi g (fun c a b => mirrorSign c * m c a b) r z ⟨0, 0, 0⟩ = .ok w ∧ v.z ≠ 0 ∧ w.z = -v.z := by
  have rest : ∀ n : Mem ℝ, (∀ c, c ≠ .ep → ∀ a b, n c a b = 0) → ∃ e, Interp.getE pi g n r z = .ok e ∧
      Pusher.push .boris P junk pi g n r z ⟨0, 0, 0⟩ = .ok ((e.smul P.k).add (e.smul P.k)) := by
    intro n hn
    have e1 := Interp.C23_electric_partial hpi G hc hr n
    have e2 := Interp.C23_magnetic hpi G hc hr n
    have z0 : ∀ {c : Yee.Comp} (α β : ℝ), c ≠ .ep → Interp.seen g α β (n c) r z = 0 := by
      intro c α β hc
      rw [show n c = fun _ _ => 0 by funext a b; exact hn c hc a b]
      simp [Interp.seen]
    refine ⟨_, e1, ?_⟩
    unfold Pusher.push
    rw [e1, Res.ok_bind, e2, Res.ok_bind, z0 (c := .fr) _ _ (by decide), z0 (c := .fp) _ _ (by decide), z0 (c := .fz) _ _ (by decide)]
    show Res.ok (Pusher.borisClassic _ _ _ _) = _
    unfold Pusher.borisClassic
    dsimp only
    rw [show (Vec3.smul ⟨0, 0, 0⟩ (P.k * P.mu) : Vec3 ℝ) = Vec3.zero by unfold Vec3.smul Vec3.zero; simp, Pusher.rotate_zero]
    congr 2
    unfold Vec3.add Vec3.zip
    simp
  obtain ⟨e, h1, h2⟩ := rest m hm
  obtain ⟨f, h3, h4⟩ := rest (fun c a b => mirrorSign c * m c a b) fun c hc a b => by rw [hm c hc, mul_zero]
  obtain ⟨v, k1, k2⟩ := Interp.C23_components_mix hpi G hc hr hnr hnz m (hm .ez (by decide)) he
  obtain rfl := Res.ok.inj (h1.symm.trans k1)
  have e1 := Interp.C23_electric_partial hpi G hc hr m
  have e2 := Interp.C23_electric_partial hpi G hc hr (fun c a b => mirrorSign c * m c a b)
  have x1 := Res.ok.inj (h1.symm.trans e1)
  have x2 := Res.ok.inj (h3.symm.trans e2)
  have zz : f.z = -e.z := by
    rw [x1, x2]
    dsimp only
    rw [show (fun a b => mirrorSign .ez * m .ez a b) = fun _ _ => 0 by funext a b; rw [hm .ez (by decide), mul_zero],
      show m .ez = fun _ _ => 0 by funext a b; exact hm .ez (by decide) a b]
    simp only [mirrorSign]
    simp [Interp.seen]
  refine ⟨_, _, h2, h4, ?_, ?_⟩
  · show e.z * P.k + e.z * P.k ≠ 0
    rw [← two_mul]
    exact mul_ne_zero two_ne_zero (mul_ne_zero k2 hk)
  · show f.z * P.k + f.z * P.k = -(e.z * P.k + e.z * P.k)
    rw [zz]
    ring

/-- **C141** fails for the pusher of Higuera and Cary: a wrong component of the magnetic field in its rotation pushes particles that fly
along an axial magnetic field away from it, in one direction, and in the mirror, where the field is reversed and the particle is the same, in
the other one: inwards instead of outwards. -/
theorem C141_hc_fails (P : Pusher.Par) (hc : 0 < P.c) (hk : P.k * P.mu ≠ 0) (junk : Bool) {h x : ℝ} (hh : h ≠ 0) (hx : x ≠ 0) (hlt : x * x < P.c ^ 2) :
    ∃ u w : Vec3 ℝ, Pusher.pushV .hc P junk ⟨0, 0, 0⟩ ⟨0, 0, h⟩ ⟨0, 0, x⟩ = .ok u ∧ Pusher.pushV .hc P junk ⟨0, 0, 0⟩ ⟨0, 0, -h⟩ ⟨0, 0, x⟩ = .ok w ∧
      u.x * w.x < 0 := by
  have hv : (⟨0, 0, x⟩ : Vec3 ℝ).length2 < P.c ^ 2 := by unfold Vec3.length2; dsimp only; linarith
  have one : ∀ f : ℝ, ∃ (u : Vec3 ℝ) (t : ℝ), 0 < t ∧ Pusher.pushV .hc P junk ⟨0, 0, 0⟩ ⟨0, 0, f⟩ ⟨0, 0, x⟩ = .ok u ∧ u.x = -(t * (f * (P.k * P.mu) * x)) := by
    intro f
    obtain ⟨γ, a, _, hg, _, ha, E⟩ := Pusher.hc_eq P hc ⟨0, 0, 0⟩ ⟨0, 0, f⟩ ⟨0, 0, x⟩ hv
    dsimp only at E
    generalize hL : Rel.lorenzFactorInv P.c _ = L at E
    have L0 : 0 < L := by
      rw [← hL]
      unfold Rel.lorenzFactorInv
      have : 0 ≤ (Vec3.add (Vec3.smul ⟨0, 0, 0⟩ P.k) (Pusher.hcRotate ((Vec3.smul ⟨0, 0, f⟩ (P.k * P.mu)).smul a) ((Vec3.smul ⟨0, 0, x⟩ γ).add (Vec3.smul ⟨0, 0, 0⟩ P.k))) : Vec3 ℝ).length2 :=
        Rel.len2_nonneg _
      positivity
    refine ⟨_, 2 * a * γ * L, by positivity, E, ?_⟩
    unfold Pusher.hcRotate Vec3.mulV Vec3.add Vec3.zip Vec3.smul
    dsimp only
    simp
    ring
  obtain ⟨u, t, ht, e1, u1⟩ := one h
  obtain ⟨w, t', ht', e2, w1⟩ := one (-h)
  refine ⟨u, w, e1, e2, ?_⟩
  rw [u1, w1]
  have : 0 < (h * (P.k * P.mu) * x) ^ 2 := by
    have := mul_ne_zero (mul_ne_zero hh hk) hx
    positivity
  nlinarith [mul_pos (mul_pos ht ht') this]

/-! ### Non-vacuity -/

/-- A particle that flies around the axis. -/
noncomputable def exSpin : Part ℝ := { exPart (3/2) (5/2) (1/2) (1/3) 1 2 with velPhi := 1/4 }

/-- The hypotheses of `C141_step_partial`: a charged particle that flies around the axis. -/
example : ∃ S T, NotHC (exEnv 1 1 1).kind ∧ Scheme (exEnv 1 1 1).dist ∧ Calm (exEnv 1 1 1) S ∧ (S.heap 0).velPhi = 1/4 ∧ Step (exEnv 1 1 1) S T ∧
    Step (exEnv 1 1 1) S.mirrored T.mirrored := by
  have h := exEnv_chamber ex_div1 1
  have A : Alive (exEnv 1 1 1) [7] (exState 0 exSpin) := by
    refine exState_alive ⟨rfl, ?_, ?_, ?_, ?_, ?_, ?_, ?_, ?_⟩ (by rfl)
    · rw [geom_eq h]
      constructor <;> norm_num [exEnv, exPart, exSpin, low, hgt]
    all_goals norm_num [exEnv, exPart, exSpin, vel, Vec3.length2, Int.floor_eq_iff]
  have c : Calm (exEnv 1 1 1) (exState 0 exSpin) := fun M1 h1 i j hi hj x y =>
    solveMaxwell0 _ _ _ (M := (exState 0 exSpin).M) (fun i j _ _ c hc x y => by cases c <;> first | rfl | cases hc) M1 h1 i j hi hj .ep rfl x y
  have k : NotHC (exEnv 1 1 1).kind := fun h => nomatch h
  obtain ⟨T, r, _⟩ := C97_single h (.inl rfl) (.inr rfl) rfl rfl (by unfold HalfCell exEnv; norm_num) (by simp) A 1
  have r := (r T).mpr rfl
  cases r with
  | step r s =>
    cases r
    exact ⟨_, T, k, .inr rfl, c, rfl, s, (C141_step_partial k (.inr rfl) c _).mpr ⟨T, s, rfl⟩⟩

/-- The hypotheses of `C141_start_partial`: a configuration with 100 particles. -/
example : ∃ (X : Setup) (S : State), X.Sane ∧ NotHC X.env.kind ∧ Scheme X.env.dist ∧ X.species ≠ [] ∧ Starts X S := by
  have s := exSetup_sane (E := exEnv 1 1 1) (exEnv_chamber ex_div1 1) rfl 100 .flat (beams := []) List.nodup_nil (by simp)
  have c := exSetup_cold (E := exEnv 1 1 1) rfl 100 .flat []
  obtain ⟨S, h⟩ := C110_exists s (fun x hx => .inr (c x hx)) (exSetup_drawable rfl (by norm_num) (by norm_num [exEnv]) .flat [])
  exact ⟨_, S, s, (fun h => nomatch h : NotHC (exEnv 1 1 1).kind), .inr rfl, List.cons_ne_nil _ _, h⟩

/-- The hypotheses of `C141_mixed_fails` and of `C141_hc_fails`. -/
example : (⟨1, 1, 0, 0, 4, 4⟩ : Geom ℝ).Good ∧ (⟨1, 1, 0, 0, 4, 4⟩ : Geom ℝ).Contains (3/2) (5/2) ∧ (1 : ℝ) / 2 ≤ 3/2 ∧
    (3/2 : ℝ) ≠ (⌊(3/2 : ℝ) / 1⌋ : ℝ) * 1 ∧ (5/2 : ℝ) ≠ (⌊(5/2 : ℝ) / 1⌋ : ℝ) * 1 ∧
    (⟨1, 1, 0, 1, 1, 1⟩ : Pusher.Par).k ≠ 0 ∧ (⟨1, 1, 0, 1, 1, 1⟩ : Pusher.Par).k * 1 ≠ 0 ∧ (1/2 : ℝ) * (1/2) < 1 ^ 2 := by
  have f1 : ⌊(3/2 : ℝ) / 1⌋ = 1 := by rw [Int.floor_eq_iff]; norm_num
  have f2 : ⌊(5/2 : ℝ) / 1⌋ = 2 := by rw [Int.floor_eq_iff]; norm_num
  rw [f1, f2]
  refine ⟨⟨by norm_num, by norm_num, by norm_num, by norm_num⟩, ⟨?_, ?_, ?_, ?_⟩, ?_⟩
  all_goals norm_num [Pusher.Par.k]

end Pic
end Pico
