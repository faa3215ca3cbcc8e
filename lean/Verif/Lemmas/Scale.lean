import Verif.Model.Pic
import Verif.Lemmas.Base
import Mathlib.Tactic.Ring
import Mathlib.Tactic.FieldSimp

/-! Two computations side by side: the second one with all fields and currents multiplied by a factor. -/

set_option linter.unusedSimpArgs false
set_option linter.unusedVariables false
set_option linter.unusedSectionVars false

namespace Pico

/-- Both computations end in the same way, with related results. -/
def ResRel {α β : Type} (R : α → β → Prop) : Res α → Res β → Prop
  | .ok a, .ok b => R a b
  | .fatal, .fatal => True
  | .ub, .ub => True
  | _, _ => False

namespace ResRel
variable {α β γ δ ι κ : Type}

theorem bind {R : α → β → Prop} {Q : γ → δ → Prop} {x : Res α} {y : Res β} {f : α → Res γ} {g : β → Res δ} (h : ResRel R x y)
    (hf : ∀ a b, R a b → ResRel Q (f a) (g b)) : ResRel Q (x >>= f) (y >>= g) := by
  cases x <;> cases y <;> first | exact hf _ _ h | exact h.elim | exact trivial

theorem ok {R : α → β → Prop} {a : α} {b : β} (h : R a b) : ResRel R (.ok a) (.ok b) := h

theorem loop {R : α → β → Prop} {f : ι → α → Res α} {g : κ → β → Res β} {k : ι → κ} (l : List ι) (hf : ∀ i ∈ l, ∀ a b, R a b → ResRel R (f i a) (g (k i) b)) :
    ∀ {a b}, R a b → ResRel R (Pico.loop f l a) (Pico.loop g (l.map k) b) := by
  induction l with
  | nil => intro a b h; exact h
  | cons i l ih =>
    intro a b h
    exact bind (hf i (by simp) a b h) fun a b h => ih (fun i hi => hf i (by simp [hi])) h

theorem loop' {R : α → β → Prop} {f : ι → α → Res α} {g : ι → β → Res β} (l : List ι) (hf : ∀ i ∈ l, ∀ a b, R a b → ResRel R (f i a) (g i b)) {a b} (h : R a b) :
    ResRel R (Pico.loop f l a) (Pico.loop g l b) := by
  have := loop (k := fun i => i) (g := g) l hf h
  rwa [List.map_id'] at this

theorem of_ok {R : α → β → Prop} {x : Res α} {y : Res β} (h : ResRel R x y) {a : α} (e : x = .ok a) : ∃ b, y = .ok b ∧ R a b := by
  subst e
  cases y with
  | ok b => exact ⟨b, rfl, h⟩
  | fatal => exact h.elim
  | ub => exact h.elim

theorem rfl' {x : Res α} : ResRel (fun a b => b = a) x x := by cases x <;> first | rfl | exact trivial

theorem mono {R Q : α → β → Prop} {x : Res α} {y : Res β} (h : ResRel R x y) (hR : ∀ a b, R a b → Q a b) : ResRel Q x y := by
  cases x <;> cases y <;> first | exact hR _ _ h | exact h

theorem eq {x y : Res α} (h : ResRel (fun a b => b = a) x y) : y = x := by
  cases x <;> cases y <;> first | exact congrArg Res.ok h | rfl | exact h.elim
end ResRel

namespace Yee

/-- The factor of a component: the media are not scaled. -/
noncomputable def fac (s : ℝ) (c : Comp) : ℝ := if c = .eps ∨ c = .sig then 1 else s

/-- The second memory has the fields and currents of the first one times `s`. -/
def Scaled (s : ℝ) (m n : Mem ℝ) : Prop := ∀ c x y, n c x y = fac s c * m c x y

variable {s : ℝ}

theorem rd_scaled {p : Par ℝ} {m n : Mem ℝ} (h : Scaled s m n) (c : Comp) (i k : Int) : ResRel (fun a b => b = fac s c * a) (rd p m c i k) (rd p n c i k) := by
  unfold rd
  split
  · exact h c i k
  · exact trivial

theorem put_scaled {m n : Mem ℝ} (h : Scaled s m n) (c : Comp) (i k : Int) {v w : ℝ} (hv : w = fac s c * v) : Scaled s (put m c i k v) (put n c i k w) := by
  intro c' x y
  unfold put
  split
  · rename_i e; rw [hv, e.1]
  · exact h c' x y

theorem upd_scaled {p : Par ℝ} {m n : Mem ℝ} (h : Scaled s m n) (c : Comp) (i k : Int) {f g : ℝ → ℝ} (hf : ∀ v, g (fac s c * v) = fac s c * f v) :
    ResRel (Scaled s) (upd p m c i k f) (upd p n c i k g) := by
  unfold upd
  split
  · exact put_scaled h c i k (by rw [h, hf])
  · exact trivial

theorem overlay0_scaled {p : Par ℝ} {m n : Mem ℝ} (h : Scaled s m n) (cs : List Comp) : Scaled s (overlay0 p cs m) (overlay0 p cs n) := by
  intro c x y
  unfold overlay0
  split
  · rw [mul_zero]
  · exact h c x y

theorem relax_scaled {p : Par ℝ} {m n : Mem ℝ} (h : Scaled s m n) (c : Comp) (i k : Int) (ke kh : ℝ) {x y : ℝ} (hx : y = fac s c * x) :
    ResRel (Scaled s) (relax p m c i k ke kh x) (relax p n c i k ke kh y) := by
  unfold relax
  refine (upd_scaled h c i k fun v => by ring).bind fun m n h => upd_scaled h c i k fun v => by rw [hx]; ring

theorem fac_field {c : Comp} (h : ¬ (c = .eps ∨ c = .sig)) : fac s c = s := if_neg h

theorem hWall_scaled (p : Par ℝ) (k : Nat) {m n : Mem ℝ} (h : Scaled s m n) : ResRel (Scaled s) (hWallBody p k m) (hWallBody p k n) := by
  unfold hWallBody
  dsimp only
  refine (rd_scaled h _ _ _).bind fun a a' ea => (rd_scaled h _ _ _).bind fun b b' eb => (rd_scaled h _ _ _).bind fun d d' ed => ?_
  rw [fac_field (by decide)] at ea eb ed
  subst ea eb ed
  refine (upd_scaled h _ _ _ fun v => ?_).bind fun m n h => upd_scaled h _ _ _ fun v => ?_
  all_goals rw [fac_field (by decide)]; ring

theorem hBody_scaled (p : Par ℝ) (q : Nat × Nat) {m n : Mem ℝ} (h : Scaled s m n) : ResRel (Scaled s) (hBody p q m) (hBody p q n) := by
  unfold hBody
  dsimp only
  refine (rd_scaled h _ _ _).bind fun a a' ea => (rd_scaled h _ _ _).bind fun b b' eb => (rd_scaled h _ _ _).bind fun d d' ed => ?_
  rw [fac_field (by decide)] at ea eb ed
  subst ea eb ed
  refine (upd_scaled h _ _ _ fun v => ?_).bind fun m n h => ?_
  · rw [fac_field (by decide)]; ring
  refine (upd_scaled h _ _ _ fun v => ?_).bind fun m n h => ?_
  · rw [fac_field (by decide)]; ring
  refine (rd_scaled h _ _ _).bind fun a a' ea => (rd_scaled h _ _ _).bind fun b b' eb => (rd_scaled h _ _ _).bind fun d d' ed =>
    (rd_scaled h _ _ _).bind fun f f' ef => (rd_scaled h _ _ _).bind fun g g' eg => ?_
  rw [fac_field (by decide)] at ea eb ed ef eg
  subst ea eb ed ef eg
  refine (upd_scaled h _ _ _ fun v => ?_).bind fun m n h => ?_
  · rw [fac_field (by decide)]; ring
  refine (upd_scaled h _ _ _ fun v => ?_).bind fun m n h => ?_
  · rw [fac_field (by decide)]; ring
  refine (rd_scaled h _ _ _).bind fun a a' ea => (rd_scaled h _ _ _).bind fun b b' eb => (rd_scaled h _ _ _).bind fun d d' ed => ?_
  rw [fac_field (by decide)] at ea eb ed
  subst ea eb ed
  refine (upd_scaled h _ _ _ fun v => ?_).bind fun m n h => upd_scaled h _ _ _ fun v => ?_
  all_goals rw [fac_field (by decide)]; ring

theorem calcH_scaled (p : Par ℝ) {m n : Mem ℝ} (h : Scaled s m n) : ResRel (Scaled s) (calcH p m) (calcH p n) := by
  unfold calcH
  have h := overlay0_scaled (p := p) (overlay0_scaled (p := p) h [.fr, .fp, .fz]) [.hr, .hp, .hz]
  refine ResRel.bind (R := Scaled s) ?_ fun m n h => ResRel.loop' _ (fun q _ m n h => hBody_scaled p q h) h
  split
  · exact ResRel.loop' _ (fun q _ m n h => hWall_scaled p q h) h
  · exact h

theorem ezPart_scaled (p : Par ℝ) (i k : Nat) (eps sig : ℝ) {m n : Mem ℝ} (h : Scaled s m n) : ResRel (Scaled s) (ezPart p i k eps sig m) (ezPart p i k eps sig n) := by
  unfold ezPart
  dsimp only
  refine (rd_scaled h _ _ _).bind fun a a' ea => (rd_scaled h _ _ _).bind fun b b' eb => (rd_scaled h _ _ _).bind fun d d' ed => ?_
  rw [fac_field (by decide)] at ea eb ed
  subst ea eb ed
  exact relax_scaled h _ _ _ _ _ (by rw [fac_field (by decide)]; ring)

theorem fac_medium {c : Comp} (h : c = .eps ∨ c = .sig) : fac s c = 1 := if_pos h

theorem eAxis_scaled (p : Par ℝ) (k : Nat) {m n : Mem ℝ} (h : Scaled s m n) : ResRel (Scaled s) (eAxisBody p k m) (eAxisBody p k n) := by
  unfold eAxisBody
  dsimp only
  refine (rd_scaled h _ _ _).bind fun e e' ee => (rd_scaled h _ _ _).bind fun g g' eg => ?_
  rw [fac_medium (by decide), one_mul] at ee eg
  subst ee eg
  refine (rd_scaled h _ _ _).bind fun a a' ea => (rd_scaled h _ _ _).bind fun b b' eb => (rd_scaled h _ _ _).bind fun d d' ed => ?_
  rw [fac_field (by decide)] at ea eb ed
  subst ea eb ed
  refine (relax_scaled h _ _ _ _ _ (by rw [fac_field (by decide)]; ring)).bind fun m n h => ?_
  refine (rd_scaled h _ _ _).bind fun a a' ea => (rd_scaled h _ _ _).bind fun b b' eb => ?_
  rw [fac_field (by decide)] at ea eb
  subst ea eb
  exact relax_scaled h _ _ _ _ _ (by rw [fac_field (by decide)]; ring)

theorem eLeft_scaled (p : Par ℝ) (k : Nat) {m n : Mem ℝ} (h : Scaled s m n) : ResRel (Scaled s) (eLeftBody p k m) (eLeftBody p k n) := by
  unfold eLeftBody
  refine (rd_scaled h _ _ _).bind fun e e' ee => (rd_scaled h _ _ _).bind fun g g' eg => ?_
  rw [fac_medium (by decide), one_mul] at ee eg
  subst ee eg
  exact ezPart_scaled p _ _ _ _ h

theorem eBody_scaled (p : Par ℝ) (q : Nat × Nat) {m n : Mem ℝ} (h : Scaled s m n) : ResRel (Scaled s) (eBody p q m) (eBody p q n) := by
  unfold eBody
  dsimp only
  refine (rd_scaled h _ _ _).bind fun e e' ee => (rd_scaled h _ _ _).bind fun g g' eg => ?_
  rw [fac_medium (by decide), one_mul] at ee eg
  subst ee eg
  refine (rd_scaled h _ _ _).bind fun a a' ea => (rd_scaled h _ _ _).bind fun b b' eb => (rd_scaled h _ _ _).bind fun d d' ed => ?_
  rw [fac_field (by decide)] at ea eb ed
  subst ea eb ed
  refine (relax_scaled h _ _ _ _ _ (by rw [fac_field (by decide)]; ring)).bind fun m n h => ?_
  refine (rd_scaled h _ _ _).bind fun a a' ea => (rd_scaled h _ _ _).bind fun b b' eb => (rd_scaled h _ _ _).bind fun d d' ed =>
    (rd_scaled h _ _ _).bind fun f f' ef => (rd_scaled h _ _ _).bind fun g g' eg => ?_
  rw [fac_field (by decide)] at ea eb ed ef eg
  subst ea eb ed ef eg
  refine (relax_scaled h _ _ _ _ _ (by rw [fac_field (by decide)]; ring)).bind fun m n h => ?_
  exact ezPart_scaled p _ _ _ _ h

theorem calcE_scaled (p : Par ℝ) {m n : Mem ℝ} (h : Scaled s m n) : ResRel (Scaled s) (calcE p m) (calcE p n) := by
  unfold calcE
  have h := overlay0_scaled (p := p) h [.er, .ep, .ez]
  refine ResRel.bind (R := Scaled s) ?_ fun m n h => ResRel.bind (R := Scaled s) ?_ fun m n h => ResRel.loop' _ (fun q _ m n h => eBody_scaled p q h) h
  · split
    · exact ResRel.loop' _ (fun q _ m n h => eAxis_scaled p q h) h
    · exact h
  · split
    · exact ResRel.loop' _ (fun q _ m n h => eLeft_scaled p q h) h
    · exact h

/-! ### The exchange between the domains -/

/-- The second grid has the values of the first one times `t`. -/
structure GridScaled (t : ℝ) (g h : Grid ℝ) : Prop where
  os : h.os = g.os
  xs : h.xs = g.xs
  ys : h.ys = g.ys
  cell : ∀ a b, h.cell a b = t * g.cell a b

variable {t : ℝ}

theorem GridScaled.xr {g h : Grid ℝ} (H : GridScaled t g h) : h.xr = g.xr := by unfold Grid.xr; rw [H.os, H.xs]
theorem GridScaled.yr {g h : Grid ℝ} (H : GridScaled t g h) : h.yr = g.yr := by unfold Grid.yr; rw [H.os, H.ys]

theorem gridRd {g h : Grid ℝ} (H : GridScaled t g h) (i j : Nat) : ResRel (fun a b => b = t * a) (g.rd i j) (h.rd i j) := by
  unfold Grid.rd
  rw [H.xr, H.yr]
  split
  · exact H.cell i j
  · exact trivial

theorem gridWr {g h : Grid ℝ} (H : GridScaled t g h) (i j : Nat) {v w : ℝ} (hv : w = t * v) : ResRel (GridScaled t) (g.wr i j v) (h.wr i j w) := by
  unfold Grid.wr
  rw [H.xr, H.yr]
  split
  · refine ⟨H.os, H.xs, H.ys, fun a b => ?_⟩
    dsimp only
    split
    · exact hv
    · exact H.cell a b
  · exact trivial

theorem gridUpd {g h : Grid ℝ} (H : GridScaled t g h) (i j : Nat) {v w : ℝ} (hv : w = t * v) : ResRel (GridScaled t) (g.upd i j (· + v)) (h.upd i j (· + w)) := by
  unfold Grid.upd
  exact (gridRd H i j).bind fun a b e => gridWr H i j (by rw [e, hv, mul_add])

/-- Pairs of grids. -/
def PairScaled (t : ℝ) (p q : Grid ℝ × Grid ℝ) : Prop := GridScaled t p.1 q.1 ∧ GridScaled t p.2 q.2

theorem exch_scaled (a b c e f : Nat × Nat) {p q : Grid ℝ × Grid ℝ} (H : PairScaled t p q) : ResRel (PairScaled t) (Grid.exch a b c e f p) (Grid.exch a b c e f q) := by
  obtain ⟨l, r⟩ := p
  obtain ⟨l', r'⟩ := q
  obtain ⟨H1, H2⟩ := H
  unfold Grid.exch
  dsimp only at *
  refine (gridRd H1 _ _).bind fun v w hv => (gridUpd H2 _ _ hv).bind fun r r' H2 => (gridRd H2 _ _).bind fun v w hv => (gridUpd H1 _ _ hv).bind fun l l' H1 =>
    (gridRd H1 _ _).bind fun v w hv => (gridWr H2 _ _ hv).bind fun r r' H2 => (gridRd H2 _ _).bind fun v w hv => (gridWr H1 _ _ hv).bind fun l l' H1 => ⟨H1, H2⟩

theorem overlayX_scaled {g h g' h' : Grid ℝ} (H : GridScaled t g h) (H' : GridScaled t g' h') : ResRel (PairScaled t) (g.overlayX g') (h.overlayX h') := by
  unfold Grid.overlayX
  rw [H.yr, H'.yr, H.os]
  split
  · refine ResRel.loop' _ (fun p _ a b K => ?_) ⟨H, H'⟩
    dsimp only
    rw [K.1.xr]
    exact exch_scaled _ _ _ _ _ K
  · exact trivial

theorem overlayY_scaled {g h g' h' : Grid ℝ} (H : GridScaled t g h) (H' : GridScaled t g' h') : ResRel (PairScaled t) (g.overlayY g') (h.overlayY h') := by
  unfold Grid.overlayY
  rw [H.xr, H'.xr, H.os]
  split
  · refine ResRel.loop' _ (fun p _ a b K => ?_) ⟨H, H'⟩
    dsimp only
    rw [K.1.yr]
    exact exch_scaled _ _ _ _ _ K
  · exact trivial

theorem overlayXY_scaled {g h g' h' : Grid ℝ} (H : GridScaled t g h) (H' : GridScaled t g' h') : ResRel (PairScaled t) (g.overlayXY g') (h.overlayXY h') := by
  unfold Grid.overlayXY
  rw [H.xr, H'.xr, H.yr, H'.yr, H.os]
  split
  · refine ResRel.loop' _ (fun p _ a b K => ?_) ⟨H, H'⟩
    dsimp only
    rw [K.1.xr, K.1.yr]
    exact exch_scaled _ _ _ _ _ K
  · exact trivial

/-- The same for all domains. -/
def DomsScaled (t : ℝ) (D F : SMB.Domains ℝ) : Prop := ∀ i j, GridScaled t (D i j) (F i j)

theorem setD_scaled {D F : SMB.Domains ℝ} (H : DomsScaled t D F) (i j : Nat) {g h : Grid ℝ} (K : GridScaled t g h) : DomsScaled t (SMB.setD D i j g) (SMB.setD F i j h) := by
  intro a b
  unfold SMB.setD
  split
  · exact K
  · exact H a b

theorem pass_scaled (R Z : Nat) {D F : SMB.Domains ℝ} (H : DomsScaled t D F) : ResRel (DomsScaled t) (SMB.overlayPass R Z D) (SMB.overlayPass R Z F) := by
  unfold SMB.overlayPass
  refine ResRel.loop' _ (fun p _ D F H => ?_) H
  unfold SMB.overlayAt
  refine ResRel.bind (R := DomsScaled t) ?_ fun D F H => ResRel.bind (R := DomsScaled t) ?_ fun D F H => ?_
  · unfold SMB.exchX
    split
    · exact (overlayX_scaled (H _ _) (H _ _)).bind fun p q K => setD_scaled (setD_scaled H _ _ K.1) _ _ K.2
    · exact H
  · unfold SMB.exchY
    split
    · exact (overlayY_scaled (H _ _) (H _ _)).bind fun p q K => setD_scaled (setD_scaled H _ _ K.1) _ _ K.2
    · exact H
  · unfold SMB.exchXY
    split
    · exact (overlayXY_scaled (H _ _) (H _ _)).bind fun p q K => setD_scaled (setD_scaled H _ _ K.1) _ _ K.2
    · exact H

/-- The memories of all domains. -/
def AllScaled (s : ℝ) (M N : Solvers ℝ) : Prop := ∀ i j, Scaled s (M i j) (N i j)

theorem overlayComp_scaled (P : Nat → Nat → Par ℝ) (R Z : Nat) (c : Comp) {M N : Solvers ℝ} (H : AllScaled s M N) :
    ResRel (AllScaled s) (overlayComp P R Z c M) (overlayComp P R Z c N) := by
  unfold overlayComp
  have G : DomsScaled (fac s c) (fun i j => toGrid (P i j) (M i j) c) (fun i j => toGrid (P i j) (N i j) c) := fun i j => ⟨rfl, rfl, rfl, fun a b => H i j c _ _⟩
  refine (pass_scaled R Z G).bind fun D F K => ?_
  intro i j c' x y
  dsimp only
  unfold ofGrid
  split
  · rename_i e
    rw [(K i j).cell, e.1]
  · exact H i j c' x y

theorem each_scaled (R Z : Nat) {f g : Nat → Nat → Mem ℝ → Res (Mem ℝ)} (hf : ∀ i j m n, Scaled s m n → ResRel (Scaled s) (f i j m) (g i j n)) {M N : Solvers ℝ}
    (H : AllScaled s M N) : ResRel (AllScaled s) (each R Z f M) (each R Z g N) := by
  unfold each
  refine ResRel.loop' _ (fun q _ M N H => (hf q.1 q.2 _ _ (H q.1 q.2)).bind fun m n K => ?_) H
  intro i j
  dsimp only
  split
  · exact K
  · exact H i j

theorem solveMaxwell_scaled (P : Nat → Nat → Par ℝ) (R Z : Nat) {M N : Solvers ℝ} (H : AllScaled s M N) :
    ResRel (AllScaled s) (solveMaxwell P R Z M) (solveMaxwell P R Z N) := by
  unfold solveMaxwell
  refine (each_scaled R Z (fun i j m n h => calcE_scaled (P i j) h) H).bind fun M N H => ?_
  refine (ResRel.loop' _ (fun c _ M N H => overlayComp_scaled P R Z c H) H).bind fun M N H => ?_
  refine (each_scaled R Z (fun i j m n h => calcH_scaled (P i j) h) H).bind fun M N H => ?_
  exact ResRel.loop' _ (fun c _ M N H => overlayComp_scaled P R Z c H) H

/-! ### Deposition -/

open VB

/-- A particle with another charge. -/
def times (s : ℝ) (p : VB.Part ℝ) : VB.Part ℝ := { p with q := s * p.q }

/-- An operation with another value. -/
def opTimes (s : ℝ) : Op ℝ → Op ℝ
  | .inc c i k v => .inc c i k (s * v)
  | .set c i k v => .set c i k (s * v)

/-- The operation is on a current grid. -/
def OnJ : Op ℝ → Prop
  | .inc c _ _ _ => c = .jr ∨ c = .jp ∨ c = .jz
  | .set c _ _ _ => c = .jr ∨ c = .jp ∨ c = .jz

theorem fac_j {c : Comp} (h : c = .jr ∨ c = .jp ∨ c = .jz) : fac s c = s := fac_field (by rcases h with rfl | rfl | rfl <;> decide)

theorem runOps_scaled (g : Geom ℝ) (l : List (Op ℝ)) (hl : ∀ o ∈ l, OnJ o) {m n : Mem ℝ} (h : Scaled s m n) :
    ResRel (Scaled s) (runOps g l m) (runOps g (l.map (opTimes s)) n) := by
  unfold runOps
  refine ResRel.loop l (fun o ho m n h => ?_) h
  have := hl o ho
  cases o with
  | inc c i k v =>
    show ResRel (Scaled s) (if insideG g i k then .ok (put m c i k (m c i k + v)) else .ub) (if insideG g i k then .ok (put n c i k (n c i k + s * v)) else .ub)
    split
    · exact put_scaled h c i k (by rw [h, fac_j this, mul_add])
    · exact trivial
  | set c i k v =>
    show ResRel (Scaled s) (if insideG g i k then .ok (put m c i k v) else .ub) (if insideG g i k then .ok (put n c i k (s * v)) else .ub)
    split
    · exact put_scaled h c i k (by rw [fac_j this])
    · exact trivial

theorem clear_scaled (g : Geom ℝ) {m n : Mem ℝ} (h : Scaled s m n) : Scaled s (overlayClear g m) (overlayClear g n) := by
  intro c x y
  unfold overlayClear
  split
  · rw [mul_zero]
  · exact h c x y

theorem reset_scaled (g : Geom ℝ) {m n : Mem ℝ} (h : Scaled s m n) : Scaled s (resetCurrent g m) (resetCurrent g n) := by
  intro c x y
  unfold resetCurrent
  split
  · rw [mul_zero]
  · exact h c x y

/-- The second list of operations has the values of the first one times `s`; both are on the current grids. -/
structure LinOps (s : ℝ) (l l' : List (Op ℝ)) : Prop where
  eq : l' = l.map (opTimes s)
  onJ : ∀ o ∈ l, OnJ o

theorem LinOps.nil : LinOps s [] [] := ⟨rfl, fun _ h => nomatch h⟩

theorem LinOps.append {l l' k k' : List (Op ℝ)} (h : LinOps s l l') (h' : LinOps s k k') : LinOps s (l ++ k) (l' ++ k') :=
  ⟨by rw [h.eq, h'.eq, List.map_append], fun o ho => (List.mem_append.mp ho).elim (h.onJ o) (h'.onJ o)⟩

theorem LinOps.inc {l l' : List (Op ℝ)} (h : LinOps s l l') {c : Comp} (hc : c = .jr ∨ c = .jp ∨ c = .jz) (i k : Int) {v w : ℝ} (hv : w = s * v) :
    LinOps s (.inc c i k v :: l) (.inc c i k w :: l') :=
  ⟨by rw [h.eq, hv]; rfl, fun o ho => by rcases List.mem_cons.mp ho with rfl | ho; exacts [hc, h.onJ o ho]⟩

theorem LinOps.set {l l' : List (Op ℝ)} (h : LinOps s l l') {c : Comp} (hc : c = .jr ∨ c = .jp ∨ c = .jz) (i k : Int) {v w : ℝ} (hv : w = s * v) :
    LinOps s (.set c i k v :: l) (.set c i k w :: l') :=
  ⟨by rw [h.eq, hv]; rfl, fun o ho => by rcases List.mem_cons.mp ho with rfl | ho; exacts [hc, h.onJ o ho]⟩

theorem LinOps.run {l l' : List (Op ℝ)} (h : LinOps s l l') (g : Geom ℝ) {m n : Mem ℝ} (H : Scaled s m n) : ResRel (Scaled s) (runOps g l m) (runOps g l' n) := by
  rw [h.eq]
  exact runOps_scaled g l h.onJ H

theorem zz_lin (x : Ctx ℝ) (p : VB.Part ℝ) (a b c d e : Int) : LinOps s (ZigZag.cellOps x p a b c d e) (ZigZag.cellOps x (times s p) a b c d e) := by
  unfold ZigZag.cellOps times
  dsimp only
  repeat' refine LinOps.inc ?_ (by decide) _ _ ?_
  · exact LinOps.nil
  all_goals ring

theorem zigzag_scaled (x : Ctx ℝ) (ps : List (VB.Part ℝ)) {m n : Mem ℝ} (h : Scaled s m n) :
    ResRel (Scaled s) (ZigZag.currentDistribution x ps m) (ZigZag.currentDistribution x (ps.map (times s)) n) := by
  unfold ZigZag.currentDistribution
  refine ResRel.loop ps (fun p _ m n h => ?_) (clear_scaled x.g h)
  unfold ZigZag.particle ZigZag.particleOps
  refine ResRel.bind (R := LinOps s) ?_ fun l l' H => H.run x.g h
  refine ResRel.rfl'.bind fun iN _ e => ResRel.rfl'.bind fun iO _ e1 => ResRel.rfl'.bind fun kN _ e2 => ResRel.rfl'.bind fun kO _ e3 => ResRel.rfl'.bind fun iM _ e4 => ?_
  subst e e1 e2 e3 e4
  exact zz_lin x p _ _ _ _ _

theorem simple_lin (x : Ctx ℝ) (a b c d : ℝ) (i k : Int) (q : ℝ) : LinOps s (simple x a b c d i k q) (simple x a b c d i k (s * q)) := by
  unfold simple
  split
  · exact LinOps.nil
  · dsimp only
    have z : simpleZ x a b c d i (s * q) = (s * (simpleZ x a b c d i q).1, s * (simpleZ x a b c d i q).2) := by
      unfold simpleZ densR
      dsimp only
      split <;> exact Prod.ext (by dsimp only; ring) (by dsimp only; ring)
    have r : simpleR x a b c d i k (s * q) = (s * (simpleR x a b c d i k q).1, s * (simpleR x a b c d i k q).2) := by
      unfold simpleR densZ
      dsimp only
      exact Prod.ext (by dsimp only; ring) (by dsimp only; ring)
    rw [z, r]
    repeat' refine LinOps.inc ?_ (by decide) _ _ ?_
    · exact LinOps.nil
    all_goals rfl

theorem axial_lin (x : Ctx ℝ) (a b c : ℝ) (i k l : Int) (q : ℝ) : LinOps s (strictAxial x a b c i k l q) (strictAxial x a b c i k l (s * q)) := by
  unfold strictAxial
  dsimp only
  refine LinOps.append ?_ ?_
  · repeat' refine LinOps.set ?_ (by decide) _ _ ?_
    · exact LinOps.nil
    all_goals rw [mul_zero]
  · split_ifs
    all_goals first
      | exact LinOps.nil
      | (repeat' refine LinOps.inc ?_ (by decide) _ _ ?_
         · exact LinOps.nil
         all_goals ring)

theorem radial_lin (x : Ctx ℝ) (a b c : ℝ) (i k l : Int) (q : ℝ) : LinOps s (strictRadial x a b c i k l q) (strictRadial x a b c i k l (s * q)) := by
  unfold strictRadial
  have w : ∀ r, densStrict x (s * q) r = s * densStrict x q r := by intro r; unfold densStrict; ring
  dsimp only
  simp only [w]
  split_ifs
  all_goals first
    | exact LinOps.nil
    | (repeat' refine LinOps.inc ?_ (by decide) _ _ ?_
       · exact LinOps.nil
       all_goals ring)

theorem LinOps.ite {c : Prop} {_ : Decidable c} {l l' k k' : List (Op ℝ)} (h : LinOps s l l') (h' : LinOps s k k') : LinOps s (if c then l else k) (if c then l' else k') := by
  split
  · exact h
  · exact h'

theorem switch_lin (x : Ctx ℝ) (p : VB.Part ℝ) (a b c d : Int) : LinOps s (switchOps x p a b c d) (switchOps x (times s p) a b c d) := by
  have sl := @simple_lin s x
  unfold switchOps crossR crossZ crossUpRight crossUpLeft crossDownRight crossDownLeft
  dsimp only [times]
  repeat' first
    | with_reducible exact sl _ _ _ _ _ _ _
    | with_reducible exact (sl _ _ _ _ _ _ _).append (sl _ _ _ _ _ _ _)
    | with_reducible exact ((sl _ _ _ _ _ _ _).append (sl _ _ _ _ _ _ _)).append (sl _ _ _ _ _ _ _)
    | with_reducible exact LinOps.nil
    | refine LinOps.ite ?_ ?_

theorem vb_scaled (x : Ctx ℝ) (ps : List (VB.Part ℝ)) {m n : Mem ℝ} (h : Scaled s m n) :
    ResRel (Scaled s) (VB.currentDistribution x ps m) (VB.currentDistribution x (ps.map (times s)) n) := by
  unfold VB.currentDistribution
  refine ResRel.bind (R := Scaled s) ?_ fun m n h => ?_
  · unfold azimuthal
    refine ResRel.loop ps (fun p _ m n h => ?_) (clear_scaled x.g h)
    refine LinOps.run ?_ x.g h
    unfold azimuthalOps times
    dsimp only
    repeat' refine LinOps.inc ?_ (by decide) _ _ ?_
    · exact LinOps.nil
    all_goals ring
  · unfold rz
    refine ResRel.loop ps (fun p _ m n h => ?_) (clear_scaled x.g h)
    unfold rzParticle
    refine ResRel.bind (R := LinOps s) ?_ fun l l' H => H.run x.g h
    unfold rzOps
    refine ResRel.rfl'.bind fun iO _ e => ResRel.rfl'.bind fun kO _ e1 => ?_
    subst e e1
    have ite : ∀ {c : Prop} [Decidable c] {u u' w w' : Res (List (Op ℝ))}, ResRel (LinOps s) u u' → ResRel (LinOps s) w w' →
        ResRel (LinOps s) (if c then u else w) (if c then u' else w') := by
      intro c _ u u' w w' h1 h2
      split
      · exact h1
      · exact h2
    refine ite ?_ ?_
    · exact LinOps.nil
    · refine ite ?_ ?_
      · dsimp only [times]
        unfold strictMotion
        refine ResRel.rfl'.bind fun iN _ e => ResRel.rfl'.bind fun kN _ e1 => ResRel.rfl'.bind fun iO _ e2 => ResRel.rfl'.bind fun kO _ e3 => ?_
        subst e e1 e2 e3
        show LinOps s _ _
        split_ifs
        · exact LinOps.nil
        · exact axial_lin x _ _ _ _ _ _ _
        · exact radial_lin x _ _ _ _ _ _ _
        · exact LinOps.nil
      · exact switch_lin x p _ _ _ _

theorem solveCurrent_scaled {dist : Ctx ℝ → List (VB.Part ℝ) → Mem ℝ → Res (Mem ℝ)} (hd : dist = VB.currentDistribution ∨ dist = ZigZag.currentDistribution)
    (p : Par ℝ) (R Z : Nat) (e : Consts ℝ) {ps qs : Nat → Nat → List (VB.Part ℝ)} (hq : ∀ i j, qs i j = (ps i j).map (times s)) {M N : Solvers ℝ} (H : AllScaled s M N) :
    ResRel (AllScaled s) (solveCurrent dist p R Z e ps M) (solveCurrent dist p R Z e qs N) := by
  unfold solveCurrent
  refine (each_scaled R Z (fun i j m n h => ?_) H).bind fun M N H => ResRel.loop' _ (fun c _ M N H => overlayComp_scaled _ R Z c H) H
  rw [hq]
  rcases hd with rfl | rfl
  · exact vb_scaled _ _ (reset_scaled _ h)
  · exact zigzag_scaled _ _ (reset_scaled _ h)

/-! ### Interpolation and push -/

theorem four_scaled (pi : ℝ) (g : Geom ℝ) {m n : Mem ℝ} (h : Scaled s m n) (c : Comp) (hc : ¬ (c = .eps ∨ c = .sig)) (i k : Int) (r1 r2 r3 d1 d2 v1 v2 : ℝ) :
    ResRel (fun a b => b = (s * a.1, s * a.2.1, s * a.2.2.1, s * a.2.2.2)) (Interp.four pi g m c i k r1 r2 r3 d1 d2 v1 v2) (Interp.four pi g n c i k r1 r2 r3 d1 d2 v1 v2) := by
  have rd : ∀ i k, ResRel (fun a b => b = s * a) (Interp.rdG g m c i k) (Interp.rdG g n c i k) := by
    intro i k
    unfold Interp.rdG
    split
    · show n c i k = s * m c i k
      rw [h, fac_field hc]
    · exact trivial
  have qt : ∀ a v w : ℝ, ResRel (fun a b => b = s * a) (Interp.quot (a * v) w) (Interp.quot (s * a * v) w) := by
    intro a v w
    unfold Interp.quot
    split
    · exact trivial
    · show s * a * v / w = s * (a * v / w)
      ring
  unfold Interp.four
  dsimp only
  refine (rd _ _).bind fun a _ e => ?_
  subst e
  refine (qt _ _ _).bind fun a' _ e => ?_
  subst e
  refine (rd _ _).bind fun b _ e => ?_
  subst e
  refine (qt _ _ _).bind fun b' _ e => ?_
  subst e
  refine (rd _ _).bind fun d _ e => ?_
  subst e
  refine (qt _ _ _).bind fun d' _ e => ?_
  subst e
  refine (rd _ _).bind fun f _ e => ?_
  subst e
  refine (qt _ _ _).bind fun f' _ e => ?_
  subst e
  rfl

theorem field_scaled (pi : ℝ) (g : Geom ℝ) {m n : Mem ℝ} (h : Scaled s m n) (r z : ℝ) :
    ResRel (fun a b => b = a.smul s) (Interp.getE pi g m r z) (Interp.getE pi g n r z) ∧
    ResRel (fun a b => b = a.smul s) (Interp.getH pi g m r z) (Interp.getH pi g n r z) := by
  have hw : ∀ c, ¬ (c = .eps ∨ c = .sig) → ResRel (fun a b => b = (s * a.1, s * a.2.1, s * a.2.2.1, s * a.2.2.2)) (Interp.halfWhole pi g m c r z) (Interp.halfWhole pi g n c r z) := by
    intro c hc
    unfold Interp.halfWhole
    refine ResRel.rfl'.bind fun i _ e => ResRel.rfl'.bind fun k _ e1 => ?_
    subst e e1
    exact four_scaled pi g h c hc _ _ _ _ _ _ _ _ _
  have wh : ∀ c, ¬ (c = .eps ∨ c = .sig) → ResRel (fun a b => b = (s * a.1, s * a.2.1, s * a.2.2.1, s * a.2.2.2)) (Interp.wholeHalf pi g m c r z) (Interp.wholeHalf pi g n c r z) := by
    intro c hc
    unfold Interp.wholeHalf
    refine ResRel.rfl'.bind fun i _ e => ResRel.rfl'.bind fun k _ e1 => ?_
    subst e e1
    exact four_scaled pi g h c hc _ _ _ _ _ _ _ _ _
  have hh : ∀ c, ¬ (c = .eps ∨ c = .sig) → ResRel (fun a b => b = (s * a.1, s * a.2.1, s * a.2.2.1, s * a.2.2.2)) (Interp.halfHalf pi g m c r z) (Interp.halfHalf pi g n c r z) := by
    intro c hc
    unfold Interp.halfHalf
    refine ResRel.rfl'.bind fun i _ e => ResRel.rfl'.bind fun k _ e1 => ?_
    subst e e1
    exact four_scaled pi g h c hc _ _ _ _ _ _ _ _ _
  have ww : ∀ c, ¬ (c = .eps ∨ c = .sig) → ResRel (fun a b => b = (s * a.1, s * a.2.1, s * a.2.2.1, s * a.2.2.2)) (Interp.wholeWhole pi g m c r z) (Interp.wholeWhole pi g n c r z) := by
    intro c hc
    unfold Interp.wholeWhole
    refine ResRel.rfl'.bind fun i _ e => ResRel.rfl'.bind fun k _ e1 => ?_
    subst e e1
    exact four_scaled pi g h c hc _ _ _ _ _ _ _ _ _
  constructor
  · unfold Interp.getE
    refine (hw _ (by decide)).bind fun a _ e => (wh _ (by decide)).bind fun b _ e1 => (ww _ (by decide)).bind fun d _ e2 => ?_
    subst e e1 e2
    show _ = _
    unfold Interp.sum4 Vec3.smul
    dsimp only
    congr 1 <;> ring
  · unfold Interp.getH
    refine (hw _ (by decide)).bind fun a _ e => (wh _ (by decide)).bind fun b _ e1 => (hh _ (by decide)).bind fun d _ e2 => ?_
    subst e e1 e2
    show _ = _
    unfold Interp.sum4 Vec3.smul
    dsimp only
    congr 1 <;> ring

theorem push_scaled (kind : Pusher.Kind) {P Q : Pusher.Par} (hc : Q.c = P.c) (hmu : Q.mu = P.mu) (hl : Q.lim = P.lim) (hdt : Q.dt = P.dt) (hk : s * Q.k = P.k) (junk : Bool) (pi : ℝ) (g : Geom ℝ) {m n : Mem ℝ} (h : Scaled s m n)
    (r z : ℝ) (v : Vec3 ℝ) : Pusher.push kind Q junk pi g n r z v = Pusher.push kind P junk pi g m r z v := by
  refine ResRel.eq ?_
  unfold Pusher.push
  obtain ⟨h1, h2⟩ := field_scaled pi g h r z
  refine h1.bind fun e _ e1 => h2.bind fun b _ e2 => ?_
  subst e1 e2
  have k1 : ∀ (a : Vec3 ℝ), (a.smul s).smul Q.k = a.smul P.k := by
    intro a
    unfold Vec3.smul
    dsimp only
    rw [← hk]
    congr 1 <;> ring
  have k2 : ∀ (a : Vec3 ℝ), (a.smul s).smul (2 * Q.k) = a.smul (2 * P.k) := by
    intro a
    unfold Vec3.smul
    dsimp only
    rw [← hk]
    congr 1 <;> ring
  have k3 : ∀ (a : Vec3 ℝ) (u : ℝ), (a.smul s).smul (Q.k * u) = a.smul (P.k * u) := by
    intro a u
    unfold Vec3.smul
    dsimp only
    rw [← hk]
    congr 1 <;> ring
  have : Pusher.pushV kind Q junk (e.smul s) (b.smul s) v = Pusher.pushV kind P junk e b v := by
    unfold Pusher.pushV
    cases kind
    · unfold Pusher.borisClassic
      rw [k1, k3, hmu]
    · unfold Pusher.borisRel
      simp only [k1, k3, hmu, hc]
    · unfold Pusher.borisAdaptive Pusher.borisRel Pusher.borisClassic
      simp only [k1, k3, hmu, hc, hl]
    · unfold Pusher.vay
      simp only [k2, k3, hmu, hc]
    · unfold Pusher.hc
      simp only [k1, k3, hmu, hc]
  rw [this]
  exact ResRel.rfl'

end Yee
end Pico
