import Verif.Spec.PicUnits
import Verif.Lemmas.Scale
import Verif.Lemmas.Dump

/-! Two computations side by side: the second one in other units. -/

set_option linter.unusedSimpArgs false
set_option linter.unusedVariables false
set_option linter.unusedSectionVars false

namespace Pico
namespace Pic
namespace Units

open SMB Yee

variable (U : Units)

theorem len_ne : U.len ≠ 0 := U.len_pos.ne'
theorem time_ne : U.time ≠ 0 := U.time_pos.ne'
theorem vel_pos : 0 < U.vel := div_pos U.len_pos U.time_pos

/-- Faraday's law. -/
theorem faraday : U.time * U.ef * U.len⁻¹ * U.mu⁻¹ = U.hf := by
  unfold mu hf
  have := U.len_ne; have := U.time_ne; have := U.ef_ne; have := U.eps_ne
  field_simp

/-- Ampère's law. -/
theorem ampere : U.hf * U.len⁻¹ = U.cur := by
  unfold cur hf
  have := U.len_ne; have := U.time_ne
  field_simp

theorem charging : U.cur * (U.time / U.eps) = U.ef := by
  unfold cur
  have := U.time_ne; have := U.eps_ne
  field_simp

/-! ### Field solver -/

/-- The second memory is the first one in other units. -/
def Mems (m n : Mem ℝ) : Prop := ∀ c x y, n c x y = U.comp c * m c x y

variable {U}

theorem rd_units {p : Par ℝ} {m n : Mem ℝ} (h : U.Mems m n) (c : Comp) (i k : Int) : ResRel (fun a b => b = U.comp c * a) (rd p m c i k) (rd (U.par p) n c i k) := by
  unfold rd
  show ResRel _ _ (if p.inside i k then _ else _)
  split
  · exact h c i k
  · exact trivial

theorem put_units {m n : Mem ℝ} (h : U.Mems m n) (c : Comp) (i k : Int) {v w : ℝ} (hv : w = U.comp c * v) : U.Mems (put m c i k v) (put n c i k w) := by
  intro c' x y
  unfold put
  split
  · rename_i e; rw [hv, e.1]
  · exact h c' x y

theorem upd_units {p : Par ℝ} {m n : Mem ℝ} (h : U.Mems m n) (c : Comp) (i k : Int) {f g : ℝ → ℝ} (hf : ∀ v, g (U.comp c * v) = U.comp c * f v) :
    ResRel U.Mems (upd p m c i k f) (upd (U.par p) n c i k g) := by
  unfold upd
  show ResRel _ _ (if p.inside i k then _ else _)
  split
  · exact put_units h c i k (by rw [h, hf])
  · exact trivial

theorem overlay0_units {p : Par ℝ} {m n : Mem ℝ} (h : U.Mems m n) (cs : List Comp) : U.Mems (overlay0 p cs m) (overlay0 (U.par p) cs n) := by
  intro c x y
  unfold overlay0
  show (if c ∈ cs ∧ p.inside x y ∧ ¬ p.logical x y then (0 : ℝ) else _) = _
  split
  · rw [mul_zero]
  · exact h c x y

theorem koefE_units (p : Par ℝ) (eps sig : ℝ) : koefE (U.par p) (U.eps * eps) (U.eps / U.time * sig) = koefE p eps sig := by
  unfold koefE par
  dsimp only
  rw [← mul_div_mul_left (2 * eps - sig * p.dt) _ U.eps_ne]
  have := U.time_ne
  congr 1 <;> field_simp

theorem koefH_units (p : Par ℝ) (eps sig : ℝ) : koefH (U.par p) (U.eps * eps) (U.eps / U.time * sig) = U.time / U.eps * koefH p eps sig := by
  unfold koefH par
  dsimp only
  rw [div_mul_div_comm]
  have := U.time_ne
  congr 1 <;> field_simp

theorem relax_units {p : Par ℝ} {m n : Mem ℝ} (h : U.Mems m n) {c : Comp} (hc : U.comp c = U.ef) (i k : Int) (eps sig : ℝ) {x y : ℝ} (hx : y = U.cur * x) :
    ResRel U.Mems (relax p m c i k (koefE p eps sig) (koefH p eps sig) x)
      (relax (U.par p) n c i k (koefE (U.par p) (U.eps * eps) (U.eps / U.time * sig)) (koefH (U.par p) (U.eps * eps) (U.eps / U.time * sig)) y) := by
  unfold relax
  rw [koefE_units, koefH_units]
  refine (upd_units h c i k fun v => by ring).bind fun m n h => upd_units h c i k fun v => ?_
  rw [hc, hx]
  linear_combination (-x * koefH p eps sig) * U.charging

theorem hWall_units (p : Par ℝ) (k : Nat) {m n : Mem ℝ} (h : U.Mems m n) : ResRel U.Mems (hWallBody p k m) (hWallBody (U.par p) k n) := by
  unfold hWallBody
  dsimp only
  refine (rd_units h _ _ _).bind fun a a' ea => (rd_units h _ _ _).bind fun b b' eb => (rd_units h _ _ _).bind fun d d' ed => ?_
  subst ea eb ed
  refine (upd_units h _ _ _ fun v => ?_).bind fun m n h => upd_units h _ _ _ fun v => ?_
  all_goals simp only [comp, par, ← U.faraday]; ring

theorem hBody_units (p : Par ℝ) (q : Nat × Nat) {m n : Mem ℝ} (h : U.Mems m n) : ResRel U.Mems (hBody p q m) (hBody (U.par p) q n) := by
  unfold hBody
  dsimp only
  refine (rd_units h _ _ _).bind fun a a' ea => (rd_units h _ _ _).bind fun b b' eb => (rd_units h _ _ _).bind fun d d' ed => ?_
  subst ea eb ed
  refine (upd_units h _ _ _ fun v => ?_).bind fun m n h => ?_
  · simp only [comp, par, ← U.faraday]; ring
  refine (upd_units h _ _ _ fun v => ?_).bind fun m n h => ?_
  · simp only [comp, par, ← U.faraday]; ring
  refine (rd_units h _ _ _).bind fun a a' ea => (rd_units h _ _ _).bind fun b b' eb => (rd_units h _ _ _).bind fun d d' ed =>
    (rd_units h _ _ _).bind fun f f' ef => (rd_units h _ _ _).bind fun g g' eg => ?_
  subst ea eb ed ef eg
  refine (upd_units h _ _ _ fun v => ?_).bind fun m n h => ?_
  · simp only [comp, par, ← U.faraday]; ring
  refine (upd_units h _ _ _ fun v => ?_).bind fun m n h => ?_
  · simp only [comp, par, ← U.faraday]; ring
  refine (rd_units h _ _ _).bind fun a a' ea => (rd_units h _ _ _).bind fun b b' eb => (rd_units h _ _ _).bind fun d d' ed => ?_
  subst ea eb ed
  have e : ∀ x y : ℝ, x / (2 * (U.len * p.dr) * y) = U.len⁻¹ * (x / (2 * p.dr * y)) := by
    intro x y
    rw [show 2 * (U.len * p.dr) * y = U.len * (2 * p.dr * y) by ring, div_mul_eq_div_div, div_right_comm, div_eq_inv_mul]
  refine (upd_units h _ _ _ fun v => ?_).bind fun m n h => upd_units h _ _ _ fun v => ?_
  all_goals simp only [comp, par, ← U.faraday, e]; ring

theorem calcH_units (p : Par ℝ) {m n : Mem ℝ} (h : U.Mems m n) : ResRel U.Mems (calcH p m) (calcH (U.par p) n) := by
  unfold calcH
  have h := overlay0_units (p := p) (overlay0_units (p := p) h [.fr, .fp, .fz]) [.hr, .hp, .hz]
  refine ResRel.bind (R := U.Mems) ?_ fun m n h => ResRel.loop' _ (fun q _ m n h => hBody_units p q h) h
  show ResRel U.Mems _ (if p.walls.rr then _ else _)
  split
  · exact ResRel.loop' _ (fun q _ m n h => hWall_units p q h) h
  · exact h

theorem ezPart_units (p : Par ℝ) (i k : Nat) (eps sig : ℝ) {m n : Mem ℝ} (h : U.Mems m n) :
    ResRel U.Mems (ezPart p i k eps sig m) (ezPart (U.par p) i k (U.eps * eps) (U.eps / U.time * sig) n) := by
  unfold ezPart
  dsimp only
  refine (rd_units h _ _ _).bind fun a a' ea => (rd_units h _ _ _).bind fun b b' eb => (rd_units h _ _ _).bind fun d d' ed => ?_
  subst ea eb ed
  refine relax_units h rfl _ _ _ _ ?_
  have e : ∀ x y : ℝ, x / (2 * (U.len * p.dr) * y) = U.len⁻¹ * (x / (2 * p.dr * y)) := by
    intro x y
    rw [show 2 * (U.len * p.dr) * y = U.len * (2 * p.dr * y) by ring, div_mul_eq_div_div, div_right_comm, div_eq_inv_mul]
  simp only [comp, par, ← U.ampere, e]; ring

theorem eAxis_units (p : Par ℝ) (k : Nat) {m n : Mem ℝ} (h : U.Mems m n) : ResRel U.Mems (eAxisBody p k m) (eAxisBody (U.par p) k n) := by
  unfold eAxisBody
  dsimp only
  refine (rd_units h _ _ _).bind fun e e' ee => (rd_units h _ _ _).bind fun g g' eg => ?_
  subst ee eg
  refine (rd_units h _ _ _).bind fun a a' ea => (rd_units h _ _ _).bind fun b b' eb => (rd_units h _ _ _).bind fun d d' ed => ?_
  subst ea eb ed
  refine (relax_units h rfl _ _ _ _ (by simp only [comp, par, ← U.ampere]; ring)).bind fun m n h => ?_
  refine (rd_units h _ _ _).bind fun a a' ea => (rd_units h _ _ _).bind fun b b' eb => ?_
  subst ea eb
  exact relax_units h rfl _ _ _ _ (by simp only [comp, par, ← U.ampere]; ring)

theorem eLeft_units (p : Par ℝ) (k : Nat) {m n : Mem ℝ} (h : U.Mems m n) : ResRel U.Mems (eLeftBody p k m) (eLeftBody (U.par p) k n) := by
  unfold eLeftBody
  refine (rd_units h _ _ _).bind fun e e' ee => (rd_units h _ _ _).bind fun g g' eg => ?_
  subst ee eg
  exact ezPart_units p _ _ _ _ h

theorem eBody_units (p : Par ℝ) (q : Nat × Nat) {m n : Mem ℝ} (h : U.Mems m n) : ResRel U.Mems (eBody p q m) (eBody (U.par p) q n) := by
  unfold eBody
  dsimp only
  refine (rd_units h _ _ _).bind fun e e' ee => (rd_units h _ _ _).bind fun g g' eg => ?_
  subst ee eg
  refine (rd_units h _ _ _).bind fun a a' ea => (rd_units h _ _ _).bind fun b b' eb => (rd_units h _ _ _).bind fun d d' ed => ?_
  subst ea eb ed
  refine (relax_units h rfl _ _ _ _ (by simp only [comp, par, ← U.ampere]; ring)).bind fun m n h => ?_
  refine (rd_units h _ _ _).bind fun a a' ea => (rd_units h _ _ _).bind fun b b' eb => (rd_units h _ _ _).bind fun d d' ed =>
    (rd_units h _ _ _).bind fun f f' ef => (rd_units h _ _ _).bind fun g g' eg => ?_
  subst ea eb ed ef eg
  refine (relax_units h rfl _ _ _ _ (by simp only [comp, par, ← U.ampere]; ring)).bind fun m n h => ?_
  exact ezPart_units p _ _ _ _ h

theorem calcE_units (p : Par ℝ) {m n : Mem ℝ} (h : U.Mems m n) : ResRel U.Mems (calcE p m) (calcE (U.par p) n) := by
  unfold calcE
  have h := overlay0_units (p := p) h [.er, .ep, .ez]
  refine ResRel.bind (R := U.Mems) ?_ fun m n h => ResRel.bind (R := U.Mems) ?_ fun m n h => ResRel.loop' _ (fun q _ m n h => eBody_units p q h) h
  · show ResRel U.Mems _ (if p.walls.r0 then _ else _)
    split
    · exact ResRel.loop' _ (fun q _ m n h => eAxis_units p q h) h
    · exact h
  · show ResRel U.Mems _ (if p.walls.z0 then _ else _)
    split
    · exact ResRel.loop' _ (fun q _ m n h => eLeft_units p q h) h
    · exact h

/-- The memories of all domains. -/
def All (U : Units) (M N : Solvers ℝ) : Prop := ∀ i j, U.Mems (M i j) (N i j)

theorem overlayComp_units (P : Nat → Nat → Par ℝ) (R Z : Nat) (c : Comp) {M N : Solvers ℝ} (H : U.All M N) :
    ResRel U.All (overlayComp P R Z c M) (overlayComp (fun i j => U.par (P i j)) R Z c N) := by
  unfold overlayComp
  have G : DomsScaled (U.comp c) (fun i j => toGrid (P i j) (M i j) c) (fun i j => toGrid (U.par (P i j)) (N i j) c) := fun i j => ⟨rfl, rfl, rfl, fun a b => H i j c _ _⟩
  refine (pass_scaled R Z G).bind fun D F K => ?_
  intro i j c' x y
  show (if c' = c ∧ (P i j).inside x y then _ else _) = U.comp c' * (if _ then _ else _)
  split
  · rename_i e
    rw [(K i j).cell, e.1]
  · exact H i j c' x y

theorem each_units (R Z : Nat) {f g : Nat → Nat → Mem ℝ → Res (Mem ℝ)} {M N : Solvers ℝ}
    (hf : ∀ i j m n, i < R → j < Z → U.Mems m n → ResRel U.Mems (f i j m) (g i j n))
    (H : U.All M N) : ResRel U.All (each R Z f M) (each R Z g N) := by
  unfold each
  refine ResRel.loop' _ (fun q hq M N H => (hf q.1 q.2 _ _ (mem_idx2.mp hq).1.2 (mem_idx2.mp hq).2.2 (H q.1 q.2)).bind fun m n K => ?_) H
  intro i j
  dsimp only
  split
  · exact K
  · exact H i j

theorem domPar_units (p : Par ℝ) (R Z i j : Nat) : domPar (U.par p) R Z i j = U.par (domPar p R Z i j) := by
  unfold domPar par domCellSize
  dsimp only [geoOf]
  congr 1 <;> ring

theorem solveMaxwell_units (p : Par ℝ) (R Z : Nat) {M N : Solvers ℝ} (H : U.All M N) :
    ResRel U.All (solveMaxwell (domPar p R Z) R Z M) (solveMaxwell (domPar (U.par p) R Z) R Z N) := by
  have e : domPar (U.par p) R Z = fun i j => U.par (domPar p R Z i j) := by
    funext i j
    exact domPar_units p R Z i j
  rw [e]
  unfold solveMaxwell
  refine (each_units R Z (fun i j m n _ _ h => calcE_units (domPar p R Z i j) h) H).bind fun M N H => ?_
  refine (ResRel.loop' _ (fun c _ M N H => overlayComp_units (domPar p R Z) R Z c H) H).bind fun M N H => ?_
  refine (each_units R Z (fun i j m n _ _ h => calcH_units (domPar p R Z i j) h) H).bind fun M N H => ?_
  exact ResRel.loop' _ (fun c _ M N H => overlayComp_units (domPar p R Z) R Z c H) H

/-! ### Deposition -/

open VB

theorem cellNumber_units (a d : ℝ) : cellNumber (U.len * a) (U.len * d) = cellNumber a d := by
  unfold cellNumber
  rw [mul_div_mul_left _ _ U.len_ne]

theorem runOps_units (g : Geom ℝ) {l l' : List (Op ℝ)} (H : LinOps U.cur l l') {m n : Mem ℝ} (h : U.Mems m n) :
    ResRel U.Mems (runOps g l m) (runOps (U.geom g) l' n) := by
  have hj : ∀ {c : Yee.Comp}, (c = .jr ∨ c = .jp ∨ c = .jz) → U.comp c = U.cur := by
    rintro c (rfl | rfl | rfl) <;> rfl
  rw [H.eq]
  unfold runOps
  refine ResRel.loop l (fun o ho m n h => ?_) h
  have := H.onJ o ho
  cases o with
  | inc c i k v =>
    show ResRel U.Mems (if insideG g i k then .ok (put m c i k (m c i k + v)) else .ub) (if insideG g i k then .ok (put n c i k (n c i k + U.cur * v)) else .ub)
    split
    · exact put_units h c i k (by rw [h, hj this, mul_add])
    · exact trivial
  | set c i k v =>
    show ResRel U.Mems (if insideG g i k then .ok (put m c i k v) else .ub) (if insideG g i k then .ok (put n c i k (U.cur * v)) else .ub)
    split
    · exact put_units h c i k (by rw [hj this])
    · exact trivial

theorem clear_units (g : Geom ℝ) {m n : Mem ℝ} (h : U.Mems m n) : U.Mems (overlayClear g m) (overlayClear (U.geom g) n) := by
  intro c x y
  show (if (c = .jr ∨ c = .jp ∨ c = .jz) ∧ insideG g x y ∧ ¬ ((0 ≤ x ∧ x < g.nr) ∧ (0 ≤ y ∧ y < g.nz)) then (0 : ℝ) else n c x y) = U.comp c * (if _ then _ else _)
  split
  · rw [mul_zero]
  · exact h c x y

theorem reset_units (g : Geom ℝ) {m n : Mem ℝ} (h : U.Mems m n) : U.Mems (resetCurrent g m) (resetCurrent (U.geom g) n) := by
  intro c x y
  show (if (c = .jr ∨ c = .jp ∨ c = .jz) ∧ insideG g x y then (0 : ℝ) else n c x y) = U.comp c * (if _ then _ else _)
  split
  · rw [mul_zero]
  · exact h c x y

/-- A quotient of which both sides change. -/
theorem quot_units {a b a' b' s t u : ℝ} (ht : t ≠ 0) (ha : a' = s * a) (hb : b' = t * b) (hu : s = u * t) : a' / b' = u * (a / b) := by
  rw [ha, hb, hu, mul_div_mul_comm, mul_div_cancel_right₀ _ ht]

theorem densR_units (x : Ctx ℝ) (q r : ℝ) : densR (U.ctx x) (U.load * q) (U.len * r) = U.cur / U.len ^ 2 * densR x q r := by
  unfold densR
  have := U.len_ne; have := U.time_ne
  refine quot_units (s := U.load) (t := U.len ^ 4 * U.time) (by positivity) rfl ?_ ?_
  · simp only [ctx, geom]; ring
  · unfold load; field_simp

theorem densZ_units (x : Ctx ℝ) (q r : ℝ) : densZ (U.ctx x) (U.load * q) (U.len * r) = U.cur / U.len ^ 2 * densZ x q r := by
  unfold densZ
  have := U.len_ne; have := U.time_ne
  refine quot_units (s := U.load) (t := U.len ^ 4 * U.time) (by positivity) rfl ?_ ?_
  · simp only [ctx, geom]; ring
  · unfold load; field_simp

theorem densStrict_units (x : Ctx ℝ) (q r : ℝ) : densStrict (U.ctx x) (U.load * q) (U.len * r) = U.cur / U.len ^ 2 * densStrict x q r := by
  unfold densStrict
  have := U.len_ne; have := U.time_ne
  refine quot_units (s := U.load) (t := U.len ^ 4 * U.time) (by positivity) rfl ?_ ?_
  · simp only [ctx, geom]; ring
  · unfold load; field_simp

theorem two_units {A B d b : ℝ} (hA : A = U.cur / U.len ^ 2 * d) (hB : B = U.len ^ 2 * b) : A * B = U.cur * (d * b) := by
  have := U.len_ne
  rw [hA, hB]
  field_simp

theorem simpleZ_units (x : Ctx ℝ) (a b c d : ℝ) (i : Int) (q : ℝ) :
    simpleZ (U.ctx x) (U.len * a) (U.len * b) (U.len * c) (U.len * d) i (U.load * q) = (U.cur * (simpleZ x a b c d i q).1, U.cur * (simpleZ x a b c d i q).2) := by
  have L := U.len_ne
  have hk : (U.len * a - U.len * c) / (U.len * b - U.len * d) = (a - c) / (b - d) := by rw [← mul_sub, ← mul_sub, mul_div_mul_left _ _ L]
  have hl : ∀ k : ℝ, (k * (U.len * b - U.len * d) + U.len * c) / (U.len * c) = (k * (b - d) + c) / c := by
    intro k
    rw [← mul_sub, ← mul_div_mul_left (k * (b - d) + c) c L]
    congr 1
    ring
  unfold simpleZ
  dsimp only
  rw [hk]
  simp only [ctx, geom, hl]
  generalize (a - c) / (b - d) = k
  generalize x.lg ((k * (b - d) + c) / c) = l
  split
  · refine Prod.ext (two_units ?_ ?_) (two_units ?_ ?_)
    · rw [← densR_units, mul_left_comm]; rfl
    · ring
    · rw [← densR_units, mul_left_comm]; rfl
    · ring
  · refine Prod.ext (two_units ?_ ?_) (two_units ?_ ?_)
    · refine quot_units (s := U.load) (t := U.len ^ 4 * U.time) (mul_ne_zero (pow_ne_zero 4 L) U.time_ne) rfl ?_ ?_
      · ring
      · unfold load; have := U.time_ne; field_simp
    · ring
    · rw [← densR_units]; rfl
    · ring

theorem simpleR_units (x : Ctx ℝ) (a b c d : ℝ) (i k : Int) (q : ℝ) :
    simpleR (U.ctx x) (U.len * a) (U.len * b) (U.len * c) (U.len * d) i k (U.load * q) = (U.cur * (simpleR x a b c d i k q).1, U.cur * (simpleR x a b c d i k q).2) := by
  have L := U.len_ne
  have hk : -(U.len * b - U.len * d) / (U.len * a - U.len * c) = -(b - d) / (a - c) := by
    rw [← mul_sub, ← mul_sub, ← mul_neg, mul_div_mul_left _ _ L]
  have hl : (U.len * c + (U.len * a - U.len * c)) / (U.len * c) = (c + (a - c)) / c := by
    rw [← mul_sub, ← mul_add, mul_div_mul_left _ _ L]
  have hr : ((i : ℝ) + 1/2) * (U.len * x.g.dr) = U.len * (((i : ℝ) + 1/2) * x.g.dr) := by ring
  unfold simpleR
  dsimp only
  rw [hk, hl]
  generalize -(b - d) / (a - c) = w
  show (densZ _ _ (((i : ℝ) + 1/2) * (U.len * x.g.dr)) * (_ + _ * x.lg _), densZ _ _ (((i : ℝ) + 1/2) * (U.len * x.g.dr)) * (_ - _ * x.lg _)) = _
  generalize x.lg ((c + (a - c)) / c) = l
  rw [hr, densZ_units]
  simp only [ctx, geom]
  rw [hr]
  have f : ∀ B : ℝ, (U.len * a - U.len * c) * (U.len * B) * (4 * (U.len * (((i : ℝ) + 1/2) * x.g.dr)) * (U.len * (((i : ℝ) + 1/2) * x.g.dr)) - U.len * x.g.dr * (U.len * x.g.dr)) / (8 * (U.len * c) * (U.len * c + (U.len * a - U.len * c))) =
      U.len ^ 2 * ((a - c) * B * (4 * (((i : ℝ) + 1/2) * x.g.dr) * (((i : ℝ) + 1/2) * x.g.dr) - x.g.dr * x.g.dr) / (8 * c * (c + (a - c)))) := by
    intro B
    exact quot_units (s := U.len ^ 4) (t := U.len ^ 2) (pow_ne_zero 2 L) (by ring) (by ring) (by ring)
  rw [show ((k : ℝ) + 1) * (U.len * x.g.dz) - U.len * d - w * (U.len * c) = U.len * (((k : ℝ) + 1) * x.g.dz - d - w * c) by ring,
    show U.len * d - (k : ℝ) * (U.len * x.g.dz) + w * (U.len * c) = U.len * (d - (k : ℝ) * x.g.dz + w * c) by ring, f, f]
  exact Prod.ext (two_units rfl (by ring)) (two_units rfl (by ring))

theorem abs_units (a b c : ℝ) : |U.len * a - U.len * b| < U.len * c ↔ |a - b| < c := by
  rw [← mul_sub, abs_mul, abs_of_pos U.len_pos, mul_lt_mul_iff_right₀ U.len_pos]

theorem ite_units {c c' : Prop} {_ : Decidable c} {_ : Decidable c'} {l l' k k' : List (Op ℝ)} {s : ℝ} (hc : c' ↔ c) (h : c → LinOps s l l') (h' : ¬ c → LinOps s k k') :
    LinOps s (if c then l else k) (if c' then l' else k') := by
  by_cases e : c
  · rw [if_pos e, if_pos (hc.mpr e)]; exact h e
  · rw [if_neg e, if_neg (mt hc.mp e)]; exact h' e

theorem simple_units (x : Ctx ℝ) {a b c d a' b' c' d' q' : ℝ} (i k : Int) {q : ℝ} (ha : a' = U.len * a) (hb : b' = U.len * b) (hc : c' = U.len * c) (hd : d' = U.len * d)
    (hq : q' = U.load * q) : LinOps U.cur (simple x a b c d i k q) (simple (U.ctx x) a' b' c' d' i k q') := by
  subst ha hb hc hd hq
  unfold simple
  rw [simpleZ_units, simpleR_units]
  refine ite_units (or_congr (abs_units _ _ _) (abs_units _ _ _)) (fun _ => LinOps.nil) fun _ => ?_
  dsimp only
  repeat' refine LinOps.inc ?_ (by decide) _ _ ?_
  · exact LinOps.nil
  all_goals rfl

theorem slope_units (a b c d : ℝ) : (U.len * a - U.len * b) / (U.len * c - U.len * d) = (a - b) / (c - d) := by
  rw [← mul_sub, ← mul_sub, mul_div_mul_left _ _ U.len_ne]

theorem lt_units {a b a' b' : ℝ} (ha : a' = U.len * a) (hb : b' = U.len * b) : a' < b' ↔ a < b := by
  rw [ha, hb, mul_lt_mul_iff_right₀ U.len_pos]

theorem eq_units {a b a' b' : ℝ} (ha : a' = U.len * a) (hb : b' = U.len * b) : a' = b' ↔ a = b := by
  rw [ha, hb, mul_right_inj' U.len_ne]

theorem crossR_units (x : Ctx ℝ) (p : VB.Part ℝ) (i k : Int) : LinOps U.cur (crossR x p i k) (crossR (U.ctx x) (U.dep p) i k) := by
  unfold crossR
  dsimp only [dep]
  simp only [slope_units]
  refine ite_units (lt_units ?_ rfl) (fun _ => ?_) fun _ => ?_
  · simp only [ctx, geom]; ring
  all_goals
    refine (simple_units x _ _ ?_ ?_ ?_ ?_ ?_).append (simple_units x _ _ ?_ ?_ ?_ ?_ ?_)
    all_goals first
      | rfl
      | (simp only [ctx, geom]; ring)

theorem crossZ_units (x : Ctx ℝ) (p : VB.Part ℝ) (i k : Int) : LinOps U.cur (crossZ x p i k) (crossZ (U.ctx x) (U.dep p) i k) := by
  unfold crossZ
  dsimp only [dep]
  simp only [slope_units]
  refine ite_units (lt_units rfl ?_) (fun _ => ?_) fun _ => ?_
  · simp only [ctx, geom]; ring
  all_goals
    refine (simple_units x _ _ ?_ ?_ ?_ ?_ ?_).append (simple_units x _ _ ?_ ?_ ?_ ?_ ?_)
    all_goals first
      | rfl
      | (simp only [ctx, geom]; ring)

theorem diag_units (x : Ctx ℝ) (p : VB.Part ℝ) (i k : Int) :
    LinOps U.cur (crossUpRight x p i k) (crossUpRight (U.ctx x) (U.dep p) i k) ∧ LinOps U.cur (crossUpLeft x p i k) (crossUpLeft (U.ctx x) (U.dep p) i k) ∧
    LinOps U.cur (crossDownRight x p i k) (crossDownRight (U.ctx x) (U.dep p) i k) ∧ LinOps U.cur (crossDownLeft x p i k) (crossDownLeft (U.ctx x) (U.dep p) i k) := by
  unfold crossUpRight crossUpLeft crossDownRight crossDownLeft
  dsimp only [dep]
  simp only [slope_units]
  refine ⟨?_, ?_, ?_, ?_⟩
  all_goals
    refine ite_units (lt_units (U := U) ?_ ?_) (fun _ => ?_) fun _ => ite_units (lt_units (U := U) ?_ ?_) (fun _ => ?_) fun _ => LinOps.nil
    all_goals first
      | refine ((simple_units x _ _ ?_ ?_ ?_ ?_ ?_).append (simple_units x _ _ ?_ ?_ ?_ ?_ ?_)).append (simple_units x _ _ ?_ ?_ ?_ ?_ ?_)
      | skip
    all_goals first
      | rfl
      | (simp only [ctx, geom]; ring)

theorem switch_units (x : Ctx ℝ) (p : VB.Part ℝ) (a b c d : Int) : LinOps U.cur (switchOps x p a b c d) (switchOps (U.ctx x) (U.dep p) a b c d) := by
  obtain ⟨h1, h2, h3, h4⟩ := diag_units (U := U) x p a b
  unfold switchOps
  dsimp only
  repeat' first
    | exact LinOps.nil
    | exact simple_units x _ _ rfl rfl rfl rfl rfl
    | exact crossR_units x p _ _
    | exact crossZ_units x p _ _
    | exact h1
    | exact h2
    | exact h3
    | exact h4
    | refine LinOps.ite ?_ ?_

theorem axial_units (x : Ctx ℝ) (a b c : ℝ) (i k l : Int) (q : ℝ) :
    LinOps U.cur (strictAxial x a b c i k l q) (strictAxial (U.ctx x) (U.len * a) (U.len * b) (U.len * c) i k l (U.load * q)) := by
  have L := U.len_ne
  have T := U.time_ne
  unfold strictAxial
  dsimp only
  have hv : 2 * (U.ctx x).pi * (U.len * a) * (U.ctx x).g.dr * (U.ctx x).g.dz = U.len ^ 3 * (2 * x.pi * a * x.g.dr * x.g.dz) := by simp only [ctx, geom]; ring
  have ring_ : ∀ {Q Q' d d' : ℝ}, d' = U.len ^ 2 * d → U.load * q / (U.time * U.len ^ 2 * Q) * x.pi * d' / (U.len ^ 3 * Q') = U.cur / U.len * (q / Q * x.pi * d / Q') := by
    intro Q Q' d d' hd
    refine quot_units (s := U.cur * U.len ^ 2) (t := U.len ^ 3) (pow_ne_zero 3 L) ?_ rfl (by field_simp)
    rw [hd, quot_units (a := q) (s := U.load) (b := Q) (t := U.time * U.len ^ 2) (u := U.cur) (mul_ne_zero T (pow_ne_zero 2 L)) rfl rfl (by unfold load; ring)]
    ring
  have lower : (if i = 0 then U.load * q / ((U.ctx x).dt * (U.ctx x).pi * (U.ctx x).g.dr * (U.ctx x).g.dr / 4) * (U.ctx x).pi * (((i : ℝ) + 1/2) * (U.ctx x).g.dr * (((i : ℝ) + 1/2) * (U.ctx x).g.dr) - (U.len * a - 1/2 * (U.ctx x).g.dr) * (U.len * a - 1/2 * (U.ctx x).g.dr)) / (2 * (U.ctx x).pi * (U.len * a) * (U.ctx x).g.dr * (U.ctx x).g.dz)
      else U.load * q / ((U.ctx x).dt * 2 * (U.ctx x).pi * (i : ℝ) * (U.ctx x).g.dr * (U.ctx x).g.dr) * (U.ctx x).pi * (((i : ℝ) + 1/2) * (U.ctx x).g.dr * (((i : ℝ) + 1/2) * (U.ctx x).g.dr) - (U.len * a - 1/2 * (U.ctx x).g.dr) * (U.len * a - 1/2 * (U.ctx x).g.dr)) / (2 * (U.ctx x).pi * (U.len * a) * (U.ctx x).g.dr * (U.ctx x).g.dz)) =
      U.cur / U.len * (if i = 0 then q / (x.dt * x.pi * x.g.dr * x.g.dr / 4) * x.pi * (((i : ℝ) + 1/2) * x.g.dr * (((i : ℝ) + 1/2) * x.g.dr) - (a - 1/2 * x.g.dr) * (a - 1/2 * x.g.dr)) / (2 * x.pi * a * x.g.dr * x.g.dz)
      else q / (x.dt * 2 * x.pi * (i : ℝ) * x.g.dr * x.g.dr) * x.pi * (((i : ℝ) + 1/2) * x.g.dr * (((i : ℝ) + 1/2) * x.g.dr) - (a - 1/2 * x.g.dr) * (a - 1/2 * x.g.dr)) / (2 * x.pi * a * x.g.dr * x.g.dz)) := by
    rw [hv]
    split
    · rw [show (U.ctx x).dt * (U.ctx x).pi * (U.ctx x).g.dr * (U.ctx x).g.dr / 4 = U.time * U.len ^ 2 * (x.dt * x.pi * x.g.dr * x.g.dr / 4) by simp only [ctx, geom]; ring]
      exact ring_ (by simp only [ctx, geom]; ring)
    · rw [show (U.ctx x).dt * 2 * (U.ctx x).pi * (i : ℝ) * (U.ctx x).g.dr * (U.ctx x).g.dr = U.time * U.len ^ 2 * (x.dt * 2 * x.pi * (i : ℝ) * x.g.dr * x.g.dr) by simp only [ctx, geom]; ring]
      exact ring_ (by simp only [ctx, geom]; ring)
  have upper : U.load * q / ((U.ctx x).dt * 2 * (U.ctx x).pi * ((i : ℝ) + 1) * (U.ctx x).g.dr * (U.ctx x).g.dr) * (U.ctx x).pi * ((U.len * a + 1/2 * (U.ctx x).g.dr) * (U.len * a + 1/2 * (U.ctx x).g.dr) - ((i : ℝ) + 1/2) * (U.ctx x).g.dr * (((i : ℝ) + 1/2) * (U.ctx x).g.dr)) / (2 * (U.ctx x).pi * (U.len * a) * (U.ctx x).g.dr * (U.ctx x).g.dz) =
      U.cur / U.len * (q / (x.dt * 2 * x.pi * ((i : ℝ) + 1) * x.g.dr * x.g.dr) * x.pi * ((a + 1/2 * x.g.dr) * (a + 1/2 * x.g.dr) - ((i : ℝ) + 1/2) * x.g.dr * (((i : ℝ) + 1/2) * x.g.dr)) / (2 * x.pi * a * x.g.dr * x.g.dz)) := by
    rw [hv, show (U.ctx x).dt * 2 * (U.ctx x).pi * ((i : ℝ) + 1) * (U.ctx x).g.dr * (U.ctx x).g.dr = U.time * U.len ^ 2 * (x.dt * 2 * x.pi * ((i : ℝ) + 1) * x.g.dr * x.g.dr) by simp only [ctx, geom]; ring]
    exact ring_ (by simp only [ctx, geom]; ring)
  have fin : ∀ {A B d b : ℝ}, B = U.len * b → U.cur / U.len * d * B = U.cur * (d * b) := by
    intro A B d b hB
    rw [hB]
    field_simp
  rw [lower, upper]
  refine LinOps.append ?_ ?_
  · repeat' refine LinOps.set ?_ (by decide) _ _ ?_
    · exact LinOps.nil
    all_goals rw [mul_zero]
  · refine LinOps.ite ?_ (LinOps.ite ?_ (LinOps.ite ?_ LinOps.nil))
    all_goals
      repeat' refine LinOps.inc ?_ (by decide) _ _ ?_
      · exact LinOps.nil
      all_goals
        refine fin (A := 0) ?_
        first
          | ring1
          | (simp only [ctx, geom]; ring1)

theorem bracket_units (dr r d f : ℝ) : radialBracket (U.len * dr) (U.len * r) (U.len * d) (U.len * f) = U.len * radialBracket dr r d f := by
  have L := U.len_ne
  unfold radialBracket
  rw [quot_units (s := U.len ^ 2) (t := U.len) (u := U.len) (a' := U.len * r * (U.len * r)) (b' := U.len * f + U.len * d) (a := r * r) (b := f + d) L (by ring) (by ring) (by ring),
    quot_units (s := U.len ^ 2) (t := U.len) (u := U.len) (a' := U.len * r * (U.len * r)) (b' := U.len * f) (a := r * r) (b := f) L (by ring) (by ring) (by ring),
    quot_units (s := U.len ^ 2) (t := U.len) (u := U.len) (a' := U.len * dr * (U.len * dr)) (b' := 4 * (U.len * f + U.len * d)) (a := dr * dr) (b := 4 * (f + d)) L (by ring) (by ring) (by ring),
    quot_units (s := U.len ^ 2) (t := U.len) (u := U.len) (a' := U.len * dr * (U.len * dr)) (b' := 4 * (U.len * f)) (a := dr * dr) (b := 4 * f) L (by ring) (by ring) (by ring)]
  ring

theorem radial_units (x : Ctx ℝ) (a b c : ℝ) (i k : Int) (q : ℝ) :
    LinOps U.cur (strictRadial x a b c i i k q) (strictRadial (U.ctx x) (U.len * a) (U.len * b) (U.len * c) i i k (U.load * q)) := by
  have L := U.len_ne
  unfold strictRadial
  dsimp only
  rw [if_pos (sub_self i), if_pos (sub_self i)]
  have w : densStrict (U.ctx x) (U.load * q) (((i : ℝ) + 1/2) * (U.ctx x).g.dr) * radialBracket (U.ctx x).g.dr (((i : ℝ) + 1/2) * (U.ctx x).g.dr) (U.len * a - U.len * c) (U.len * c) =
      U.cur / U.len * (densStrict x q (((i : ℝ) + 1/2) * x.g.dr) * radialBracket x.g.dr (((i : ℝ) + 1/2) * x.g.dr) (a - c) c) := by
    rw [show ((i : ℝ) + 1/2) * (U.ctx x).g.dr = U.len * (((i : ℝ) + 1/2) * x.g.dr) by simp only [ctx, geom]; ring, densStrict_units, ← mul_sub,
      show (U.ctx x).g.dr = U.len * x.g.dr from rfl, bracket_units]
    field_simp
  rw [w]
  repeat' refine LinOps.inc ?_ (by decide) _ _ ?_
  · exact LinOps.nil
  all_goals
    simp only [ctx, geom]
    field_simp

theorem azimuthal_units (x : Ctx ℝ) (p : VB.Part ℝ) : LinOps U.cur (azimuthalOps x p) (azimuthalOps (U.ctx x) (U.dep p)) := by
  have L := U.len_ne
  have T := U.time_ne
  unfold azimuthalOps
  dsimp only [dep]
  have ro : U.load * p.q / (2 * (U.ctx x).pi * (U.ctx x).g.dz * (U.ctx x).g.dr * ((U.len * p.r + U.len * p.rOld) / 2)) = U.cur * U.time / U.len * (p.q / (2 * x.pi * x.g.dz * x.g.dr * ((p.r + p.rOld) / 2))) := by
    refine quot_units (s := U.load) (t := U.len ^ 3) (pow_ne_zero 3 L) rfl (by simp only [ctx, geom]; ring) ?_
    unfold load
    field_simp
  rw [ro]
  have fin : ∀ {P R R' Z D V V' : ℝ} (d r s v : ℝ), R' = U.len * r → D = U.len * d → R = U.len * s → V = U.len ^ 3 * v →
      U.cur * U.time / U.len * P * cylRngVol (U.ctx x).pi D R R' / V * (U.vel * V') = U.cur * (P * cylRngVol x.pi d s r / v * V') := by
    intro P R R' Z D V V' d r s v h1 h2 h3 h4
    have : cylRngVol (U.ctx x).pi D R R' = U.len ^ 3 * cylRngVol x.pi d s r := by
      unfold cylRngVol
      rw [h1, h2, h3]
      simp only [ctx]
      ring
    rw [quot_units (s := U.cur * U.time * U.len ^ 2) (t := U.len ^ 3) (u := U.cur * U.time / U.len) (a := P * cylRngVol x.pi d s r) (b := v) (pow_ne_zero 3 L) ?_ h4 ?_]
    · unfold vel
      field_simp
    · rw [this]
      field_simp
    · field_simp
  repeat' refine LinOps.inc ?_ (by decide) _ _ ?_
  · exact LinOps.nil
  all_goals
    refine fin (Z := 0) _ _ _ _ ?_ ?_ ?_ ?_
    all_goals
      simp only [ctx, geom, cellVolume, cellVolumeNext]
      ring

/-- The particle has not moved purely radially from one cell into another. -/
def Even (x : Ctx ℝ) (p : VB.Part ℝ) : Prop := |p.z - p.zOld| < x.mnzl → |p.r - p.rOld| < x.mnzl ∨ ⌊p.r / x.g.dr⌋ = ⌊p.rOld / x.g.dr⌋

theorem resIte {c : Prop} {d1 d2 : Decidable c} {s : ℝ} {u u' w w' : Res (List (Op ℝ))} (h1 : ResRel (LinOps s) u u') (h2 : ResRel (LinOps s) w w') :
    ResRel (LinOps s) (@ite _ c d1 u w) (@ite _ c d2 u' w') := by
  by_cases e : c
  · rw [if_pos e, if_pos e]; exact h1
  · rw [if_neg e, if_neg e]; exact h2

theorem rz_units (x : Ctx ℝ) (p : VB.Part ℝ) (hp : Even x p) : ResRel (LinOps U.cur) (rzOps x p) (rzOps (U.ctx x) (U.dep p)) := by
  unfold rzOps
  have c1 : ∀ a, cellNumber (U.len * a) (U.ctx x).g.dr = cellNumber a x.g.dr := fun a => cellNumber_units a _
  have c2 : ∀ a, cellNumber (U.len * a) (U.ctx x).g.dz = cellNumber a x.g.dz := fun a => cellNumber_units a _
  have e1 : ∀ (a : ℝ) (i : Int), (U.len * a = ((i : ℝ) + 1) * (U.ctx x).g.dr) = (a = ((i : ℝ) + 1) * x.g.dr) := fun a i => propext (eq_units rfl (mul_left_comm _ _ _))
  have e2 : ∀ (a : ℝ) (i : Int), (U.len * a = ((i : ℝ) + 1) * (U.ctx x).g.dz) = (a = ((i : ℝ) + 1) * x.g.dz) := fun a i => propext (eq_units rfl (mul_left_comm _ _ _))
  have e3 : ∀ a b : ℝ, (|U.len * a - U.len * b| < (U.ctx x).mnzl) = (|a - b| < x.mnzl) := fun a b => propext (abs_units _ _ _)
  dsimp only [dep]
  rw [c1, c2]
  refine ResRel.rfl'.bind fun iO _ e => ResRel.rfl'.bind fun kO _ e' => ?_
  subst e e'
  simp only [e1, e2, e3]
  refine resIte ?_ (resIte ?_ ?_)
  · exact LinOps.nil
  · · unfold strictMotion
      rw [c1, c2, c1, c2]
      have cn : ∀ a d : ℝ, ResRel (fun i j => j = i ∧ i = ⌊a / d⌋) (cellNumber a d) (cellNumber a d) := by
        intro a d
        unfold cellNumber
        dsimp only
        split
        · exact ⟨rfl, rfl⟩
        · exact trivial
      refine (cn _ _).bind fun iN _ f1 => ResRel.rfl'.bind fun kN _ f2 => (cn _ _).bind fun iO _ f3 => ResRel.rfl'.bind fun kO _ f4 => ?_
      obtain ⟨rfl, f1⟩ := f1
      obtain ⟨rfl, f3⟩ := f3
      subst f2 f4
      show LinOps U.cur _ _
      simp only [e3]
      split_ifs with g1 g2 g3
      · exact LinOps.nil
      · exact axial_units x _ _ _ _ _ _ _
      · have := (hp g3).resolve_left g2
        rw [← f1, ← f3] at this
        subst this
        exact radial_units x _ _ _ _ _ _
      · exact LinOps.nil
  · exact switch_units x p _ _ _ _

theorem vb_units (x : Ctx ℝ) (ps : List (VB.Part ℝ)) (hp : ∀ p ∈ ps, Even x p) {m n : Mem ℝ} (h : U.Mems m n) :
    ResRel U.Mems (VB.currentDistribution x ps m) (VB.currentDistribution (U.ctx x) (ps.map U.dep) n) := by
  unfold VB.currentDistribution
  refine ResRel.bind (R := U.Mems) ?_ fun m n h => ?_
  · unfold azimuthal
    refine ResRel.loop ps (fun p _ m n h => ?_) (clear_units x.g h)
    exact runOps_units x.g (azimuthal_units x p) h
  · unfold rz
    refine ResRel.loop ps (fun p hq m n h => ?_) (clear_units x.g h)
    unfold rzParticle
    exact ResRel.bind (rz_units x p (hp p hq)) fun l l' H => runOps_units x.g H h

theorem domCtx_units (p : Yee.Par ℝ) (R Z : Nat) (e : Consts ℝ) (i j : Nat) : domCtx (U.par p) R Z (U.consts e) i j = U.ctx (domCtx p R Z e i j) := by
  unfold domCtx
  rw [domPar_units]
  rfl

theorem solveCurrent_units (p : Yee.Par ℝ) (R Z : Nat) (e : Consts ℝ) {ps qs : Nat → Nat → List (VB.Part ℝ)} (hq : ∀ i j, qs i j = (ps i j).map U.dep)
    (hp : ∀ i j, i < R → j < Z → ∀ a ∈ ps i j, Even (domCtx p R Z e i j) a) {M N : Solvers ℝ} (H : U.All M N) :
    ResRel U.All (solveCurrent VB.currentDistribution p R Z e ps M) (solveCurrent VB.currentDistribution (U.par p) R Z (U.consts e) qs N) := by
  have d : domPar (U.par p) R Z = fun i j => U.par (domPar p R Z i j) := by
    funext i j
    exact domPar_units p R Z i j
  unfold solveCurrent
  rw [d]
  refine (each_units R Z (fun i j m n hi hj h => ?_) H).bind fun M N H => ResRel.loop' _ (fun c _ M N H => overlayComp_units _ R Z c H) H
  rw [hq, domCtx_units]
  exact vb_units _ _ (hp i j hi hj) (reset_units _ h)

/-! ### Interpolation and push -/

theorem four_units {pi : ℝ} (g : Geom ℝ) {m n : Mem ℝ} (h : U.Mems m n) (c : Yee.Comp) (i k : Int) {r1 r2 r3 d1 d2 v1 v2 r1' r2' r3' d1' d2' v1' v2' : ℝ}
    (h1 : r1' = U.len * r1) (h2 : r2' = U.len * r2) (h3 : r3' = U.len * r3) (h4 : d1' = U.len * d1) (h5 : d2' = U.len * d2) (h6 : v1' = U.len ^ 3 * v1) (h7 : v2' = U.len ^ 3 * v2) :
    ResRel (fun a b => b = (U.comp c * a.1, U.comp c * a.2.1, U.comp c * a.2.2.1, U.comp c * a.2.2.2)) (Interp.four pi g m c i k r1 r2 r3 d1 d2 v1 v2)
      (Interp.four pi (U.geom g) n c i k r1' r2' r3' d1' d2' v1' v2') := by
  have L := U.len_ne
  have rd : ∀ i k, ResRel (fun a b => b = U.comp c * a) (Interp.rdG g m c i k) (Interp.rdG (U.geom g) n c i k) := by
    intro i k
    unfold Interp.rdG
    show ResRel _ _ (if insideG g i k then _ else _)
    split
    · exact h c i k
    · exact trivial
  have cy : ∀ d r s : ℝ, cylRngVol pi (U.len * d) (U.len * r) (U.len * s) = U.len ^ 3 * cylRngVol pi d r s := by
    intro d r s
    unfold cylRngVol
    ring
  have qt : ∀ a v w : ℝ, ResRel (fun a b => b = U.comp c * a) (Interp.quot (a * v) w) (Interp.quot (U.comp c * a * (U.len ^ 3 * v)) (U.len ^ 3 * w)) := by
    intro a v w
    unfold Interp.quot
    by_cases hw : w = 0
    · rw [if_pos hw, if_pos (by rw [hw, mul_zero])]; exact trivial
    · rw [if_neg hw, if_neg (mul_ne_zero (pow_ne_zero 3 L) hw)]
      show U.comp c * a * (U.len ^ 3 * v) / (U.len ^ 3 * w) = U.comp c * (a * v / w)
      field_simp
  subst h1 h2 h3 h4 h5 h6 h7
  unfold Interp.four
  simp only [cy]
  refine (rd _ _).bind fun a _ e => ?_
  subst e
  refine (qt _ _ _).bind fun a' _ e => ?_
  subst e
  refine (rd _ _).bind fun b _ e => ?_
  subst e
  refine (qt _ _ _).bind fun b' _ e => ?_
  subst e
  refine (rd _ _).bind fun d _ e => ?_
  subst e
  refine (qt _ _ _).bind fun d' _ e => ?_
  subst e
  refine (rd _ _).bind fun f _ e => ?_
  subst e
  refine (qt _ _ _).bind fun f' _ e => ?_
  subst e
  rfl

theorem field_units (pi : ℝ) (g : Geom ℝ) {m n : Mem ℝ} (h : U.Mems m n) (r z : ℝ) :
    ResRel (fun a b => b = a.smul U.ef) (Interp.getE pi g m r z) (Interp.getE pi (U.geom g) n (U.len * r) (U.len * z)) ∧
    ResRel (fun a b => b = a.smul U.hf) (Interp.getH pi g m r z) (Interp.getH pi (U.geom g) n (U.len * r) (U.len * z)) := by
  have c1 : ∀ a, cellNumber (U.len * a) (U.geom g).dr = cellNumber a g.dr := fun a => cellNumber_units a _
  have c2 : ∀ a, cellNumber (U.len * a) (U.geom g).dz = cellNumber a g.dz := fun a => cellNumber_units a _
  have s1 : ∀ a, U.len * a - 1/2 * (U.geom g).dr = U.len * (a - 1/2 * g.dr) := fun a => by unfold geom; ring
  have s2 : ∀ a, U.len * a - 1/2 * (U.geom g).dz = U.len * (a - 1/2 * g.dz) := fun a => by unfold geom; ring
  have hw : ∀ c, ResRel (fun a b => b = (U.comp c * a.1, U.comp c * a.2.1, U.comp c * a.2.2.1, U.comp c * a.2.2.2)) (Interp.halfWhole pi g m c r z)
      (Interp.halfWhole pi (U.geom g) n c (U.len * r) (U.len * z)) := by
    intro c
    unfold Interp.halfWhole
    rw [s1, c1, c2]
    refine ResRel.rfl'.bind fun i _ e => ResRel.rfl'.bind fun k _ e1 => ?_
    subst e e1
    refine four_units g h c _ _ ?_ ?_ ?_ ?_ ?_ ?_ ?_ <;> first | rfl | (unfold geom; ring1)
  have wh : ∀ c, ResRel (fun a b => b = (U.comp c * a.1, U.comp c * a.2.1, U.comp c * a.2.2.1, U.comp c * a.2.2.2)) (Interp.wholeHalf pi g m c r z)
      (Interp.wholeHalf pi (U.geom g) n c (U.len * r) (U.len * z)) := by
    intro c
    unfold Interp.wholeHalf
    rw [s1, s2, c1, c2]
    refine ResRel.rfl'.bind fun i _ e => ResRel.rfl'.bind fun k _ e1 => ?_
    subst e e1
    refine four_units g h c _ _ ?_ ?_ ?_ ?_ ?_ ?_ ?_ <;> first | rfl | (unfold geom; ring1)
  have hh : ∀ c, ResRel (fun a b => b = (U.comp c * a.1, U.comp c * a.2.1, U.comp c * a.2.2.1, U.comp c * a.2.2.2)) (Interp.halfHalf pi g m c r z)
      (Interp.halfHalf pi (U.geom g) n c (U.len * r) (U.len * z)) := by
    intro c
    unfold Interp.halfHalf
    rw [s1, s2, c1, c2]
    refine ResRel.rfl'.bind fun i _ e => ResRel.rfl'.bind fun k _ e1 => ?_
    subst e e1
    refine four_units g h c _ _ ?_ ?_ ?_ ?_ ?_ ?_ ?_ <;> first | rfl | (unfold geom; ring1)
  have ww : ∀ c, ResRel (fun a b => b = (U.comp c * a.1, U.comp c * a.2.1, U.comp c * a.2.2.1, U.comp c * a.2.2.2)) (Interp.wholeWhole pi g m c r z)
      (Interp.wholeWhole pi (U.geom g) n c (U.len * r) (U.len * z)) := by
    intro c
    unfold Interp.wholeWhole
    rw [s1, c1, c2]
    refine ResRel.rfl'.bind fun i _ e => ResRel.rfl'.bind fun k _ e1 => ?_
    subst e e1
    refine four_units g h c _ _ ?_ ?_ ?_ ?_ ?_ ?_ ?_ <;> first | rfl | (unfold geom; ring1)
  constructor
  · unfold Interp.getE
    refine (hw _).bind fun a _ e => (wh _).bind fun b _ e1 => (ww _).bind fun d _ e2 => ?_
    subst e e1 e2
    show _ = _
    unfold Interp.sum4 Vec3.smul comp
    dsimp only
    congr 1 <;> ring
  · unfold Interp.getH
    refine (hw _).bind fun a _ e => (wh _).bind fun b _ e1 => (hh _).bind fun d _ e2 => ?_
    subst e e1 e2
    show _ = _
    unfold Interp.sum4 Vec3.smul comp
    dsimp only
    congr 1 <;> ring

theorem rotate_smul (s : ℝ) (b v : Vec3 ℝ) : Pusher.rotate b (v.smul s) = (Pusher.rotate b v).smul s := by
  unfold Pusher.rotate Vec3.smul
  dsimp only
  congr 1 <;> ring

theorem add_smul' (s : ℝ) (v w : Vec3 ℝ) : (v.smul s).add (w.smul s) = (v.add w).smul s := by
  unfold Vec3.add Vec3.smul Vec3.zip
  dsimp only
  congr 1 <;> ring

theorem length_smul (s : ℝ) (v : Vec3 ℝ) : (v.smul s).length2 = s ^ 2 * v.length2 := by
  unfold Vec3.length2 Vec3.smul
  dsimp only
  ring

theorem smul_comm' (s t : ℝ) (v : Vec3 ℝ) : (v.smul s).smul t = (v.smul t).smul s := by
  unfold Vec3.smul
  dsimp only
  congr 1 <;> ring

theorem beta_units (c w : ℝ) : U.vel ^ 2 * w / (U.vel * c * (U.vel * c)) = w / (c * c) := by
  rw [show U.vel * c * (U.vel * c) = U.vel ^ 2 * (c * c) by ring, mul_div_mul_left _ _ (pow_ne_zero 2 U.vel_pos.ne')]

theorem factor_units (c w : ℝ) : Rel.lorenzFactor (U.vel * c) (U.vel ^ 2 * w) = Rel.lorenzFactor c w := by
  unfold Rel.lorenzFactor
  rw [beta_units]

theorem inv_units (c w : ℝ) : Rel.lorenzFactorInv (U.vel * c) (U.vel ^ 2 * w) = Rel.lorenzFactorInv c w := by
  unfold Rel.lorenzFactorInv
  rw [beta_units]

theorem k_units (P : Pusher.Par) : U.ef * (U.ppar P).k = U.vel * P.k := by
  unfold Pusher.Par.k ppar
  dsimp only
  have := U.len_ne; have := U.time_ne; have := U.ef_ne; have := U.q_ne
  rw [quot_units (a := P.charge * P.dt) (b := 2 * P.mass) (s := U.q * U.time) (t := U.mass) (u := U.vel / U.ef) ?_ (by ring) (by ring) ?_]
  · field_simp
  · unfold mass; positivity
  · unfold mass vel; field_simp

theorem kmu_units (P : Pusher.Par) : U.hf * ((U.ppar P).k * (U.ppar P).mu) = P.k * P.mu := by
  have e := k_units (U := U) P
  show U.hf * ((U.ppar P).k * (U.mu * P.mu)) = P.k * P.mu
  have h : U.hf * U.mu = U.ef / U.vel := by
    unfold hf mu vel
    have := U.len_ne; have := U.time_ne; have := U.eps_ne
    field_simp
  have v := U.vel_pos.ne'
  rw [show U.hf * ((U.ppar P).k * (U.mu * P.mu)) = U.hf * U.mu * (U.ppar P).k * P.mu by ring, h]
  rw [show U.ef / U.vel * (U.ppar P).k * P.mu = (U.ef * (U.ppar P).k) / U.vel * P.mu by ring, e]
  field_simp

/-- The pushers of Boris know no units. -/
theorem boris_units {kind : Pusher.Kind} (hk : kind = .boris ∨ kind = .borisRelativistic ∨ kind = .borisAdaptive) (P : Pusher.Par) (junk : Bool) (e b v : Vec3 ℝ) :
    ResRel (fun a a' => a' = a.smul U.vel) (Pusher.pushV kind P junk e b v) (Pusher.pushV kind (U.ppar P) junk (e.smul U.ef) (b.smul U.hf) (v.smul U.vel)) := by
  have k1 : (e.smul U.ef).smul (U.ppar P).k = (e.smul P.k).smul U.vel := by
    have := k_units (U := U) P
    unfold Vec3.smul
    dsimp only
    congr 1
    · linear_combination e.x * this
    · linear_combination e.y * this
    · linear_combination e.z * this
  have k2 : (b.smul U.hf).smul ((U.ppar P).k * (U.ppar P).mu) = b.smul (P.k * P.mu) := by
    have := kmu_units (U := U) P
    unfold Vec3.smul
    dsimp only
    congr 1
    · linear_combination b.x * this
    · linear_combination b.y * this
    · linear_combination b.z * this
  have classic : Pusher.borisClassic (U.ppar P) (e.smul U.ef) (b.smul U.hf) (v.smul U.vel) = (Pusher.borisClassic P e b v).smul U.vel := by
    unfold Pusher.borisClassic
    simp only [k1, k2, add_smul', rotate_smul]
  have rel : ResRel (fun a a' => a' = a.smul U.vel) (Pusher.borisRel P e b v) (Pusher.borisRel (U.ppar P) (e.smul U.ef) (b.smul U.hf) (v.smul U.vel)) := by
    unfold Pusher.borisRel
    simp only [k1, k2]
    rw [length_smul, show (U.ppar P).c = U.vel * P.c from rfl, factor_units]
    refine ResRel.rfl'.bind fun gamma _ e => ?_
    subst e
    show _ = _
    simp only [smul_comm' U.vel, add_smul', rotate_smul, length_smul, inv_units]
  rcases hk with rfl | rfl | rfl
  · exact classic
  · exact rel
  · unfold Pusher.pushV
    dsimp only
    unfold Pusher.borisAdaptive
    have : ((v.smul U.vel).x ^ 2 + (v.smul U.vel).y ^ 2 + (v.smul U.vel).z ^ 2 > (U.ppar P).lim) = (v.x ^ 2 + v.y ^ 2 + v.z ^ 2 > P.lim) := by
      unfold Vec3.smul
      show ((v.x * U.vel) ^ 2 + (v.y * U.vel) ^ 2 + (v.z * U.vel) ^ 2 > U.vel ^ 2 * P.lim) = _
      rw [show (v.x * U.vel) ^ 2 + (v.y * U.vel) ^ 2 + (v.z * U.vel) ^ 2 = U.vel ^ 2 * (v.x ^ 2 + v.y ^ 2 + v.z ^ 2) by ring]
      exact propext (mul_lt_mul_iff_right₀ (pow_pos U.vel_pos 2))
    dsimp only
    simp only [this]
    generalize (if v.x ^ 2 + v.y ^ 2 + v.z ^ 2 > P.lim then true else junk) = u
    cases u
    · exact classic
    · exact rel

/-! ### Movement -/

theorem move_units {dt : ℝ} (p : Part ℝ) : Part.move (U.time * dt) (Part.dumpOld (U.part p)) = U.part (Part.move dt (Part.dumpOld p)) := by
  have h : ∀ v : ℝ, U.vel * v * (U.time * dt) = U.len * (v * dt) := by
    intro v
    unfold vel
    have := U.time_ne
    field_simp
  unfold Part.move Part.dumpOld part
  dsimp only
  simp only [h, ← mul_add]

theorem backPos_units {p a : Part ℝ} (h : Part.backPos p = .ok a) : Part.backPos (U.part p) = .ok (U.part a) := by
  unfold Part.backPos at h ⊢
  dsimp only at h ⊢
  have e : Real.sqrt ((U.part p).posR * (U.part p).posR + (U.part p).posPhi * (U.part p).posPhi) = U.len * Real.sqrt (p.posR * p.posR + p.posPhi * p.posPhi) := by
    show Real.sqrt (U.len * p.posR * (U.len * p.posR) + U.len * p.posPhi * (U.len * p.posPhi)) = _
    rw [show U.len * p.posR * (U.len * p.posR) + U.len * p.posPhi * (U.len * p.posPhi) = U.len ^ 2 * (p.posR * p.posR + p.posPhi * p.posPhi) by ring,
      Real.sqrt_mul (by positivity), Real.sqrt_sq U.len_pos.le]
  rw [e]
  split at h
  · exact nomatch h
  · rename_i k
    rw [if_neg (mul_ne_zero U.len_ne k), ← Res.ok.inj h]
    unfold part
    dsimp only
    rw [mul_div_mul_left _ _ U.len_ne, mul_zero]

/-- What the reflection works on. -/
noncomputable def refl (U : Units) (s : Part.Refl ℝ) : Part.Refl ℝ := ⟨U.len * s.r, U.len * s.z, U.vel * s.vr, U.vel * s.vz⟩

theorem while_units {g : Geom ℝ} {w : Part.Walls} {s t : Part.Refl ℝ} (h : While (Part.reflCond g w) (Part.reflBody g w) s t) :
    While (Part.reflCond (U.geom g) w) (Part.reflBody (U.geom g) w) (U.refl s) (U.refl t) := by
  have L := U.len_ne
  have P := U.len_pos
  have n1 : (U.geom g).nr * (U.geom g).dr - (U.geom g).dr / 2 = U.len * (g.nr * g.dr - g.dr / 2) := by unfold geom; ring
  have n2 : (U.geom g).nz * (U.geom g).dz - (U.geom g).dz / 2 = U.len * (g.nz * g.dz - g.dz / 2) := by unfold geom; ring
  have n3 : (U.geom g).dr / 2 = U.len * (g.dr / 2) := by unfold geom; ring
  have n4 : (U.geom g).dz / 2 = U.len * (g.dz / 2) := by unfold geom; ring
  have c : ∀ s, Part.reflCond (U.geom g) w (U.refl s) = Part.reflCond g w s := by
    intro s
    unfold Part.reflCond
    rw [n1, n2, n3, n4]
    simp only [refl, mul_lt_mul_iff_right₀ P, ne_eq, mul_eq_zero, L, false_or]
  have b1 : ∀ s, Part.reflR1 (U.geom g) w (U.refl s) = U.refl (Part.reflR1 g w s) := by
    intro s
    unfold Part.reflR1
    rw [n1]
    simp only [refl, mul_lt_mul_iff_right₀ P]
    split
    · congr 1 <;> ring
    · rfl
  have b2 : ∀ s, Part.reflZ1 (U.geom g) w (U.refl s) = U.refl (Part.reflZ1 g w s) := by
    intro s
    unfold Part.reflZ1
    rw [n2]
    simp only [refl, mul_lt_mul_iff_right₀ P]
    split
    · congr 1 <;> ring
    · rfl
  have b3 : ∀ s, Part.reflR0 (U.geom g) w (U.refl s) = U.refl (Part.reflR0 g w s) := by
    intro s
    unfold Part.reflR0
    rw [n3, show (U.geom g).dr = U.len * g.dr from rfl]
    simp only [refl, ← mul_sub, mul_lt_mul_iff_right₀ P]
    split
    · dsimp only
      split
      · congr 1
        · ring
      · congr 1
        · ring
    · rfl
  have b4 : ∀ s, Part.reflZ0 (U.geom g) w (U.refl s) = U.refl (Part.reflZ0 g w s) := by
    intro s
    unfold Part.reflZ0
    rw [n4, show (U.geom g).dz = U.len * g.dz from rfl]
    simp only [refl, ← mul_sub, mul_lt_mul_iff_right₀ P]
    split
    · dsimp only
      split
      · congr 1
        · ring
      · congr 1
        · ring
    · rfl
  have b : ∀ s, Part.reflBody (U.geom g) w (U.refl s) = U.refl (Part.reflBody g w s) := by
    intro s
    unfold Part.reflBody
    rw [b1, b2, b3, b4]
  induction h with
  | done e => exact .done (by rw [c]; exact e)
  | step e _ ih => exact .step (by rw [c]; exact e) (by rw [b]; exact ih)

theorem reflect_units {g : Geom ℝ} {w : Part.Walls} {p q : Part ℝ} (h : Part.Reflect g w p q) : Part.Reflect (U.geom g) w (U.part p) (U.part q) := by
  obtain ⟨s, h, rfl⟩ := h
  refine ⟨U.refl s, ?_, ?_⟩
  · have := while_units (U := U) h
    have e : U.refl ⟨p.posR - g.r0 * g.dr, p.posZ - g.z0 * g.dz, p.velR, p.velZ⟩ =
        ⟨(U.part p).posR - (U.geom g).r0 * (U.geom g).dr, (U.part p).posZ - (U.geom g).z0 * (U.geom g).dz, (U.part p).velR, (U.part p).velZ⟩ := by
      unfold refl part geom
      dsimp only
      congr 1 <;> ring
    rw [e] at this
    exact this
  · unfold part refl geom
    dsimp only
    congr 1 <;> ring

theorem backVel_units (p : Part ℝ) : Part.backVel (U.part p) = U.part (Part.backVel p) := by
  unfold Part.backVel part
  dsimp only
  congr 1 <;> ring

theorem bind_units {g : Geom ℝ} {p q : Part ℝ} (h : Part.bindCell g p = .ok q) : Part.bindCell (U.geom g) (U.part p) = .ok (U.part q) := by
  unfold Part.bindCell at h ⊢
  have e1 : cellNumber (U.part p).posR (U.geom g).dr = cellNumber p.posR g.dr := cellNumber_units _ _
  have e2 : cellNumber (U.part p).posZ (U.geom g).dz = cellNumber p.posZ g.dz := cellNumber_units _ _
  obtain ⟨r, f1, h⟩ := Res.bind_ok h
  obtain ⟨z, f2, h⟩ := Res.bind_ok h
  rw [e1, e2, f1, f2, ← Res.ok.inj h]
  rfl

theorem advance_units {dt : ℝ} {g : Geom ℝ} {w : Part.Walls} {p q : Part ℝ} (h : Part.Advance dt g w p q) : Part.Advance (U.time * dt) (U.geom g) w (U.part p) (U.part q) := by
  obtain ⟨a, b, h1, h2, h3⟩ := h
  refine ⟨U.part a, U.part b, ?_, reflect_units h2, ?_⟩
  · rw [move_units]
    exact backPos_units h1
  · rw [backVel_units]
    exact bind_units h3

end Units
end Pic
end Pico
