import Verif.Spec.PicBeam
import Verif.Lemmas.PicStep
import Verif.Props.Beam
import Verif.Props.Interp

/-! One step with beams. -/

set_option linter.unusedSimpArgs false
set_option linter.unusedVariables false
set_option linter.unusedSectionVars false

namespace Pico
namespace Interp

open Yee

variable {K : Type _} [Field K] [LinearOrder K] [IsStrictOrderedRing K] [FloorRing K]

/-- A position in the domain or less than a cell beyond its outer radius, not closer to the axis than half a cell. -/
structure Reach (g : Geom K) (r z : K) : Prop where
  half : g.dr / 2 ≤ r
  rlo : (g.r0 : K) * g.dr ≤ r
  rhi : r < ((g.r0 + g.nr + 1 : Nat) : K) * g.dr
  zlo : (g.z0 : K) * g.dz ≤ z
  zhi : z < ((g.z0 + g.nz : Nat) : K) * g.dz

/-- The fields can be read at such a position. -/
theorem reach_read {pi : K} (hpi : 0 < pi) {g : Geom K} (G : g.Good) {r z : K} (h : Reach g r z) (m : Mem K) :
    (∃ e, getE pi g m r z = .ok e) ∧ ∃ b, getH pi g m r z = .ok b := by
  have dr := G.dr
  have dz := G.dz
  obtain ⟨h1, h2, h3, h4, h5⟩ := h
  push_cast at h3 h5
  have a1 : (g.r0 : Int) ≤ ⌊r / g.dr⌋ ∧ ⌊r / g.dr⌋ < (g.r0 : Int) + g.nr + 1 := floor_range dr (by push_cast; exact h2) (by push_cast; exact h3)
  have a2 : (g.z0 : Int) ≤ ⌊z / g.dz⌋ ∧ ⌊z / g.dz⌋ < (g.z0 : Int) + g.nz := floor_range dz (by push_cast; exact h4) (by push_cast; exact h5)
  have a3 : (g.r0 : Int) - 1 ≤ ⌊(r - 1/2 * g.dr) / g.dr⌋ ∧ ⌊(r - 1/2 * g.dr) / g.dr⌋ < (g.r0 : Int) + g.nr + 1 :=
    floor_range dr (by push_cast; linarith) (by push_cast; linarith)
  have a4 : (g.z0 : Int) - 1 ≤ ⌊(z - 1/2 * g.dz) / g.dz⌋ ∧ ⌊(z - 1/2 * g.dz) / g.dz⌋ < (g.z0 : Int) + g.nz :=
    floor_range dz (by push_cast; linarith) (by push_cast; linarith)
  have i0 : 0 ≤ ⌊(r - 1/2 * g.dr) / g.dr⌋ := Int.floor_nonneg.mpr (div_nonneg (by linarith) dr.le)
  have e1 := floor_bounds dr r; have e2 := floor_bounds dz z
  have e3 := floor_bounds dr (r - 1/2 * g.dr); have e4 := floor_bounds dz (z - 1/2 * g.dz)
  have n := G.nr; have n' := G.nz
  have A00 : Around g 0 0 r z ⌊r / g.dr⌋ ⌊z / g.dz⌋ :=
    ⟨dr, dz, h1, by omega, le_rfl, by rw [add_zero]; exact e1.1, by rw [add_zero]; exact e1.2,
      by rw [add_zero]; exact e2.1, by rw [add_zero]; exact e2.2, by omega, by omega, by omega, by omega⟩
  have A10 : Around g (1/2) 0 r z ⌊(r - 1/2 * g.dr) / g.dr⌋ ⌊z / g.dz⌋ :=
    ⟨dr, dz, h1, i0, by norm_num, by linarith [e3.1], by linarith [e3.2],
      by rw [add_zero]; exact e2.1, by rw [add_zero]; exact e2.2, by omega, by omega, by omega, by omega⟩
  have A01 : Around g 0 (1/2) r z ⌊r / g.dr⌋ ⌊(z - 1/2 * g.dz) / g.dz⌋ :=
    ⟨dr, dz, h1, by omega, le_rfl, by rw [add_zero]; exact e1.1, by rw [add_zero]; exact e1.2,
      by linarith [e4.1], by linarith [e4.2], by omega, by omega, by omega, by omega⟩
  have A11 : Around g (1/2) (1/2) r z ⌊(r - 1/2 * g.dr) / g.dr⌋ ⌊(z - 1/2 * g.dz) / g.dz⌋ :=
    ⟨dr, dz, h1, i0, by norm_num, by linarith [e3.1], by linarith [e3.2],
      by linarith [e4.1], by linarith [e4.2], by omega, by omega, by omega, by omega⟩
  have q10 : ∀ c, ∃ q, halfWhole pi g m c r z = .ok q := by
    intro c
    unfold halfWhole
    rw [VB.cellNumber_eq rfl (by omega) (by omega), Res.ok_bind, VB.cellNumber_eq rfl (by omega) (by omega), Res.ok_bind,
      four_eq hpi A10 m c (by ring) (by ring) (by ring) (by ring) (by ring)]
    exact ⟨_, rfl⟩
  have q01 : ∀ c, ∃ q, wholeHalf pi g m c r z = .ok q := by
    intro c
    unfold wholeHalf
    rw [VB.cellNumber_eq rfl (by omega) (by omega), Res.ok_bind, VB.cellNumber_eq rfl (by omega) (by omega), Res.ok_bind,
      four_eq hpi A01 m c (by ring) (by ring) (by ring) (by ring) (by ring)]
    exact ⟨_, rfl⟩
  have q11 : ∀ c, ∃ q, halfHalf pi g m c r z = .ok q := by
    intro c
    unfold halfHalf
    rw [VB.cellNumber_eq rfl (by omega) (by omega), Res.ok_bind, VB.cellNumber_eq rfl (by omega) (by omega), Res.ok_bind,
      four_eq hpi A11 m c (by ring) (by ring) (by ring) (by ring) (by ring)]
    exact ⟨_, rfl⟩
  have q00 : ∀ c, ∃ q, wholeWhole pi g m c r z = .ok q := by
    intro c
    unfold wholeWhole
    rw [VB.cellNumber_eq rfl (by omega) (by omega), Res.ok_bind, VB.cellNumber_eq rfl (by omega) (by omega), Res.ok_bind,
      four_eq hpi A00 m c (by ring) (by ring) (by ring) (by ring) (by ring)]
    exact ⟨_, rfl⟩
  constructor
  · obtain ⟨x, ex⟩ := q10 .er
    obtain ⟨y, ey⟩ := q01 .ez
    obtain ⟨w, ew⟩ := q00 .ep
    unfold getE
    rw [ex, Res.ok_bind, ey, Res.ok_bind, ew, Res.ok_bind]
    exact ⟨_, rfl⟩
  · obtain ⟨x, ex⟩ := q10 .fz
    obtain ⟨y, ey⟩ := q01 .fr
    obtain ⟨w, ew⟩ := q11 .fp
    unfold getH
    rw [ex, Res.ok_bind, ey, Res.ok_bind, ew, Res.ok_bind]
    exact ⟨_, rfl⟩

end Interp

namespace Pic

open SMB Yee

/-- What a particle of a beam has to be before the flight. -/
structure Ready (E : Env) (i j : Nat) (a : Part ℝ) : Prop where
  phi : a.posPhi = 0
  reach : Interp.Reach (E.geom i j) a.posR a.posZ
  slow : (vel a).length2 < E.c ^ 2

/-- Where a particle of a beam ends that has got its new velocity. -/
noncomputable def beamLanded (E : Env) (a : Part ℝ) (v : Vec3 ℝ) : Part ℝ :=
  let x := landR E a v
  let s := (a.posPhi + v.y * E.p.dt) / x
  let r' := if x < E.p.dr / 2 then E.p.dr - x else x
  let vr := if x < E.p.dr / 2 then -v.x else v.x
  { posR := r', posPhi := 0, posZ := landZ E a v, oldR := a.posR, oldPhi := a.posPhi, oldZ := a.posZ
    velR := Real.sqrt (1 - s * s) * vr - s * v.y, velPhi := s * vr + Real.sqrt (1 - s * s) * v.y
    velZ := v.z, weight := a.weight, sin := s
    cellR := Part.toSizeT ⌊r' / E.p.dr⌋, cellZ := Part.toSizeT ⌊landZ E a v / E.p.dz⌋, mark := a.mark, specieId := a.specieId }

/-- A cell number comes back as it was. -/
theorem asInt_toSizeT {k : Int} (h1 : -2 ^ 31 ≤ k) (h2 : k < 2 ^ 31) : asInt (Part.toSizeT k) = k := by
  unfold asInt Part.toSizeT
  omega

section
variable {E : Env} (h : Chamber E)
include h

theorem ready_of_place {i j : Nat} {a : Part ℝ} (ha : BeamPlace E i j a) : Ready E i j a := by
  have dr : 0 < E.p.dr := h.good.geo.dr
  obtain ⟨d1, d2, d3, d4⟩ := ha.dom
  refine ⟨ha.phi, ⟨?_, d1, ?_, d3, d4⟩, ha.slow⟩
  · rw [geom_eq h]; exact ha.r1
  · rw [geom_eq h] at d2 ⊢
    push_cast at d2 ⊢
    linarith

theorem ready_push (hk : Pusher.Relativistic E.kind) {i j : Nat} (hi : i < E.domR) (hj : j < E.domZ) {a : Part ℝ} (ha : Ready E i j a)
    (id : Nat) (m : Mem ℝ) :
    ∃ v, (∀ junk, Pusher.push E.kind (E.pushPar id) junk E.e.pi (E.geom i j) m a.posR a.posZ (vel a) = .ok v) ∧ v.length2 < E.c ^ 2 := by
  obtain ⟨⟨x, c1⟩, y, c2⟩ := Interp.reach_read h.good.pi (geom_good h hi hj) ha.reach m
  have c1 : Interp.getE E.e.pi (E.geom i j) m a.posR a.posZ = _ := c1
  have c2 : Interp.getH E.e.pi (E.geom i j) m a.posR a.posZ = _ := c2
  obtain ⟨v, e1, e2⟩ := Pusher.C72_step E.kind hk (E.pushPar id) true h.c x y (vel a) ha.slow
  refine ⟨v, fun junk => ?_, e2⟩
  unfold Pusher.push
  rw [c1, Res.ok_bind, c2, Res.ok_bind]
  have : ∀ e b, Pusher.pushV E.kind (E.pushPar id) junk e b (vel a) = Pusher.pushV E.kind (E.pushPar id) true e b (vel a) := by
    intro e b
    rcases hk with k | k | k <;> rw [k] <;> rfl
  rw [this]
  exact e1

theorem ready_near {i j : Nat} {a : Part ℝ} {v : Vec3 ℝ} (ha : Ready E i j a) (hv : v.length2 < E.c ^ 2) :
    |landR E a v - a.posR| < E.p.dr ∧ |landZ E a v - a.posZ| < E.p.dz := by
  have dt : 0 < E.p.dt := h.good.dt
  have dr : 0 < E.p.dr := h.good.geo.dr
  have dz : 0 < E.p.dz := h.good.geo.dz
  have half : E.p.dr / 2 ≤ a.posR := by have := ha.reach.half; rwa [geom_eq h] at this
  unfold Vec3.length2 at hv
  have c := h.c
  have ct : 0 < E.c * E.p.dt := mul_pos c dt
  have sq : (v.x * E.p.dt) ^ 2 + (v.y * E.p.dt) ^ 2 + (v.z * E.p.dt) ^ 2 < (E.c * E.p.dt) ^ 2 := by
    have := mul_lt_mul_of_pos_right hv (pow_pos dt 2)
    nlinarith
  constructor
  · unfold landR
    rw [ha.phi, zero_add]
    refine lt_of_lt_of_le (radius_change (by linarith) ct.le ?_) h.cr
    nlinarith [sq_nonneg (v.z * E.p.dt)]
  · unfold landZ
    rw [add_sub_cancel_left]
    refine lt_of_lt_of_le (abs_lt_of_sq_lt_sq ?_ ct.le) h.cz
    nlinarith [sq_nonneg (v.x * E.p.dt), sq_nonneg (v.y * E.p.dt)]

/-- Where a particle of a beam may arrive. -/
theorem beam_range {i j : Nat} (hi : i < E.domR) (hj : j < E.domZ) {a : Part ℝ} {v : Vec3 ℝ} (ha : Ready E i j a) (hv : v.length2 < E.c ^ 2) :
    E.p.dr / 2 ≤ (beamLanded E a v).posR ∧ |(beamLanded E a v).posR - a.posR| < E.p.dr ∧ |(beamLanded E a v).posZ - a.posZ| < E.p.dz ∧
    (0 ≤ ⌊(beamLanded E a v).posR / E.p.dr⌋ ∧ ⌊(beamLanded E a v).posR / E.p.dr⌋ < (E.p.nr : Int) + 2) ∧
    (-1 ≤ ⌊(beamLanded E a v).posZ / E.p.dz⌋ ∧ ⌊(beamLanded E a v).posZ / E.p.dz⌋ < (E.p.nz : Int) + 1) := by
  have dr : 0 < E.p.dr := h.good.geo.dr
  have dz : 0 < E.p.dz := h.good.geo.dz
  obtain ⟨n1, n2⟩ := ready_near h ha hv
  have m1 := abs_lt.mp n1
  have m2 := abs_lt.mp n2
  obtain ⟨⟨b1, b2, b3, b4, b5, b6⟩, c1, c2, c3, c4, c5, c6⟩ := h.div.bounds hi hj
  obtain ⟨q1, q2, q3, q4, q5⟩ := ha.reach
  rw [geom_eq h] at q1 q2 q3 q4 q5
  dsimp only at q1 q2 q3 q4 q5
  have x0 : 0 ≤ landR E a v := Real.sqrt_nonneg _
  have top1 : ((low E.p.nr E.domR i + hgt E.p.nr E.domR i + 1 : Nat) : ℝ) * E.p.dr ≤ ((E.p.nr : ℝ) + 1) * E.p.dr := by
    refine mul_le_mul_of_nonneg_right ?_ dr.le
    have : low E.p.nr E.domR i + hgt E.p.nr E.domR i + 1 ≤ E.p.nr + 1 := by
      by_cases k : i = E.domR - 1
      · have := b5 k; omega
      · have := b6 k; omega
    exact_mod_cast this
  have top2 : ((low E.p.nz E.domZ j + hgt E.p.nz E.domZ j : Nat) : ℝ) * E.p.dz ≤ (E.p.nz : ℝ) * E.p.dz := by
    refine mul_le_mul_of_nonneg_right ?_ dz.le
    have : low E.p.nz E.domZ j + hgt E.p.nz E.domZ j ≤ E.p.nz := by
      by_cases k : j = E.domZ - 1
      · have := c5 k; omega
      · have := c6 k; omega
    exact_mod_cast this
  have z0 : 0 ≤ a.posZ := le_trans (mul_nonneg (Nat.cast_nonneg _) dz.le) q4
  have er : (beamLanded E a v).posR = if landR E a v < E.p.dr / 2 then E.p.dr - landR E a v else landR E a v := rfl
  have ez : (beamLanded E a v).posZ = landZ E a v := rfl
  have r1 : E.p.dr / 2 ≤ (beamLanded E a v).posR := by
    rw [er]; split <;> linarith
  have r2 : |(beamLanded E a v).posR - a.posR| < E.p.dr := by
    rw [er]
    split
    · rw [abs_lt]; constructor <;> linarith
    · exact n1
  refine ⟨r1, r2, by rw [ez]; exact n2, Interp.floor_range dr (by push_cast; linarith) ?_, Interp.floor_range dz ?_ ?_⟩
  · push_cast
    have := (abs_lt.mp r2).2
    linarith
  · push_cast
    rw [ez]
    linarith
  · push_cast
    rw [ez]
    linarith

/-- The flight of a particle of a beam. -/
theorem beam_iff (big : E.p.nr + 2 ≤ 2 ^ 31) {i j : Nat} (hi : i < E.domR) (hj : j < E.domZ) {a : Part ℝ} {v : Vec3 ℝ} (ha : Ready E i j a) (hv : v.length2 < E.c ^ 2)
    (hc : landR E a v ≠ 0) (b : Part ℝ) :
    BeamAdvance E.p.dt (E.geom i j) (E.walls i j) (setVel a v) b ↔ b = beamLanded E a v := by
  have dr : 0 < E.p.dr := h.good.geo.dr
  have dz : 0 < E.p.dz := h.good.geo.dz
  have gr := h.div.r3
  have gz := h.div.z3
  obtain ⟨r1, _, _, ⟨k1, k2⟩, k3, k4⟩ := beam_range h hi hj ha hv
  obtain ⟨n1, n2⟩ := ready_near h ha hv
  have m1 := abs_lt.mp n1
  obtain ⟨⟨b1, b2, b3, b4, b5, b6⟩, _⟩ := h.div.bounds hi hj
  have q2 := ha.reach.rlo
  rw [geom_eq h] at q2
  dsimp only at q2
  let q : Part ℝ := { setVel a v with
    oldR := a.posR, oldPhi := a.posPhi, oldZ := a.posZ, posR := landR E a v, posPhi := 0, posZ := landZ E a v
    sin := (a.posPhi + v.y * E.p.dt) / landR E a v }
  have back : Part.backPos ((setVel a v).dumpOld.move E.p.dt) = .ok q := by
    have e : Real.sqrt (((setVel a v).dumpOld.move E.p.dt).posR * ((setVel a v).dumpOld.move E.p.dt).posR +
        ((setVel a v).dumpOld.move E.p.dt).posPhi * ((setVel a v).dumpOld.move E.p.dt).posPhi) = landR E a v := by
      rw [← pow_two, ← pow_two]
      rfl
    unfold Part.backPos
    dsimp only
    rw [e, if_neg hc]
    rfl
  let fin : Part ℝ := { q with
    posR := if landR E a v < E.p.dr / 2 then E.p.dr - landR E a v else landR E a v
    velR := if landR E a v < E.p.dr / 2 then -v.x else v.x }
  have refl : Part.beamReflect (E.geom i j) (E.walls i j) q = fin := by
    unfold Part.beamReflect
    rw [geom_eq h, walls_eq h]
    dsimp only
    by_cases i0 : i = 0
    · have l0 : (low E.p.nr E.domR i : ℝ) = 0 := by exact_mod_cast b3 i0
      rw [l0, zero_mul, sub_zero, add_zero, decide_eq_true i0, Bool.and_true]
      by_cases c : landR E a v < E.p.dr / 2
      · rw [if_pos (decide_eq_true c)]
        dsimp only [fin]
        rw [if_pos c, if_pos c]
        rfl
      · rw [if_neg (by rw [decide_eq_true_eq]; exact c)]
        dsimp only [fin]
        rw [if_neg c, if_neg c]
        rfl
    · rw [decide_eq_false i0, Bool.and_false, if_neg (by decide)]
      have : (2 : ℝ) ≤ low E.p.nr E.domR i := by exact_mod_cast b4 i0
      have := mul_le_mul_of_nonneg_right this dr.le
      have c : ¬ landR E a v < E.p.dr / 2 := by intro k; linarith
      dsimp only [fin]
      rw [if_neg c, if_neg c]
      rfl
  have bind : Part.bindCell (E.geom i j) (Part.backVel fin) = .ok (beamLanded E a v) := by
    unfold Part.bindCell Part.backVel
    rw [geom_eq h]
    dsimp only
    show (cellNumber (beamLanded E a v).posR E.p.dr >>= fun rCell => cellNumber (beamLanded E a v).posZ E.p.dz >>= fun zCell => _) = _
    rw [VB.cellNumber_eq rfl (by omega) (by omega), Res.ok_bind, VB.cellNumber_eq rfl (by omega) (by omega), Res.ok_bind]
    rfl
  constructor
  · rintro ⟨a1, e1, e2⟩
    obtain rfl := Res.ok.inj (e1.symm.trans back)
    rw [refl, bind] at e2
    exact (Res.ok.inj e2).symm
  · rintro rfl
    exact ⟨q, back, by rw [refl, bind]⟩

theorem beam_cells (big : E.p.nr + 2 ≤ 2 ^ 31) {i j : Nat} (hi : i < E.domR) (hj : j < E.domZ) {a : Part ℝ} {v : Vec3 ℝ} (ha : Ready E i j a) (hv : v.length2 < E.c ^ 2) :
    asInt (beamLanded E a v).cellR = ⌊(beamLanded E a v).posR / E.p.dr⌋ ∧ asInt (beamLanded E a v).cellZ = ⌊(beamLanded E a v).posZ / E.p.dz⌋ := by
  have gr := h.div.r3
  have gz := h.div.z3
  obtain ⟨_, _, _, ⟨k1, k2⟩, k3, k4⟩ := beam_range h hi hj ha hv
  have e1 : asInt (Part.toSizeT ⌊(beamLanded E a v).posR / E.p.dr⌋) = _ := asInt_toSizeT (by omega) (by omega)
  have e2 : asInt (Part.toSizeT ⌊(beamLanded E a v).posZ / E.p.dz⌋) = _ := asInt_toSizeT (by omega) (by omega)
  exact ⟨e1, e2⟩

theorem beam_speed {a : Part ℝ} {v : Vec3 ℝ} : (vel (beamLanded E a v)).length2 = v.length2 := by
  have hs : ((a.posPhi + v.y * E.p.dt) / landR E a v) * ((a.posPhi + v.y * E.p.dt) / landR E a v) ≤ 1 := by
    by_cases c : landR E a v = 0
    · rw [c, div_zero]
      norm_num
    · have n : 0 ≤ (a.posR + v.x * E.p.dt) ^ 2 + (a.posPhi + v.y * E.p.dt) ^ 2 := by positivity
      have e : landR E a v ^ 2 = (a.posR + v.x * E.p.dt) ^ 2 + (a.posPhi + v.y * E.p.dt) ^ 2 := Real.sq_sqrt n
      have pos : 0 < landR E a v ^ 2 := by positivity
      rw [← pow_two, div_pow, div_le_one pos, e]
      nlinarith [sq_nonneg (a.posR + v.x * E.p.dt)]
  have m1 : (if landR E a v < E.p.dr / 2 then -v.x else v.x) ^ 2 = v.x ^ 2 := by split <;> ring
  unfold beamLanded vel Vec3.length2
  dsimp only
  generalize (a.posPhi + v.y * E.p.dt) / landR E a v = s at hs ⊢
  have q := Real.sq_sqrt (show 0 ≤ 1 - s * s by linarith)
  generalize Real.sqrt (1 - s * s) = t at q ⊢
  generalize (if landR E a v < E.p.dr / 2 then -v.x else v.x) = vr at m1 ⊢
  linear_combination (vr ^ 2 + v.y ^ 2) * q + m1

end

end Pic
end Pico
