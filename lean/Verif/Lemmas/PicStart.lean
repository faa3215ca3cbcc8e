import Verif.Spec.PicStart
import Verif.Lemmas.PicBeam

/-! The first step of a run. -/

set_option linter.unusedSimpArgs false
set_option linter.unusedVariables false
set_option linter.unusedSectionVars false

namespace Pico
namespace Interp

open Yee

variable {K : Type _} [Field K] [LinearOrder K] [IsStrictOrderedRing K] [FloorRing K]

/-- A position in the domain or less than a cell beyond its outer radius and its right end, not closer to the axis than half a cell. -/
structure Wide (g : Geom K) (r z : K) : Prop where
  half : g.dr / 2 ≤ r
  rlo : (g.r0 : K) * g.dr ≤ r
  rhi : r < ((g.r0 + g.nr + 1 : Nat) : K) * g.dr
  zlo : (g.z0 : K) * g.dz ≤ z
  zhi : z < ((g.z0 + g.nz + 1 : Nat) : K) * g.dz

/-- The fields can be read at such a position. -/
theorem wide_read {pi : K} (hpi : 0 < pi) {g : Geom K} (G : g.Good) {r z : K} (h : Wide g r z) (m : Mem K) :
    (∃ e, getE pi g m r z = .ok e) ∧ ∃ b, getH pi g m r z = .ok b := by
  have dr := G.dr
  have dz := G.dz
  obtain ⟨h1, h2, h3, h4, h5⟩ := h
  push_cast at h3 h5
  have a1 : (g.r0 : Int) ≤ ⌊r / g.dr⌋ ∧ ⌊r / g.dr⌋ < (g.r0 : Int) + g.nr + 1 := floor_range dr (by push_cast; exact h2) (by push_cast; exact h3)
  have a2 : (g.z0 : Int) ≤ ⌊z / g.dz⌋ ∧ ⌊z / g.dz⌋ < (g.z0 : Int) + g.nz + 1 := floor_range dz (by push_cast; exact h4) (by push_cast; exact h5)
  have a3 : (g.r0 : Int) - 1 ≤ ⌊(r - 1/2 * g.dr) / g.dr⌋ ∧ ⌊(r - 1/2 * g.dr) / g.dr⌋ < (g.r0 : Int) + g.nr + 1 :=
    floor_range dr (by push_cast; linarith) (by push_cast; linarith)
  have a4 : (g.z0 : Int) - 1 ≤ ⌊(z - 1/2 * g.dz) / g.dz⌋ ∧ ⌊(z - 1/2 * g.dz) / g.dz⌋ < (g.z0 : Int) + g.nz + 1 :=
    floor_range dz (by push_cast; linarith) (by push_cast; linarith)
  have i0 : 0 ≤ ⌊(r - 1/2 * g.dr) / g.dr⌋ := Int.floor_nonneg.mpr (div_nonneg (by linarith) dr.le)
  have e1 := floor_bounds dr r; have e2 := floor_bounds dz z
  have e3 := floor_bounds dr (r - 1/2 * g.dr); have e4 := floor_bounds dz (z - 1/2 * g.dz)
  have n := G.nr; have n' := G.nz
  have A00 : Around g 0 0 r z ⌊r / g.dr⌋ ⌊z / g.dz⌋ :=
    ⟨dr, dz, h1, by omega, le_rfl, by rw [add_zero]; exact e1.1, by rw [add_zero]; exact e1.2,
      by rw [add_zero]; exact e2.1, by rw [add_zero]; exact e2.2, by omega, by omega, by omega, by omega⟩
  have A10 : Around g (1/2) 0 r z ⌊(r - 1/2 * g.dr) / g.dr⌋ ⌊z / g.dz⌋ :=
    ⟨dr, dz, h1, i0, by norm_num, by linarith [e3.1], by linarith [e3.2],
      by rw [add_zero]; exact e2.1, by rw [add_zero]; exact e2.2, by omega, by omega, by omega, by omega⟩
  have A01 : Around g 0 (1/2) r z ⌊r / g.dr⌋ ⌊(z - 1/2 * g.dz) / g.dz⌋ :=
    ⟨dr, dz, h1, by omega, le_rfl, by rw [add_zero]; exact e1.1, by rw [add_zero]; exact e1.2,
      by linarith [e4.1], by linarith [e4.2], by omega, by omega, by omega, by omega⟩
  have A11 : Around g (1/2) (1/2) r z ⌊(r - 1/2 * g.dr) / g.dr⌋ ⌊(z - 1/2 * g.dz) / g.dz⌋ :=
    ⟨dr, dz, h1, i0, by norm_num, by linarith [e3.1], by linarith [e3.2],
      by linarith [e4.1], by linarith [e4.2], by omega, by omega, by omega, by omega⟩
  have q10 : ∀ c, ∃ q, halfWhole pi g m c r z = .ok q := by
    intro c
    unfold halfWhole
    rw [VB.cellNumber_eq rfl (by omega) (by omega), Res.ok_bind, VB.cellNumber_eq rfl (by omega) (by omega), Res.ok_bind,
      four_eq hpi A10 m c (by ring) (by ring) (by ring) (by ring) (by ring)]
    exact ⟨_, rfl⟩
  have q01 : ∀ c, ∃ q, wholeHalf pi g m c r z = .ok q := by
    intro c
    unfold wholeHalf
    rw [VB.cellNumber_eq rfl (by omega) (by omega), Res.ok_bind, VB.cellNumber_eq rfl (by omega) (by omega), Res.ok_bind,
      four_eq hpi A01 m c (by ring) (by ring) (by ring) (by ring) (by ring)]
    exact ⟨_, rfl⟩
  have q11 : ∀ c, ∃ q, halfHalf pi g m c r z = .ok q := by
    intro c
    unfold halfHalf
    rw [VB.cellNumber_eq rfl (by omega) (by omega), Res.ok_bind, VB.cellNumber_eq rfl (by omega) (by omega), Res.ok_bind,
      four_eq hpi A11 m c (by ring) (by ring) (by ring) (by ring) (by ring)]
    exact ⟨_, rfl⟩
  have q00 : ∀ c, ∃ q, wholeWhole pi g m c r z = .ok q := by
    intro c
    unfold wholeWhole
    rw [VB.cellNumber_eq rfl (by omega) (by omega), Res.ok_bind, VB.cellNumber_eq rfl (by omega) (by omega), Res.ok_bind,
      four_eq hpi A00 m c (by ring) (by ring) (by ring) (by ring) (by ring)]
    exact ⟨_, rfl⟩
  constructor
  · obtain ⟨x, ex⟩ := q10 .er
    obtain ⟨y, ey⟩ := q01 .ez
    obtain ⟨w, ew⟩ := q00 .ep
    unfold getE
    rw [ex, Res.ok_bind, ey, Res.ok_bind, ew, Res.ok_bind]
    exact ⟨_, rfl⟩
  · obtain ⟨x, ex⟩ := q10 .fz
    obtain ⟨y, ey⟩ := q01 .fr
    obtain ⟨w, ew⟩ := q11 .fp
    unfold getH
    rw [ex, Res.ok_bind, ey, Res.ok_bind, ew, Res.ok_bind]
    exact ⟨_, rfl⟩

end Interp

namespace Pic

open SMB Yee

/-- The same for a particle that starts up to half a cell beyond the domain. -/
theorem mir_dom2 {d x v : ℝ} {n lo h : Nat} (hd : 0 < d) (isLo isHi : Bool) (e0 : isLo = true → lo = 0) (e1 : isLo = false → 2 ≤ lo)
    (e2 : isHi = true → lo + h = n) (e3 : isHi = false → lo + h + 2 ≤ n) (h2 : 2 ≤ h) (x1 : (lo : ℝ) * d - d < x)
    (x2 : x < ((lo + h : Nat) : ℝ) * d + 3 / 2 * d) :
    Part.mirX isLo isHi d (h * d) (x - lo * d) + lo * d = Part.mirX true true d (n * d) x ∧
    Part.mirV isLo isHi d (h * d) (x - lo * d) v = Part.mirV true true d (n * d) x v := by
  push_cast at x2
  have hi : (h * d - d / 2 < x - lo * d && isHi) = (n * d - d / 2 < x && true) := by
    cases isHi with
    | true =>
      have e : (n : ℝ) = lo + h := by exact_mod_cast (e2 rfl).symm
      rw [Bool.and_true, Bool.and_true]
      refine decide_eq_decide.mpr ?_
      rw [e]
      constructor <;> intro k <;> linarith
    | false =>
      have e : (lo : ℝ) + h + 2 ≤ n := by exact_mod_cast e3 rfl
      rw [Bool.and_false, Bool.and_true]
      refine (decide_eq_false ?_).symm
      have := mul_le_mul_of_nonneg_right e hd.le
      intro k
      linarith
  have lo' : (x - lo * d < d / 2 && isLo) = (x < d / 2 && true) := by
    cases isLo with
    | true =>
      rw [e0 rfl]
      simp
    | false =>
      have e : (2 : ℝ) ≤ lo := by exact_mod_cast e1 rfl
      rw [Bool.and_false, Bool.and_true]
      refine (decide_eq_false ?_).symm
      have := mul_le_mul_of_nonneg_right e hd.le
      intro k
      linarith
  unfold Part.mirX Part.mirV
  rw [hi, lo']
  refine ⟨?_, rfl⟩
  by_cases c1 : (n * d - d / 2 < x && true) = true
  · rw [if_pos c1, if_pos c1]
    rw [← hi, Bool.and_eq_true] at c1
    have e : (n : ℝ) = lo + h := by exact_mod_cast (e2 c1.2).symm
    rw [e]
    ring
  · rw [if_neg c1, if_neg c1]
    by_cases c2 : (x < d / 2 && true) = true
    · rw [if_pos c2, if_pos c2]
      rw [← lo', Bool.and_eq_true] at c2
      have e : (lo : ℝ) = 0 := by exact_mod_cast e0 c2.2
      rw [e]
      ring
    · rw [if_neg c2, if_neg c2]
      ring

section
variable {E : Env} (h : Chamber E) {a : Part ℝ} {v : Vec3 ℝ}
include h

theorem near_wide {i j : Nat} (ha : Near E i j a) : Interp.Wide (E.geom i j) a.posR a.posZ := by
  have dr : 0 < E.p.dr := h.good.geo.dr
  have dz : 0 < E.p.dz := h.good.geo.dz
  have d2 := ha.rhi
  have d4 := ha.zhi
  rw [← low_hgt h h.div.r1 h.div.r2] at d2
  rw [← low_hgt h h.div.z1 h.div.z2] at d4
  rw [geom_eq h]
  refine ⟨ha.r1, ha.rlo, ?_, ha.zlo, ?_⟩
  · push_cast at d2 ⊢
    linarith
  · push_cast at d4 ⊢
    linarith

/-- Such a particle is in its place in some domain. -/
theorem near_place {i j : Nat} (ha : Near E i j a) : ∃ i' j', InPlace E i' j' a := by
  have dr : 0 < E.p.dr := h.good.geo.dr
  have dz : 0 < E.p.dz := h.good.geo.dz
  obtain ⟨p1, p2, _, _⟩ := floor_cells h (le_trans (by linarith) ha.r1) E.p.dr E.p.nr dr h.div.r3 ha.r2
  obtain ⟨q1, q2, _, _⟩ := floor_cells h (le_trans (by linarith) ha.z1) E.p.dz E.p.nz dz h.div.z3 ha.z2
  obtain ⟨i', hi', u1⟩ := owner h h.div.r1 h.div.r2 h.div.r4 p1 p2
  obtain ⟨j', hj', u2⟩ := owner h h.div.z1 h.div.z2 h.div.z4 q1 q2
  have o1 := (u1 i').mpr rfl
  have o2 := (u2 j').mpr rfl
  rw [← low_hgt h h.div.r1 h.div.r2] at o1
  rw [← low_hgt h h.div.z1 h.div.z2] at o2
  refine ⟨i', j', ha.phi, ?_, ha.r1, ha.r2, ha.z1, ha.z2, ha.slow, ha.cellR, ha.cellZ⟩
  rw [geom_eq h]
  refine ⟨?_, ?_, ?_, ?_⟩
  · have := Int.le_floor.mp o1.1
    rw [le_div_iff₀ dr] at this
    exact_mod_cast this
  · have := Int.floor_lt.mp o1.2
    rw [div_lt_iff₀ dr] at this
    exact_mod_cast this
  · have := Int.le_floor.mp o2.1
    rw [le_div_iff₀ dz] at this
    exact_mod_cast this
  · have := Int.floor_lt.mp o2.2
    rw [div_lt_iff₀ dz] at this
    exact_mod_cast this

theorem push_near (hk : Pusher.Relativistic E.kind) {i j : Nat} (hi : i < E.domR) (hj : j < E.domZ) {a : Part ℝ} (ha : Near E i j a)
    (id : Nat) (m : Mem ℝ) :
    ∃ v, (∀ junk, Pusher.push E.kind (E.pushPar id) junk E.e.pi (E.geom i j) m a.posR a.posZ (vel a) = .ok v) ∧ v.length2 < E.c ^ 2 := by
  obtain ⟨⟨x, c1⟩, y, c2⟩ := Interp.wide_read h.good.pi (geom_good h hi hj) (near_wide h ha) m
  have c1 : Interp.getE E.e.pi (E.geom i j) m a.posR a.posZ = _ := c1
  have c2 : Interp.getH E.e.pi (E.geom i j) m a.posR a.posZ = _ := c2
  obtain ⟨v, e1, e2⟩ := Pusher.C72_step E.kind hk (E.pushPar id) true h.c x y (vel a) ha.slow
  refine ⟨v, fun junk => ?_, e2⟩
  unfold Pusher.push
  rw [c1, Res.ok_bind, c2, Res.ok_bind]
  have : ∀ e b, Pusher.pushV E.kind (E.pushPar id) junk e b (vel a) = Pusher.pushV E.kind (E.pushPar id) true e b (vel a) := by
    intro e b
    rcases hk with k | k | k <;> rw [k] <;> rfl
  rw [this]
  exact e1

/-- A particle near its domain moves as it would move in the chamber. -/
theorem advance_near {i j i' j' : Nat} (hi : i < E.domR) (hj : j < E.domZ) (ha : Near E i j a) (hb : InPlace E i' j' a) (hv : v.length2 < E.c ^ 2)
    (hc : Clear E i j a v) (b : Part ℝ) :
    Part.Advance E.p.dt (E.geom i j) (E.walls i j) (setVel a v) b ↔ b = landed E a v := by
  have dr : 0 < E.p.dr := h.good.geo.dr
  have dz : 0 < E.p.dz := h.good.geo.dz
  have gr : 0 + E.p.nr < 2 ^ 31 := by have : E.p.r0 + E.p.nr < 2 ^ 31 := h.good.geo.nr; rwa [h.r0] at this
  have gz : 0 + E.p.nz < 2 ^ 31 := h.good.geo.nz
  obtain ⟨n1, n2⟩ := land_near h hb hv
  have m1 := abs_lt.mp n1
  have m2 := abs_lt.mp n2
  obtain ⟨⟨b1, b2, b3, b4, b5, b6⟩, c1, c2, c3, c4, c5, c6⟩ := h.div.bounds hi hj
  rw [geom_eq h]
  have d1 := ha.rlo
  have d2 := ha.rhi
  have d3 := ha.zlo
  have d4 := ha.zhi
  rw [← low_hgt h h.div.r1 h.div.r2] at d2
  rw [← low_hgt h h.div.z1 h.div.z2] at d4
  push_cast at d2 d4
  have q1 := ha.r2
  have q2 := ha.z2
  have g1 : (2 : ℝ) * E.p.dr ≤ (hgt E.p.nr E.domR i : ℝ) * E.p.dr := mul_le_mul_of_nonneg_right (by exact_mod_cast b1) dr.le
  have g2 : (2 : ℝ) * E.p.dz ≤ (hgt E.p.nz E.domZ j : ℝ) * E.p.dz := mul_le_mul_of_nonneg_right (by exact_mod_cast c1) dz.le
  have wr := mir_dom2 (d := E.p.dr) (x := landR E a v) (v := v.x) (n := E.p.nr) (lo := low E.p.nr E.domR i) (h := hgt E.p.nr E.domR i) dr
    (decide (i = 0)) (decide (i = E.domR - 1)) (fun k => b3 (of_decide_eq_true k)) (fun k => b4 (of_decide_eq_false k))
    (fun k => b5 (of_decide_eq_true k)) (fun k => b6 (of_decide_eq_false k)) b1 (by linarith) (by push_cast; linarith)
  have wz := mir_dom2 (d := E.p.dz) (x := landZ E a v) (v := v.z) (n := E.p.nz) (lo := low E.p.nz E.domZ j) (h := hgt E.p.nz E.domZ j) dz
    (decide (j = 0)) (decide (j = E.domZ - 1)) (fun k => c3 (of_decide_eq_true k)) (fun k => c4 (of_decide_eq_false k))
    (fun k => c5 (of_decide_eq_true k)) (fun k => c6 (of_decide_eq_false k)) c1 (by linarith) (by push_cast; linarith)
  have r0 : landR E a v ≠ 0 := by
    intro k
    by_cases i0 : i = 0
    · refine hc.1 ?_
      rw [k, b3 i0]
      simp
    · have : (2 : ℝ) ≤ low E.p.nr E.domR i := by exact_mod_cast b4 i0
      have := mul_le_mul_of_nonneg_right this dr.le
      linarith
  -- the position after the flight
  let q : Part ℝ := { setVel a v with
    oldR := a.posR, oldPhi := a.posPhi, oldZ := a.posZ, posR := landR E a v, posPhi := 0, posZ := landZ E a v
    sin := (a.posPhi + v.y * E.p.dt) / landR E a v }
  have back : Part.backPos ((setVel a v).dumpOld.move E.p.dt) = .ok q := by
    have e : Real.sqrt (((setVel a v).dumpOld.move E.p.dt).posR * ((setVel a v).dumpOld.move E.p.dt).posR +
        ((setVel a v).dumpOld.move E.p.dt).posPhi * ((setVel a v).dumpOld.move E.p.dt).posPhi) = landR E a v := by
      rw [← pow_two, ← pow_two]
      rfl
    unfold Part.backPos
    dsimp only
    rw [e, if_neg r0]
    rfl
  have top : ∀ {dom i : Nat}, decide (i = dom - 1) = true → i = dom - 1 := fun k => of_decide_eq_true k
  have lo1 : ∀ k : decide (i = 0) = true, -(E.p.dr / 2) ≤ landR E a v - low E.p.nr E.domR i * E.p.dr := by
    intro k
    have e : (low E.p.nr E.domR i : ℝ) = 0 := by exact_mod_cast b3 (of_decide_eq_true k)
    rw [e]
    have := ha.r1
    linarith
  have lo2 : ∀ k : decide (j = 0) = true, -(E.p.dz / 2) ≤ landZ E a v - low E.p.nz E.domZ j * E.p.dz := by
    intro k
    have e : (low E.p.nz E.domZ j : ℝ) = 0 := by exact_mod_cast c3 (of_decide_eq_true k)
    rw [e]
    have := ha.z1
    linarith
  have hi1 : ∀ k : decide (i = E.domR - 1) = true, landR E a v - low E.p.nr E.domR i * E.p.dr ≤ hgt E.p.nr E.domR i * E.p.dr + E.p.dr / 2 := by
    intro k
    have e : ((low E.p.nr E.domR i + hgt E.p.nr E.domR i : Nat) : ℝ) = E.p.nr := by exact_mod_cast b5 (of_decide_eq_true k)
    push_cast at e
    have e := congrArg (· * E.p.dr) e
    have e : ((low E.p.nr E.domR i : ℝ) + hgt E.p.nr E.domR i) * E.p.dr = E.p.nr * E.p.dr := e
    have := ha.r2
    linarith
  have hi2 : ∀ k : decide (j = E.domZ - 1) = true, landZ E a v - low E.p.nz E.domZ j * E.p.dz ≤ hgt E.p.nz E.domZ j * E.p.dz + E.p.dz / 2 := by
    intro k
    have e : ((low E.p.nz E.domZ j + hgt E.p.nz E.domZ j : Nat) : ℝ) = E.p.nz := by exact_mod_cast c5 (of_decide_eq_true k)
    push_cast at e
    have e := congrArg (· * E.p.dz) e
    have e : ((low E.p.nz E.domZ j : ℝ) + hgt E.p.nz E.domZ j) * E.p.dz = E.p.nz * E.p.dz := e
    have := ha.z2
    linarith
  have refl := fun b' => Part.reflect_iff (K := ℝ) ⟨E.p.dr, E.p.dz, low E.p.nr E.domR i, low E.p.nz E.domZ j, hgt E.p.nr E.domR i, hgt E.p.nz E.domZ j⟩
    (E.walls i j) q b' dr dz g1 g2 (sub_ne_zero.mpr hc.1) (sub_ne_zero.mpr hc.2) (by rw [walls_eq h]; exact lo1) (by rw [walls_eq h]; exact lo2)
    (by rw [walls_eq h]; exact hi1) (by rw [walls_eq h]; exact hi2)
  rw [walls_eq h] at refl ⊢
  dsimp only [q] at refl
  dsimp only [setVel] at refl
  rw [wr.1, wr.2, wz.1, wz.2] at refl
  obtain ⟨⟨s1, s2, _⟩, s3, s4, _⟩ := landed_range h hb hv
  obtain ⟨_, _, f1, _⟩ := floor_cells h (le_trans (by linarith) s1) E.p.dr E.p.nr dr (by omega) s2
  obtain ⟨_, _, f2, _⟩ := floor_cells h (le_trans (by linarith) s3) E.p.dz E.p.nz dz (by omega) s4
  let fin : Part ℝ := { q with
    posR := Part.mirX true true E.p.dr (E.p.nr * E.p.dr) (landR E a v)
    posZ := Part.mirX true true E.p.dz (E.p.nz * E.p.dz) (landZ E a v)
    velR := Part.mirV true true E.p.dr (E.p.nr * E.p.dr) (landR E a v) v.x
    velZ := Part.mirV true true E.p.dz (E.p.nz * E.p.dz) (landZ E a v) v.z }
  have bind : Part.bindCell (K := ℝ) ⟨E.p.dr, E.p.dz, low E.p.nr E.domR i, low E.p.nz E.domZ j, hgt E.p.nr E.domR i, hgt E.p.nz E.domZ j⟩
      (Part.backVel fin) = .ok (landed E a v) := by
    unfold Part.bindCell Part.backVel
    dsimp only
    show (cellNumber (landed E a v).posR E.p.dr >>= fun rCell => cellNumber (landed E a v).posZ E.p.dz >>= fun zCell => _) = _
    rw [f1, Res.ok_bind, f2, Res.ok_bind]
    rfl
  constructor
  · rintro ⟨a1, b1', h1, h2, h3⟩
    obtain rfl := Res.ok.inj (h1.symm.trans back)
    have := (refl b1').mp h2
    have : b1' = fin := this
    rw [this, bind] at h3
    exact (Res.ok.inj h3).symm
  · rintro rfl
    exact ⟨q, fin, back, (refl _).mpr rfl, bind⟩

/-- The hand-over after the move: nothing is lost, everything is in its place. -/
theorem handover_near {ids : List Nat} (nd : ids.Nodup) {S : State} (spec : ∀ i j, (S.D i j).map Sp.id = ids)
    (pl : ∀ i j, i < E.domR → j < E.domZ → ∀ sp ∈ S.D i j, ∀ o ∈ sp.parts, ∃ i' j', InPlace E i' j' (S.heap o.tag)) {heap : Nat → Part ℝ}
    (H : ∀ i j, i < E.domR → j < E.domZ → ∀ sp ∈ S.D i j, ∀ o ∈ sp.parts, ∃ v, v.length2 < E.c ^ 2 ∧ heap o.tag = landed E (S.heap o.tag) v) :
    ∃ D', collect (geoOf E.p E.domR E.domZ) (cellsOf heap S.D) = .ok D' ∧ (∀ i j, (D' i j).map Sp.id = ids) ∧
      (∀ id ∈ ids, (tagsOf E D' id).Perm (tagsOf E S.D id)) ∧
      ∀ i j, i < E.domR → j < E.domZ → ∀ sp ∈ D' i j, ∀ o ∈ sp.parts, InPlace E i j (heap o.tag) := by
  have g1 := h.div.r1
  have g2 := h.div.r2
  have g3 := h.div.z1
  have g4 := h.div.z2
  obtain ⟨D', e, k1, k2⟩ := C09_handover_partial (geoOf E.p E.domR E.domZ) (show 0 < E.p.nr by omega) (show 0 < E.p.nz by omega)
    h.div.r4 h.div.z4 ⟨h.r0, rfl⟩ ids nd (cellsOf heap S.D) (fun i j => by
      rw [← spec i j]
      unfold cellsOf
      rw [List.map_map]
      rfl)
  have cells : ∀ i j, i < E.domR → j < E.domZ → ∀ sp ∈ S.D i j, ∀ o ∈ sp.parts,
      (0 ≤ asInt (heap o.tag).cellR ∧ asInt (heap o.tag).cellR < E.p.nr ∧ asInt (heap o.tag).cellR = ⌊(heap o.tag).posR / E.p.dr⌋) ∧
      0 ≤ asInt (heap o.tag).cellZ ∧ asInt (heap o.tag).cellZ < E.p.nz ∧ asInt (heap o.tag).cellZ = ⌊(heap o.tag).posZ / E.p.dz⌋ := by
    intro i j hi hj sp hsp o ho
    obtain ⟨v, hv, e⟩ := H i j hi hj sp hsp o ho
    obtain ⟨_, _, ip⟩ := pl i j hi hj sp hsp o ho
    obtain ⟨⟨p1, p2, _, p4⟩, q1, q2, _, q4⟩ := landed_cells h ip hv
    rw [e, p4, q4]
    exact ⟨⟨p1, p2, rfl⟩, q1, q2, rfl⟩
  refine ⟨D', e, k1, ?_, ?_⟩
  · intro id hid
    let l : List Prt := (allDoms (geoOf E.p E.domR E.domZ)).flatMap fun q => SMB.parts (cellsOf heap S.D) q.1 q.2 id
    have tl : tagsOf E S.D id = l.map (·.tag) := by
      unfold tagsOf
      rw [List.map_flatMap]
      refine List.flatMap_congr fun q _ => ?_
      rw [parts_cells, List.map_map]
      rfl
    have own : ((allDoms (geoOf E.p E.domR E.domZ)).flatMap fun q => l.filter fun o => (domDims (geoOf E.p E.domR E.domZ) q.1 q.2).Owns o).Perm l := by
      refine split_perm _ (nodup_idx2 _ _ _ _) (fun q o => decide ((domDims (geoOf E.p E.domR E.domZ) q.1 q.2).Owns o)) l ?_
      intro b hb
      obtain ⟨q, hq, hb⟩ := List.mem_flatMap.mp hb
      obtain ⟨hi, hj⟩ := mem_allDoms.mp hq
      rw [parts_cells] at hb
      obtain ⟨o, ho, rfl⟩ := List.mem_map.mp hb
      obtain ⟨sp, hsp, _, ho⟩ := mem_parts.mp ho
      obtain ⟨⟨c1, c2, _⟩, c3, c4, _⟩ := cells q.1 q.2 hi hj sp hsp o ho
      obtain ⟨i', hi', u1⟩ := owner h h.div.r1 h.div.r2 h.div.r4 c1 c2
      obtain ⟨j', hj', u2⟩ := owner h h.div.z1 h.div.z2 h.div.z4 c3 c4
      refine ⟨(i', j'), mem_allDoms.mpr ⟨hi', hj'⟩, fun q' _ => ?_⟩
      rw [decide_eq_true_eq, dims_eq h]
      unfold CellDims.Owns
      dsimp only
      rw [u1, u2, Prod.ext_iff]
    rw [tl]
    refine List.Perm.trans ?_ (own.map _)
    unfold tagsOf
    rw [List.map_flatMap]
    refine List.Perm.flatMap_left _ fun q hq => List.Perm.map _ ?_
    obtain ⟨hi, hj⟩ := mem_allDoms.mp hq
    refine (k2 q.1 q.2 id hi hj hid).trans ?_
    rw [List.filter_flatMap]
  · intro i j hi hj sp hsp o ho
    have hid : sp.id ∈ ids := by rw [← k1 i j]; exact List.mem_map_of_mem hsp
    have m := (k2 i j sp.id hi hj hid).mem_iff.mp (mem_parts.mpr ⟨sp, hsp, rfl, ho⟩)
    obtain ⟨q, hq, m⟩ := List.mem_flatMap.mp m
    obtain ⟨m, own⟩ := List.mem_filter.mp m
    rw [decide_eq_true_eq, dims_eq h] at own
    rw [parts_cells] at m
    obtain ⟨o', ho', rfl⟩ := List.mem_map.mp m
    obtain ⟨sp', hsp', _, ho'⟩ := mem_parts.mp ho'
    obtain ⟨hi', hj'⟩ := mem_allDoms.mp hq
    obtain ⟨⟨_, _, c1⟩, _, _, c2⟩ := cells q.1 q.2 hi' hj' sp' hsp' o' ho'
    obtain ⟨v, hv, e⟩ := H q.1 q.2 hi' hj' sp' hsp' o' ho'
    unfold CellDims.Owns at own
    dsimp only at own ⊢
    rw [c1, c2, e] at own
    rw [e]
    obtain ⟨_, _, ip⟩ := pl q.1 q.2 hi' hj' sp' hsp' o' ho'
    refine landed_place h ip hv ?_ ?_
    · rw [low_hgt h h.div.r1 h.div.r2]; exact own.1
    · rw [low_hgt h h.div.z1 h.div.z2]; exact own.2

/-- What the first step does to a particle. -/
theorem moves_near (hk : Pusher.Relativistic E.kind) {ids : List Nat} {S : State} (A : Begun E ids S) (B : NoBorder E S) {M1 : Solvers ℝ}
    (e1 : solveMaxwell (domPar E.p E.domR E.domZ) E.domR E.domZ S.M = .ok M1) {i j : Nat} (hi : i < E.domR) (hj : j < E.domZ) {sp : Sp}
    (hsp : sp ∈ S.D i j) {o : Prt} (ho : o ∈ sp.parts) :
    ∃ v, (∀ junk, Pusher.push E.kind (E.pushPar sp.id) junk E.e.pi (E.geom i j) (M1 i j) (S.heap o.tag).posR (S.heap o.tag).posZ
        (vel (S.heap o.tag)) = .ok v) ∧ v.length2 < E.c ^ 2 ∧
      ∀ b, Moves E i j (M1 i j) sp.id (S.heap o.tag) b ↔ b = landed E (S.heap o.tag) v := by
  have ha := A.place i j hi hj sp hsp o ho
  obtain ⟨_, _, ip⟩ := near_place h ha
  obtain ⟨v, p1, p2⟩ := push_near h hk hi hj ha sp.id (M1 i j)
  refine ⟨v, p1, p2, fun b => ?_⟩
  have adv := advance_near h hi hj ha ip p2 (B M1 e1 i j hi hj sp hsp o ho true v (p1 true)) b
  constructor
  · rintro ⟨junk, v', e', ad⟩
    obtain rfl := Res.ok.inj ((p1 junk).symm.trans e')
    exact adv.mp ad
  · intro e
    exact ⟨true, v, p1 true, adv.mpr e⟩

/-- The first step. -/
theorem step_near (hk : Pusher.Relativistic E.kind) (hz : Sound E.dist) {ids : List Nat} (nd : ids.Nodup) {S : State}
    (A : Begun E ids S) (B : NoBorder E S) :
    ∃ S', (∀ T, Step E S T ↔ T = S') ∧ Alive E ids S' ∧ (∀ id ∈ ids, (tagsOf E S'.D id).Perm (tagsOf E S.D id)) ∧
      Housed E.p E.domR E.domZ E.e (depositsOf E S'.heap S'.D) := by
  obtain ⟨m, W⟩ := A.fields
  obtain ⟨M1, m1, e1, W1, keep⟩ := maxwell_ok E.p h.div W
  -- the particles
  have P : ∀ t, ∃ b, (∀ i j, i < E.domR → j < E.domZ → ∀ sp ∈ S.D i j, ∀ o ∈ sp.parts, o.tag = t →
      ∃ v, v.length2 < E.c ^ 2 ∧ b = landed E (S.heap o.tag) v ∧ ∀ b', Moves E i j (M1 i j) sp.id (S.heap o.tag) b' ↔ b' = b) ∧
      ((∀ i j, i < E.domR → j < E.domZ → ∀ sp ∈ S.D i j, ∀ o ∈ sp.parts, o.tag ≠ t) → b = S.heap t) := by
    intro t
    by_cases c : ∃ i j, i < E.domR ∧ j < E.domZ ∧ ∃ sp ∈ S.D i j, ∃ o ∈ sp.parts, o.tag = t
    · obtain ⟨i, j, hi, hj, sp, hsp, o, ho, rfl⟩ := c
      obtain ⟨v, p1, p2, p3⟩ := moves_near h hk A B e1 hi hj hsp ho
      refine ⟨landed E (S.heap o.tag) v, ?_, fun k => absurd rfl (k i j hi hj sp hsp o ho)⟩
      intro i' j' hi' hj' sp' hsp' o' ho' et
      obtain ⟨rfl, rfl, ei⟩ := once_place A.species A.once hi' hj' hi hj hsp' hsp ho' ho et
      exact ⟨v, p2, by rw [et], by rw [et, ei]; exact p3⟩
    · refine ⟨S.heap t, ?_, fun _ => rfl⟩
      intro i j hi hj sp hsp o ho et
      exact absurd ⟨i, j, hi, hj, sp, hsp, o, ho, et⟩ c
  choose heap hp hn using P
  obtain ⟨D', e2, k1, k2, k3⟩ := handover_near h nd A.species (fun i j hi hj sp hsp o ho => near_place h (A.place i j hi hj sp hsp o ho)) (heap := heap) (fun i j hi hj sp hsp o ho => by
    obtain ⟨v, a, b, _⟩ := hp o.tag i j hi hj sp hsp o ho rfl
    exact ⟨v, a, b⟩)
  -- what is deposited
  have housed : Housed E.p E.domR E.domZ E.e (depositsOf E heap D') := by
    intro a b ha hb q hq
    unfold depositsOf at hq
    obtain ⟨sp, hsp, hq⟩ := List.mem_flatMap.mp hq
    obtain ⟨o, ho, rfl⟩ := List.mem_map.mp hq
    have hid : sp.id ∈ ids := by rw [← k1 a b]; exact List.mem_map_of_mem hsp
    have t := (k2 sp.id hid).mem_iff.mp (mem_tags.mpr ⟨a, b, ha, hb, sp, hsp, rfl, o, ho, rfl⟩)
    obtain ⟨i', j', hi', hj', sp', hsp', _, o', ho', et⟩ := mem_tags.mp t
    obtain ⟨v, p1, p2, _⟩ := hp o.tag i' j' hi' hj' sp' hsp' o' ho' et
    have place := k3 a b ha hb sp hsp o ho
    rw [p2] at place ⊢
    obtain ⟨_, _, ip⟩ := near_place h (A.place i' j' hi' hj' sp' hsp' o' ho')
    exact deposit_ok h ip p1 place _
  obtain ⟨M', e3, kf⟩ := solve_sound hz E.p h.div E.e h.good _ housed M1
  refine ⟨⟨M', heap, D'⟩, ?_, ⟨k1, ?_, k3, m1, ?_⟩, k2, housed⟩
  · intro T
    constructor
    · rintro ⟨N1, f1, f2, f3, f4, f5⟩
      obtain rfl := Res.ok.inj (e1.symm.trans f1)
      have eh : T.heap = heap := by
        funext t
        by_cases c : ∃ i j, i < E.domR ∧ j < E.domZ ∧ ∃ sp ∈ S.D i j, ∃ o ∈ sp.parts, o.tag = t
        · obtain ⟨i, j, hi, hj, sp, hsp, o, ho, rfl⟩ := c
          obtain ⟨v, _, _, q⟩ := hp o.tag i j hi hj sp hsp o ho rfl
          exact (q _).mp (f2 i j hi hj sp hsp o ho)
        · have c' : ∀ i j, i < E.domR → j < E.domZ → ∀ sp ∈ S.D i j, ∀ o ∈ sp.parts, o.tag ≠ t :=
            fun i j hi hj sp hsp o ho et => c ⟨i, j, hi, hj, sp, hsp, o, ho, et⟩
          rw [f3 t c', hn t c']
      rw [eh] at f4 f5
      have eD := Res.ok.inj (f4.symm.trans e2)
      rw [eD] at f5
      have eM := Res.ok.inj (f5.symm.trans e3)
      cases T
      dsimp only at eh eD eM
      rw [eh, eD, eM]
    · rintro rfl
      refine ⟨M1, e1, ?_, fun t ht => hn t ht, e2, e3⟩
      intro i j hi hj sp hsp o ho
      obtain ⟨v, _, _, q⟩ := hp o.tag i j hi hj sp hsp o ho rfl
      exact (q _).mpr rfl
  · refine (List.Perm.nodup_iff ?_).mpr A.once
    exact List.Perm.flatMap_left _ fun id hid => k2 id hid
  · intro c hc i j x y ho
    have nj : c ≠ .jr ∧ c ≠ .jp ∧ c ≠ .jz := by
      refine ⟨?_, ?_, ?_⟩ <;> (rintro rfl; exact (nomatch hc))
    show (_ → M' i j c x y = _) ∧ (_ → M' i j c x y = 0)
    rw [kf i j c x y ho.1 ho.2.1 (by unfold isJ; tauto)]
    exact W1 c hc i j x y ho

end

end Pic
end Pico
