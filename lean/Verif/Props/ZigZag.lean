import Verif.Lemmas.CurrentZigZag
import Verif.Spec.Current
import Mathlib.Algebra.Order.Ring.Rat
import Mathlib.Data.Rat.Floor
import Mathlib.Tactic.NormNum

/-! Properties of the ZigZag current deposition. -/

set_option linter.unusedSectionVars false
set_option linter.unusedSimpArgs false

namespace Pico
namespace ZigZag

open Yee VB

variable {K : Type _} [Field K] [LinearOrder K] [IsStrictOrderedRing K] [FloorRing K]

/-- Volume of the ring of cells in which the middle of the path lies. -/
def midVolume (x : Ctx K) (p : Part K) : K :=
  let i : Int := ⌊(p.r + p.rOld) / 2 / x.g.dr⌋
  x.pi * ((((i : K) + 1) * x.g.dr) ^ 2 - ((i : K) * x.g.dr) ^ 2) * x.g.dz

theorem midVolume_eq (x : Ctx K) (p : Part K) :
    cellVolume x.pi (⌊(p.r + p.rOld) / 2 / x.g.dr⌋ : K) x.g.dr x.g.dz = midVolume x p := by
  unfold cellVolume midVolume
  dsimp only
  ring

/-- Fraction that goes to the far node in the code, second piece of the path, radial direction. -/
def shareR2 (x : Ctx K) (p : Part K) : K :=
  (p.r + relayPoint ⌊p.rOld / x.g.dr⌋ ⌊p.r / x.g.dr⌋ p.rOld p.r x.g.dr) / 2 - (⌊p.r / x.g.dr⌋ : K) * x.g.dr
def shareZ1 (x : Ctx K) (p : Part K) : K :=
  (p.zOld + relayPoint ⌊p.zOld / x.g.dz⌋ ⌊p.z / x.g.dz⌋ p.zOld p.z x.g.dz) / 2 - (⌊p.zOld / x.g.dz⌋ : K) * x.g.dz
def shareZ2 (x : Ctx K) (p : Part K) : K :=
  (p.z + relayPoint ⌊p.zOld / x.g.dz⌋ ⌊p.z / x.g.dz⌋ p.zOld p.z x.g.dz) / 2 - (⌊p.z / x.g.dz⌋ : K) * x.g.dz

theorem near_cells (x : Ctx K) (hx : x.Good) (p : Part K) (hb : p.Bound x.g) (hn : p.NearCell x.g) :
    particleOps x p = .ok (cellOps x p ⌊p.r / x.g.dr⌋ ⌊p.rOld / x.g.dr⌋ ⌊p.z / x.g.dz⌋ ⌊p.zOld / x.g.dz⌋
      ⌊(p.r + p.rOld) / 2 / x.g.dr⌋) ∧
    ∀ o ∈ cellOps x p ⌊p.r / x.g.dr⌋ ⌊p.rOld / x.g.dr⌋ ⌊p.z / x.g.dz⌋ ⌊p.zOld / x.g.dz⌋
      ⌊(p.r + p.rOld) / 2 / x.g.dr⌋, o.Inc x.g := by
  obtain ⟨b1, b2, ⟨b3, b4⟩, b5, b6⟩ := bound_cells hx.geo hb
  obtain ⟨⟨n1, n2⟩, n3, n4⟩ := hn
  have s1 := hx.geo.nr
  have s2 := hx.geo.nz
  have dr := hx.geo.dr
  have m1 : 0 ≤ ⌊(p.r + p.rOld) / 2 / x.g.dr⌋ :=
    Int.floor_nonneg.mpr (div_nonneg (by linarith [hb.rpos, hb.rOldPos]) dr.le)
  have m2 : ⌊(p.r + p.rOld) / 2 / x.g.dr⌋ ≤ ⌊p.r / x.g.dr⌋ + 1 := by
    obtain ⟨_, f2⟩ := floor_cell dr p.r
    obtain ⟨_, f4⟩ := floor_cell dr p.rOld
    have c : (⌊p.rOld / x.g.dr⌋ : K) ≤ ⌊p.r / x.g.dr⌋ + 1 := by
      have : ⌊p.rOld / x.g.dr⌋ ≤ ⌊p.r / x.g.dr⌋ + 1 := by omega
      exact_mod_cast this
    have : ⌊(p.r + p.rOld) / 2 / x.g.dr⌋ < ⌊p.r / x.g.dr⌋ + 2 := by
      rw [Int.floor_lt, div_lt_iff₀ dr]
      push_cast
      have : ((⌊p.rOld / x.g.dr⌋ : K) + 1) * x.g.dr ≤ (⌊p.r / x.g.dr⌋ + 2) * x.g.dr :=
        mul_le_mul_of_nonneg_right (by linarith) dr.le
      have : ((⌊p.r / x.g.dr⌋ : K) + 1) * x.g.dr ≤ (⌊p.r / x.g.dr⌋ + 2) * x.g.dr :=
        mul_le_mul_of_nonneg_right (by linarith) dr.le
      linarith
    omega
  constructor
  · unfold particleOps
    rw [cellNumber_eq rfl (by omega) (by omega), Res.ok_bind, cellNumber_eq rfl (by omega) (by omega), Res.ok_bind,
      cellNumber_eq rfl (by omega) (by omega), Res.ok_bind, cellNumber_eq rfl (by omega) (by omega), Res.ok_bind,
      cellNumber_eq rfl (by omega) (by omega), Res.ok_bind]
  · intro o ho
    unfold cellOps at ho
    dsimp only at ho
    simp only [List.mem_cons, List.not_mem_nil, or_false] at ho
    rcases ho with rfl | rfl | rfl | rfl | rfl | rfl | rfl | rfl | rfl | rfl | rfl | rfl <;>
      (unfold Op.Inc insideG; dsimp only; omega)

/-- Effect of one particle on the totals of the three components. -/
theorem C20_totals_partial (x : Ctx K) (hx : x.Good) (p : Part K) (hb : p.Bound x.g) (hn : p.NearCell x.g) (m : Mem K) :
    ∃ m', particle x p m = .ok m' ∧
      gridTotal x.g m' .jr = gridTotal x.g m .jr + p.q * ((p.r - p.rOld) / x.dt) / midVolume x p ∧
      gridTotal x.g m' .jz = gridTotal x.g m .jz + p.q * ((p.z - p.zOld) / x.dt) / midVolume x p ∧
      gridTotal x.g m' .jp = gridTotal x.g m .jp +
        p.q * p.vphi / midVolume x p * (1 + (1 - shareR2 x p) * (shareZ1 x p - shareZ2 x p)) := by
  obtain ⟨e, hi⟩ := near_cells x hx p hb hn
  obtain ⟨m', e1, v⟩ := runOps_inc x.g _ hi m
  refine ⟨m', ?_, ?_, ?_, ?_⟩
  · unfold particle; rw [e, Res.ok_bind]; exact e1
  all_goals
    rw [gridTotal_run x.g _ hi v]
    congr 1
    unfold cellOps
    dsimp only
    rw [midVolume_eq]
    simp only [List.map_cons, List.map_nil, List.sum_cons, List.sum_nil, part, reduceCtorEq, if_true, if_false,
      zero_add, add_zero]
    try unfold shareR2 shareZ1 shareZ2
    ring

/-- C20 fails for the azimuthal component: a particle that moves along the axis inside its cell deposits
a wrong azimuthal total unless all its current goes to the outer nodes. -/
theorem C20_phi_fails (x : Ctx K) (hx : x.Good) (p : Part K) (hb : p.Bound x.g) (hs : p.SameCell x.g)
    (hq : p.q ≠ 0) (hv : p.vphi ≠ 0) (hz : p.z ≠ p.zOld)
    (hr : (3 * p.r + p.rOld) / 4 - (⌊p.r / x.g.dr⌋ : K) * x.g.dr ≠ 1) (m : Mem K) :
    ∃ m', particle x p m = .ok m' ∧
      gridTotal x.g m' .jp ≠ gridTotal x.g m .jp + p.q * p.vphi / midVolume x p := by
  have hn : p.NearCell x.g := by obtain ⟨h1, h2⟩ := hs; unfold Part.NearCell; omega
  obtain ⟨m', e, _, _, h⟩ := C20_totals_partial x hx p hb hn m
  refine ⟨m', e, ?_⟩
  rw [h]
  intro c
  have vol : 0 < midVolume x p := by
    have i0 : 0 ≤ ⌊(p.r + p.rOld) / 2 / x.g.dr⌋ :=
      Int.floor_nonneg.mpr (div_nonneg (by linarith [hb.rpos, hb.rOldPos]) hx.geo.dr.le)
    have i0 : (0 : K) ≤ (⌊(p.r + p.rOld) / 2 / x.g.dr⌋ : K) := by exact_mod_cast i0
    rw [← midVolume_eq]
    unfold cellVolume
    have := hx.pi; have := hx.geo.dr; have := hx.geo.dz
    positivity
  have c := add_left_cancel c
  have c : (1 - shareR2 x p) * (shareZ1 x p - shareZ2 x p) = 0 := by
    have hne : p.q * p.vphi / midVolume x p ≠ 0 := div_ne_zero (mul_ne_zero hq hv) vol.ne'
    have := mul_left_cancel₀ hne (c.trans (mul_one _).symm)
    linarith
  have fr := floor_cell hx.geo.dr p.r
  have fro := floor_cell hx.geo.dr p.rOld
  have fz := floor_cell hx.geo.dz p.z
  have fzo := floor_cell hx.geo.dz p.zOld
  rw [hs.1] at fro
  rw [hs.2] at fzo
  unfold shareR2 shareZ1 shareZ2 at c
  rw [hs.1, hs.2, relay_same fro fr, relay_same fzo fz] at c
  rcases mul_eq_zero.mp c with c | c
  · apply hr; linarith
  · apply hz; linarith

/-- C20: the relay point lies between start and end; inside a cell it is the middle; when the cell changes
it is on the outer border of the lower of the two cells, which is the common border of neighbours. -/
theorem C20_relay (dx : K) (hd : 0 < dx) (x1 x2 : K) :
    let y := relayPoint ⌊x1 / dx⌋ ⌊x2 / dx⌋ x1 x2 dx
    (min x1 x2 ≤ y ∧ y ≤ max x1 x2) ∧
    (⌊x1 / dx⌋ = ⌊x2 / dx⌋ → y = (x1 + x2) / 2) ∧
    (⌊x1 / dx⌋ < ⌊x2 / dx⌋ → y = ((⌊x1 / dx⌋ : K) + 1) * dx) ∧
    (⌊x2 / dx⌋ < ⌊x1 / dx⌋ → y = ((⌊x2 / dx⌋ : K) + 1) * dx) := by
  intro y
  have f1 := floor_cell hd x1
  have f2 := floor_cell hd x2
  have same : ⌊x1 / dx⌋ = ⌊x2 / dx⌋ → y = (x1 + x2) / 2 := by
    intro h
    show relayPoint _ _ _ _ _ = _
    rw [h]
    exact relay_same (by rw [← h]; exact f1) f2
  have up : ⌊x1 / dx⌋ < ⌊x2 / dx⌋ → y = ((⌊x1 / dx⌋ : K) + 1) * dx := relay_up hd
  have down : ⌊x2 / dx⌋ < ⌊x1 / dx⌋ → y = ((⌊x2 / dx⌋ : K) + 1) * dx := fun h => by
    show relayPoint _ _ _ _ _ = _
    rw [relay_comm]; exact relay_up hd h
  refine ⟨?_, same, up, down⟩
  rcases lt_trichotomy ⌊x1 / dx⌋ ⌊x2 / dx⌋ with h | h | h
  · rw [up h]
    have c : ((⌊x1 / dx⌋ : K) + 1) * dx ≤ (⌊x2 / dx⌋ : K) * dx := mul_le_mul_of_nonneg_right (by exact_mod_cast h) hd.le
    exact ⟨(min_le_left _ _).trans f1.2.le, (c.trans f2.1).trans (le_max_right _ _)⟩
  · rw [same h]
    constructor
    · have := min_le_left x1 x2; have := min_le_right x1 x2; linarith
    · have := le_max_left x1 x2; have := le_max_right x1 x2; linarith
  · rw [down h]
    have c : ((⌊x2 / dx⌋ : K) + 1) * dx ≤ (⌊x1 / dx⌋ : K) * dx := mul_le_mul_of_nonneg_right (by exact_mod_cast h) hd.le
    exact ⟨(min_le_right _ _).trans f2.2.le, (c.trans f1.1).trans (le_max_left _ _)⟩

/-! ### Concrete cases -/

/-- Four by four cells of size 1; a particle that crosses a corner region, one inside its cell. -/
def exCtx : Ctx ℚ := ⟨⟨1, 1, 0, 0, 4, 4⟩, 1, 22/7, 1/1000, fun y => y - 1⟩
def exP : Part ℚ := ⟨9/4, 3/2, 5/4, 1/2, 1, 2, 1, 3⟩
def exQ : Part ℚ := ⟨7/4, 3/4, 5/4, 1/4, 1, 1, 0, 3⟩

theorem exCtx_good : exCtx.Good := ⟨⟨by decide +kernel, by decide +kernel, by decide, by decide⟩, by decide +kernel,
  by decide +kernel, by decide +kernel⟩
theorem exP_bound : exP.Bound exCtx.g := ⟨⟨by decide +kernel, by decide +kernel, by decide +kernel, by decide +kernel⟩,
  by decide +kernel, by decide +kernel, by decide +kernel, by decide +kernel⟩
theorem exQ_bound : exQ.Bound exCtx.g := ⟨⟨by decide +kernel, by decide +kernel, by decide +kernel, by decide +kernel⟩,
  by decide +kernel, by decide +kernel, by decide +kernel, by decide +kernel⟩

example (m : Mem ℚ) := C20_totals_partial exCtx exCtx_good exP exP_bound
  (by unfold Part.NearCell; decide +kernel) m
example (m : Mem ℚ) := C20_phi_fails exCtx exCtx_good exQ exQ_bound
  (by unfold Part.SameCell; decide +kernel) (by decide +kernel) (by decide +kernel) (by decide +kernel)
  (by decide +kernel) m
example : relayPoint ⌊(5/4 : ℚ) / 1⌋ ⌊(9/4 : ℚ) / 1⌋ (5/4) (9/4) (1 : ℚ) = 2 := by decide +kernel

end ZigZag
end Pico
