import Verif.Lemmas.Interp
import Mathlib.Algebra.Order.Ring.Rat
import Mathlib.Data.Rat.Floor
import Mathlib.Tactic.NormNum

/-! Properties of the field interpolation. -/

set_option linter.unusedSectionVars false
set_option linter.unusedSimpArgs false
set_option linter.unusedVariables false

namespace Pico
namespace Interp

open Yee

variable {K : Type _} [Field K] [LinearOrder K] [IsStrictOrderedRing K] [FloorRing K]

theorem floor_bounds {d : K} (hd : 0 < d) (x : K) : (⌊x / d⌋ : K) * d ≤ x ∧ x < ((⌊x / d⌋ : K) + 1) * d := VB.floor_cell hd x

/-- Cell numbers of a position in `[lo d - d/2, hi d)`. -/
theorem floor_range {d x : K} (hd : 0 < d) {lo hi : Int} (h1 : (lo : K) * d ≤ x) (h2 : x < (hi : K) * d) :
    lo ≤ ⌊x / d⌋ ∧ ⌊x / d⌋ < hi :=
  ⟨Int.le_floor.mpr ((le_div_iff₀ hd).mpr h1), Int.floor_lt.mpr ((div_lt_iff₀ hd).mpr h2)⟩

section around
variable {g : Geom K} (G : g.Good) {r z : K} (hc : g.Contains r z) (hr : g.dr / 2 ≤ r)
include G hc

theorem rangeR : (g.r0 : Int) ≤ ⌊r / g.dr⌋ ∧ ⌊r / g.dr⌋ < (g.r0 : Int) + g.nr :=
  floor_range G.dr (by have := hc.rlo; push_cast; exact this) (by have := hc.rhi; push_cast at this ⊢; exact this)
theorem rangeZ : (g.z0 : Int) ≤ ⌊z / g.dz⌋ ∧ ⌊z / g.dz⌋ < (g.z0 : Int) + g.nz :=
  floor_range G.dz (by have := hc.zlo; push_cast; exact this) (by have := hc.zhi; push_cast at this ⊢; exact this)
theorem rangeR' : (g.r0 : Int) - 1 ≤ ⌊(r - 1/2 * g.dr) / g.dr⌋ ∧ ⌊(r - 1/2 * g.dr) / g.dr⌋ < (g.r0 : Int) + g.nr :=
  floor_range G.dr (by have := hc.rlo; push_cast; linarith [G.dr]) (by have := hc.rhi; push_cast at this ⊢; linarith [G.dr])
theorem rangeZ' : (g.z0 : Int) - 1 ≤ ⌊(z - 1/2 * g.dz) / g.dz⌋ ∧ ⌊(z - 1/2 * g.dz) / g.dz⌋ < (g.z0 : Int) + g.nz :=
  floor_range G.dz (by have := hc.zlo; push_cast; linarith [G.dz]) (by have := hc.zhi; push_cast at this ⊢; linarith [G.dz])

include hr

theorem around00 : Around g 0 0 r z ⌊r / g.dr⌋ ⌊z / g.dz⌋ := by
  have a := rangeR G hc; have b := rangeZ G hc
  have e := floor_bounds G.dr r; have f := floor_bounds G.dz z
  exact ⟨G.dr, G.dz, hr, by omega, le_rfl, by rw [add_zero]; exact e.1, by rw [add_zero]; exact e.2,
    by rw [add_zero]; exact f.1, by rw [add_zero]; exact f.2, by omega, by omega, by omega, by omega⟩
theorem around10 : Around g (1/2) 0 r z ⌊(r - 1/2 * g.dr) / g.dr⌋ ⌊z / g.dz⌋ := by
  have a := rangeR' G hc; have b := rangeZ G hc
  have e := floor_bounds G.dr (r - 1/2 * g.dr); have f := floor_bounds G.dz z
  have i0 : 0 ≤ ⌊(r - 1/2 * g.dr) / g.dr⌋ := Int.floor_nonneg.mpr (div_nonneg (by linarith) G.dr.le)
  exact ⟨G.dr, G.dz, hr, i0, by norm_num, by linarith [e.1], by linarith [e.2],
    by rw [add_zero]; exact f.1, by rw [add_zero]; exact f.2, by omega, by omega, by omega, by omega⟩
theorem around01 : Around g 0 (1/2) r z ⌊r / g.dr⌋ ⌊(z - 1/2 * g.dz) / g.dz⌋ := by
  have a := rangeR G hc; have b := rangeZ' G hc
  have e := floor_bounds G.dr r; have f := floor_bounds G.dz (z - 1/2 * g.dz)
  exact ⟨G.dr, G.dz, hr, by omega, le_rfl, by rw [add_zero]; exact e.1, by rw [add_zero]; exact e.2,
    by linarith [f.1], by linarith [f.2], by omega, by omega, by omega, by omega⟩
theorem around11 : Around g (1/2) (1/2) r z ⌊(r - 1/2 * g.dr) / g.dr⌋ ⌊(z - 1/2 * g.dz) / g.dz⌋ := by
  have a := rangeR' G hc; have b := rangeZ' G hc
  have e := floor_bounds G.dr (r - 1/2 * g.dr); have f := floor_bounds G.dz (z - 1/2 * g.dz)
  have i0 : 0 ≤ ⌊(r - 1/2 * g.dr) / g.dr⌋ := Int.floor_nonneg.mpr (div_nonneg (by linarith) G.dr.le)
  exact ⟨G.dr, G.dz, hr, i0, by norm_num, by linarith [e.1], by linarith [e.2],
    by linarith [f.1], by linarith [f.2], by omega, by omega, by omega, by omega⟩

theorem halfWhole_eq {pi : K} (hpi : 0 < pi) (m : Mem K) (c : Comp) :
    ∃ q, halfWhole pi g m c r z = .ok q ∧ sum4 q = seen g (1/2) 0 (m c) r z := by
  have A := around10 G hc hr
  have a := rangeR' G hc; have b := rangeZ G hc
  have n := G.nr; have n' := G.nz
  unfold halfWhole
  rw [VB.cellNumber_eq rfl (by omega) (by omega), Res.ok_bind, VB.cellNumber_eq rfl (by omega) (by omega), Res.ok_bind,
    four_eq hpi A m c (by ring) (by ring) (by ring) (by ring) (by ring)]
  refine ⟨_, rfl, ?_⟩
  rw [seen_four A]
  unfold sum4
  ring

theorem wholeHalf_eq {pi : K} (hpi : 0 < pi) (m : Mem K) (c : Comp) :
    ∃ q, wholeHalf pi g m c r z = .ok q ∧ sum4 q = seen g 0 (1/2) (m c) r z := by
  have A := around01 G hc hr
  have a := rangeR G hc; have b := rangeZ' G hc
  have n := G.nr; have n' := G.nz
  unfold wholeHalf
  rw [VB.cellNumber_eq rfl (by omega) (by omega), Res.ok_bind, VB.cellNumber_eq rfl (by omega) (by omega), Res.ok_bind,
    four_eq hpi A m c (by ring) (by ring) (by ring) (by ring) (by ring)]
  refine ⟨_, rfl, ?_⟩
  rw [seen_four A]
  unfold sum4
  ring

theorem halfHalf_eq {pi : K} (hpi : 0 < pi) (m : Mem K) (c : Comp) :
    ∃ q, halfHalf pi g m c r z = .ok q ∧ sum4 q = seen g (1/2) (1/2) (m c) r z := by
  have A := around11 G hc hr
  have a := rangeR' G hc; have b := rangeZ' G hc
  have n := G.nr; have n' := G.nz
  unfold halfHalf
  rw [VB.cellNumber_eq rfl (by omega) (by omega), Res.ok_bind, VB.cellNumber_eq rfl (by omega) (by omega), Res.ok_bind,
    four_eq hpi A m c (by ring) (by ring) (by ring) (by ring) (by ring)]
  refine ⟨_, rfl, ?_⟩
  rw [seen_four A]
  unfold sum4
  ring

theorem wholeWhole_eq {pi : K} (hpi : 0 < pi) (m : Mem K) (c : Comp) :
    ∃ q, wholeWhole pi g m c r z = .ok q ∧ sum4 q = seen g 0 0 (m c) r z ∧
      q.2.2.2 = seenWeight g 0 0 r z (⌊r / g.dr⌋ + 1) (⌊z / g.dz⌋ + 1) * m c (⌊r / g.dr⌋ - g.r0 + 1) (⌊z / g.dz⌋ - g.z0 + 1) := by
  have A := around00 G hc hr
  have a := rangeR G hc; have b := rangeZ G hc
  have n := G.nr; have n' := G.nz
  unfold wholeWhole
  rw [VB.cellNumber_eq rfl (by omega) (by omega), Res.ok_bind, VB.cellNumber_eq rfl (by omega) (by omega), Res.ok_bind,
    four_eq hpi A m c (by ring) (by ring) (by ring) (by ring) (by ring)]
  refine ⟨_, rfl, ?_, rfl⟩
  rw [seen_four A]
  unfold sum4
  ring

end around

/-- C23: the magnetic field a particle sees is, component by component, the weighted sum over the nodes of
that component (r: whole radii, half axial positions; phi: half, half; z: half, whole). -/
theorem C23_magnetic {pi : K} (hpi : 0 < pi) {g : Geom K} (G : g.Good) {r z : K} (hc : g.Contains r z)
    (hr : g.dr / 2 ≤ r) (m : Mem K) :
    getH pi g m r z = .ok ⟨seen g 0 (1/2) (m .fr) r z, seen g (1/2) (1/2) (m .fp) r z, seen g (1/2) 0 (m .fz) r z⟩ := by
  obtain ⟨q1, e1, s1⟩ := halfWhole_eq G hc hr hpi m .fz
  obtain ⟨q2, e2, s2⟩ := wholeHalf_eq G hc hr hpi m .fr
  obtain ⟨q3, e3, s3⟩ := halfHalf_eq G hc hr hpi m .fp
  unfold getH
  rw [e1, Res.ok_bind, e2, Res.ok_bind, e3, Res.ok_bind, s1, s2, s3]

/-- C23 for the electric field, as far as it holds: the radial component is the weighted sum; one of the
four addends of the azimuthal component goes into the axial one. -/
theorem C23_electric_partial {pi : K} (hpi : 0 < pi) {g : Geom K} (G : g.Good) {r z : K} (hc : g.Contains r z)
    (hr : g.dr / 2 ≤ r) (m : Mem K) :
    let e := seenWeight g 0 0 r z (⌊r / g.dr⌋ + 1) (⌊z / g.dz⌋ + 1) * m .ep (⌊r / g.dr⌋ - g.r0 + 1) (⌊z / g.dz⌋ - g.z0 + 1)
    getE pi g m r z = .ok ⟨seen g (1/2) 0 (m .er) r z, seen g 0 0 (m .ep) r z - e, seen g 0 (1/2) (m .ez) r z + e⟩ := by
  intro e
  obtain ⟨q1, e1, s1⟩ := halfWhole_eq G hc hr hpi m .er
  obtain ⟨q2, e2, s2⟩ := wholeHalf_eq G hc hr hpi m .ez
  obtain ⟨q3, e3, s3, l3⟩ := wholeWhole_eq G hc hr hpi m .ep
  unfold getE
  rw [e1, Res.ok_bind, e2, Res.ok_bind, e3, Res.ok_bind, s1, s2, l3, ← s3]
  congr 2
  show q3.1 + q3.2.1 + q3.2.2.1 = sum4 q3 - e
  have : e = q3.2.2.2 := l3.symm
  rw [this]
  unfold sum4
  ring

/-- C23: the weights are not negative, and only nodes less than one cell away from the particle in both
directions have one. -/
theorem C23_weights {g : Geom K} (G : g.Good) {r z : K} (hr : g.dr / 2 ≤ r) (α β : K) (hα : 0 ≤ α) (a b : Int) :
    0 ≤ seenWeight g α β r z a b ∧
    (seenWeight g α β r z a b ≠ 0 → |((a : K) + α) * g.dr - r| < g.dr ∧ |((b : K) + β) * g.dz - z| < g.dz) := by
  refine ⟨weight_nonneg G.dr G.dz hα a b, fun h => ?_⟩
  unfold seenWeight at h
  split at h
  · next h0 =>
    have h0 : (0 : K) ≤ a := by exact_mod_cast h0
    have hn : ringShare g.dr r ((a : K) + α) ≠ 0 ∧ lineShare g.dz z ((b : K) + β) ≠ 0 := by
      constructor <;> (intro c; rw [c] at h; simp at h)
    constructor
    · have c1 : ¬ ((a : K) + α + 1) * g.dr ≤ r := fun c => hn.1 (ring_zero G.dr hr (by linarith) (Or.inl c))
      have c2 : ¬ r ≤ ((a : K) + α - 1) * g.dr := fun c => hn.1 (ring_zero G.dr hr (by linarith) (Or.inr c))
      rw [abs_lt]; constructor <;> linarith
    · have c1 : ¬ ((b : K) + β + 1) * g.dz ≤ z := fun c => hn.2 (line_zero G.dz (Or.inl c))
      have c2 : ¬ z ≤ ((b : K) + β - 1) * g.dz := fun c => hn.2 (line_zero G.dz (Or.inr c))
      rw [abs_lt]; constructor <;> linarith
  · exact absurd rfl h

theorem seen_const {g : Geom K} {α β r z : K} {i k : Int} (A : Around g α β r z i k) :
    0 ≤ seen g α β (fun _ _ => 1) r z ∧ seen g α β (fun _ _ => 1) r z < 1 := by
  have h := weights_sum A
  rw [seen_four A]
  simp only [mul_one]
  refine ⟨?_, h⟩
  have n := fun a b => weight_nonneg (g := g) A.dr A.dz (α := α) (β := β) (r := r) (z := z) A.α0 a b
  have := n i k; have := n i (k + 1); have := n (i + 1) k; have := n (i + 1) (k + 1)
  linarith

theorem seen_uniform {g : Geom K} {α β r z : K} {i k : Int} (A : Around g α β r z i k) (u : K) :
    seen g α β (fun _ _ => u) r z = seen g α β (fun _ _ => 1) r z * u := by
  rw [seen_four A, seen_four A]
  ring

/-- C23 fails: every particle sees a uniform magnetic field too weak, by a factor below 1. -/
theorem C23_uniform_fails {pi : K} (hpi : 0 < pi) {g : Geom K} (G : g.Good) {r z : K} (hc : g.Contains r z)
    (hr : g.dr / 2 ≤ r) (m : Mem K) (u v w : K) (h1 : ∀ a b, m .fr a b = u) (h2 : ∀ a b, m .fp a b = v)
    (h3 : ∀ a b, m .fz a b = w) :
    ∃ f1 f2 f3, (0 ≤ f1 ∧ f1 < 1) ∧ (0 ≤ f2 ∧ f2 < 1) ∧ (0 ≤ f3 ∧ f3 < 1) ∧
      getH pi g m r z = .ok ⟨f1 * u, f2 * v, f3 * w⟩ := by
  have e1 : m .fr = fun _ _ => u := by funext a b; exact h1 a b
  have e2 : m .fp = fun _ _ => v := by funext a b; exact h2 a b
  have e3 : m .fz = fun _ _ => w := by funext a b; exact h3 a b
  refine ⟨_, _, _, seen_const (around01 G hc hr), seen_const (around11 G hc hr), seen_const (around10 G hc hr), ?_⟩
  rw [C23_magnetic hpi G hc hr, e1, e2, e3, seen_uniform (around01 G hc hr) u, seen_uniform (around11 G hc hr) v,
    seen_uniform (around10 G hc hr) w]

/-- C23 fails: with no axial electric field anywhere a particle off the borders sees one as soon as the
azimuthal field at its outer right node does not vanish. -/
theorem C23_components_mix {pi : K} (hpi : 0 < pi) {g : Geom K} (G : g.Good) {r z : K} (hc : g.Contains r z)
    (hr : g.dr / 2 ≤ r) (hnr : r ≠ (⌊r / g.dr⌋ : K) * g.dr) (hnz : z ≠ (⌊z / g.dz⌋ : K) * g.dz) (m : Mem K)
    (hm : ∀ a b, m .ez a b = 0) (he : m .ep (⌊r / g.dr⌋ - g.r0 + 1) (⌊z / g.dz⌋ - g.z0 + 1) ≠ 0) :
    ∃ v, getE pi g m r z = .ok v ∧ v.z ≠ 0 := by
  refine ⟨_, C23_electric_partial hpi G hc hr m, ?_⟩
  dsimp only
  have e1 : m .ez = fun _ _ => 0 := by funext a b; exact hm a b
  have A := around00 G hc hr
  rw [e1, seen_uniform (around01 G hc hr), mul_zero, zero_add]
  refine mul_ne_zero ?_ he
  rw [(weight_vals A).2.2.2]
  have i0 : (0 : K) ≤ (⌊r / g.dr⌋ : K) := by exact_mod_cast A.i0
  have dr := G.dr
  have dz := G.dz
  have p1 : 0 < r - (⌊r / g.dr⌋ : K) * g.dr :=
    lt_of_le_of_ne (by linarith [(floor_bounds dr r).1]) (fun h => hnr (by linarith))
  have p2 : 0 < z - ((⌊z / g.dz⌋ : K) + 0) * g.dz :=
    lt_of_le_of_ne (by linarith [(floor_bounds dz z).1]) (fun h => hnz (by linarith))
  have p3 : 0 < (r + 1/2 * g.dr) ^ 2 - (((⌊r / g.dr⌋ : K) + 0 + 1/2) * g.dr) ^ 2 := by
    have e : (r + 1/2 * g.dr) ^ 2 - (((⌊r / g.dr⌋ : K) + 0 + 1/2) * g.dr) ^ 2 =
        (r - (⌊r / g.dr⌋ : K) * g.dr) * (r + (⌊r / g.dr⌋ : K) * g.dr + g.dr) := by ring
    rw [e]
    have : 0 ≤ (⌊r / g.dr⌋ : K) * g.dr := mul_nonneg i0 dr.le
    exact mul_pos p1 (by linarith)
  have : 0 < g.dr * g.dr * (2 * ((⌊r / g.dr⌋ : K) + 0) + 3) * g.dz := by positivity
  exact (div_pos (mul_pos p3 p2) this).ne'

/-- C23 fails closer than half a cell to the axis: the code divides by zero. -/
theorem C23_axis_division {pi : K} {g : Geom K} (G : g.Good) {r z : K} (h0 : 0 ≤ r) (hr : r < g.dr / 2) (m : Mem K) :
    getE pi g m r z = .ub ∧ getH pi g m r z = .ub := by
  have f : ⌊(r - 1/2 * g.dr) / g.dr⌋ = -1 := by
    rw [Int.floor_eq_iff, le_div_iff₀ G.dr, div_lt_iff₀ G.dr]
    push_cast
    constructor <;> linarith [G.dr]
  have key : ∀ c, halfWhole pi g m c r z = .ub := by
    intro c
    unfold halfWhole
    rw [VB.cellNumber_eq f (by norm_num) (by norm_num), Res.ok_bind]
    unfold cellNumber
    dsimp only
    split
    · rw [Res.ok_bind]
      unfold four
      dsimp only
      unfold rdG
      split
      · rw [Res.ok_bind]
        unfold quot
        rw [if_pos (by push_cast; ring)]
        rfl
      · rfl
    · rfl
  unfold getE getH
  rw [key, key]
  exact ⟨rfl, rfl⟩

/-! ### Concrete cases -/

/-- A domain of three by five cells that starts at the cell (2, 1). -/
def exG : Geom ℚ := ⟨1/2, 1/3, 2, 1, 3, 5⟩
def exM : Mem ℚ := fun c i k => match c with
  | .ez => 0
  | .ep => i + k + 10
  | .fr => 2 | .fp => 3 | .fz => 4
  | _ => i * k + 1

theorem exG_good : exG.Good := ⟨by decide +kernel, by decide +kernel, by decide, by decide⟩
theorem exG_contains : exG.Contains (7/5) (1/2) :=
  ⟨by decide +kernel, by decide +kernel, by decide +kernel, by decide +kernel⟩

example := C23_magnetic (pi := (22/7 : ℚ)) (by norm_num) exG_good exG_contains (by decide +kernel) exM
example := C23_electric_partial (pi := (22/7 : ℚ)) (by norm_num) exG_good exG_contains (by decide +kernel) exM
example := C23_uniform_fails (pi := (22/7 : ℚ)) (by norm_num) exG_good exG_contains (by decide +kernel) exM 2 3 4
  (fun _ _ => rfl) (fun _ _ => rfl) (fun _ _ => rfl)
example := C23_components_mix (pi := (22/7 : ℚ)) (by norm_num) exG_good exG_contains (by decide +kernel)
  (by decide +kernel) (by decide +kernel) exM (fun _ _ => rfl) (by decide +kernel)
example : 0 < seen exG 0 (1/2) (fun _ _ => 1) (7/5) (1/2) := by decide +kernel
example := C23_axis_division (pi := (22/7 : ℚ)) (g := ⟨1/2, 1/3, 0, 1, 3, 5⟩)
  ⟨by decide +kernel, by decide +kernel, by decide, by decide⟩ (r := 1/5) (z := 1/2) (by norm_num) (by norm_num) exM

end Interp
end Pico
