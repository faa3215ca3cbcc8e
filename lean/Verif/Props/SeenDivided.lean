import Verif.Props.FieldStep
import Verif.Props.Interp

/-!
# C63 — the field a particle sees does not depend on the division of the area

`getE`/`getH` on the solver of a domain against `getE`/`getH` on the solver of the undivided area.
-/

set_option linter.unusedSimpArgs false
set_option linter.unusedVariables false
set_option linter.unusedSectionVars false

namespace Pico
namespace Interp

open Yee

variable {K : Type _} [Field K] [LinearOrder K] [IsStrictOrderedRing K] [FloorRing K]

/-- Geometry of the undivided area. -/
def areaGeom (p : Par K) : Geom K := ⟨p.dr, p.dz, p.r0, 0, p.nr, p.nz⟩

/-- Geometry of domain `(i, j)` as the code sets it up (`/repo/src/SMB.cpp:73-123`). -/
def domGeom (p : Par K) (domR domZ i j : Nat) : Geom K :=
  let q := domPar p domR domZ i j
  ⟨q.dr, q.dz, q.r0, (SMB.domDims (geoOf p domR domZ) i j).z0, q.nr, q.nz⟩

/-- The same with the cell size of the area. -/
def winGeom (p : Par K) (domR domZ i j : Nat) : Geom K :=
  ⟨p.dr, p.dz, p.r0 + low p.nr domR i, low p.nz domZ j, hgt p.nr domR i, hgt p.nz domZ j⟩

theorem domGeom_eq {p : Par K} {domR domZ : Nat} (hd : Divided p domR domZ) : domGeom p domR domZ = winGeom p domR domZ := by
  funext i j
  unfold domGeom
  rw [domPar_eq hd]
  dsimp only
  rw [winPar_nr, winPar_nz, winPar_r0]
  unfold winGeom winPar
  dsimp only
  rw [Nat.add_comm]
  rfl

/-- The point lies in the last row and first column of a domain that has a neighbour beyond both, or in the first
row and last column of such a domain. -/
def AtSeam (p : Par K) (domR domZ i j : Nat) (r z : K) : Prop :=
  (i + 1 < domR ∧ 0 < j ∧ ⌊r / p.dr⌋ + 1 = (p.r0 : Int) + low p.nr domR i + hgt p.nr domR i ∧ ⌊z / p.dz⌋ = (low p.nz domZ j : Int)) ∨
  (0 < i ∧ j + 1 < domZ ∧ ⌊r / p.dr⌋ = (p.r0 : Int) + low p.nr domR i ∧ ⌊z / p.dz⌋ + 1 = (low p.nz domZ j : Int) + hgt p.nz domZ j)

/-- The addends read from a domain are those read from the area. -/
theorem four_window (pi : K) (p : Par K) {domR domZ : Nat} (hd : Divided p domR domZ) {M : Solvers K} {m : Mem K} {c : Comp}
    (W : Windows p domR domZ c M m) {i j : Nat} (hi : i < domR) (hj : j < domZ) {a k : Int}
    (ha : (p.r0 : Int) + low p.nr domR i - 1 ≤ a ∧ a < (p.r0 : Int) + low p.nr domR i + hgt p.nr domR i)
    (hk : (low p.nz domZ j : Int) - 1 ≤ k ∧ k < (low p.nz domZ j : Int) + hgt p.nz domZ j)
    (hs1 : ¬ (i + 1 < domR ∧ 0 < j ∧ a + 1 = (p.r0 : Int) + low p.nr domR i + hgt p.nr domR i ∧ k + 1 = (low p.nz domZ j : Int)))
    (hs2 : ¬ (0 < i ∧ j + 1 < domZ ∧ a + 1 = (p.r0 : Int) + low p.nr domR i ∧ k + 1 = (low p.nz domZ j : Int) + hgt p.nz domZ j))
    (r1 r2 r3 d1 d2 v1 v2 : K) :
    four pi (winGeom p domR domZ i j) (M i j) c a k r1 r2 r3 d1 d2 v1 v2 = four pi (areaGeom p) m c a k r1 r2 r3 d1 d2 v1 v2 := by
  have hb := hd.bounds hi hj
  have key : ∀ x y : Int, (x = a ∨ x = a + 1) → (y = k ∨ y = k + 1) →
      rdG (winGeom p domR domZ i j) (M i j) c (x - ((p.r0 + low p.nr domR i : Nat) : Int)) (y - ((low p.nz domZ j : Nat) : Int)) =
        rdG (areaGeom p) m c (x - (p.r0 : Int)) (y - ((0 : Nat) : Int)) := by
    intro x y hx hy
    unfold rdG
    rw [if_pos (by unfold VB.insideG winGeom; dsimp only; omega), if_pos (by unfold VB.insideG areaGeom; dsimp only; omega),
      (W i j _ _ (by unfold OverlayOf; omega)).1 (by unfold Seam; omega)]
    congr 2 <;> push_cast <;> omega
  unfold four
  dsimp only
  have e1 := key a k (Or.inl rfl) (Or.inl rfl)
  have e2 := key (a + 1) k (Or.inr rfl) (Or.inl rfl)
  have e3 := key a (k + 1) (Or.inl rfl) (Or.inr rfl)
  have e4 := key (a + 1) (k + 1) (Or.inr rfl) (Or.inr rfl)
  rw [add_sub_right_comm, add_sub_right_comm] at e2
  rw [add_sub_right_comm, add_sub_right_comm] at e3
  rw [add_sub_right_comm, add_sub_right_comm, add_sub_right_comm, add_sub_right_comm] at e4
  show (rdG _ _ c (a - ((p.r0 + low p.nr domR i : Nat) : Int)) (k - ((low p.nz domZ j : Nat) : Int)) >>= _) = _
  rw [e1]
  show (_ >>= fun f00 => _ >>= fun a' =>
    rdG (winGeom p domR domZ i j) (M i j) c (a - ((p.r0 + low p.nr domR i : Nat) : Int) + 1) (k - ((low p.nz domZ j : Nat) : Int)) >>= fun f10 => _ >>= fun b =>
    rdG (winGeom p domR domZ i j) (M i j) c (a - ((p.r0 + low p.nr domR i : Nat) : Int)) (k - ((low p.nz domZ j : Nat) : Int) + 1) >>= fun f01 => _ >>= fun c' =>
    rdG (winGeom p domR domZ i j) (M i j) c (a - ((p.r0 + low p.nr domR i : Nat) : Int) + 1) (k - ((low p.nz domZ j : Nat) : Int) + 1) >>= fun f11 => _ >>= _) = _
  rw [e2, e3, e4]
  rfl

/-- Cell numbers with the two possible offsets. -/
theorem rows (p : Par K) (hr : 0 < p.dr) {lo h : Nat} {r : K} (h1 : ((lo : Nat) : K) * p.dr ≤ r)
    (h2 : r < ((lo + h : Nat) : K) * p.dr) :
    ((lo : Int) ≤ ⌊r / p.dr⌋ ∧ ⌊r / p.dr⌋ < (lo : Int) + h) ∧ ⌊r / p.dr⌋ - 1 ≤ ⌊(r - 1/2 * p.dr) / p.dr⌋ ∧
      ⌊(r - 1/2 * p.dr) / p.dr⌋ ≤ ⌊r / p.dr⌋ := by
  refine ⟨floor_range hr (by push_cast; exact h1) (by push_cast at h2 ⊢; exact h2), ?_, ?_⟩
  · rw [Int.le_floor, le_div_iff₀ hr]
    push_cast
    have := (floor_bounds hr r).1
    linarith
  · apply Int.floor_le_floor
    apply div_le_div_of_nonneg_right _ hr.le
    linarith

/-- **C63** as far as it holds: away from the cells where four domains meet diagonally, a particle sees the same fields
in its domain as it would see in the undivided area. -/
theorem C63_partial (pi : K) (p : Par K) (hr : 0 < p.dr) (hz : 0 < p.dz) (hbig : p.r0 + p.nr < 2 ^ 31) {domR domZ : Nat}
    (hd : Divided p domR domZ) {M : Solvers K} {m : Mem K} (W : ∀ c, c.isSource = false → Windows p domR domZ c M m)
    {i j : Nat} (hi : i < domR) (hj : j < domZ) {r z : K} (hc : (domGeom p domR domZ i j).Contains r z)
    (hs : ¬ AtSeam p domR domZ i j r z) :
    getE pi (domGeom p domR domZ i j) (M i j) r z = getE pi (areaGeom p) m r z ∧
    getH pi (domGeom p domR domZ i j) (M i j) r z = getH pi (areaGeom p) m r z := by
  rw [domGeom_eq hd] at hc ⊢
  have hb := hd.bounds hi hj
  have z3 := hd.z3
  obtain ⟨⟨a1, a2⟩, a3, a4⟩ := rows p hr hc.rlo hc.rhi
  obtain ⟨⟨b1, b2⟩, b3, b4⟩ := rows ⟨p.dz, p.dz, 0, 0, 0, 0, 0, p.walls⟩ hz hc.zlo hc.zhi
  dsimp only [winGeom] at a1 a2 b1 b2 b3 b4
  push_cast at a1 a2
  have hs' : ∀ a k : Int, (a = ⌊r / p.dr⌋ ∨ a = ⌊(r - 1/2 * p.dr) / p.dr⌋) → (k = ⌊z / p.dz⌋ ∨ k = ⌊(z - 1/2 * p.dz) / p.dz⌋) →
      (((p.r0 : Int) + low p.nr domR i - 1 ≤ a ∧ a < (p.r0 : Int) + low p.nr domR i + hgt p.nr domR i) ∧
      ((low p.nz domZ j : Int) - 1 ≤ k ∧ k < (low p.nz domZ j : Int) + hgt p.nz domZ j) ∧
      ¬ (i + 1 < domR ∧ 0 < j ∧ a + 1 = (p.r0 : Int) + low p.nr domR i + hgt p.nr domR i ∧ k + 1 = (low p.nz domZ j : Int)) ∧
      ¬ (0 < i ∧ j + 1 < domZ ∧ a + 1 = (p.r0 : Int) + low p.nr domR i ∧ k + 1 = (low p.nz domZ j : Int) + hgt p.nz domZ j)) := by
    intro a k h1 h2
    unfold AtSeam at hs
    refine ⟨by omega, by omega, ?_, ?_⟩
    · rintro ⟨c1, c2, c3, c4⟩
      exact hs (Or.inl ⟨c1, c2, by omega, by omega⟩)
    · rintro ⟨c1, c2, c3, c4⟩
      exact hs (Or.inr ⟨c1, c2, by omega, by omega⟩)
  have nR : ∀ {x : K} {a : Int}, ⌊x / p.dr⌋ = a → -1 ≤ a → a < 2 ^ 31 → cellNumber x p.dr = .ok a :=
    fun e h1 h2 => VB.cellNumber_eq e (by omega) (by omega)
  have nZ : ∀ {x : K} {a : Int}, ⌊x / p.dz⌋ = a → -1 ≤ a → a < 2 ^ 31 → cellNumber x p.dz = .ok a :=
    fun e h1 h2 => VB.cellNumber_eq e (by omega) (by omega)
  have hw : ∀ c, c.isSource = false → halfWhole pi (winGeom p domR domZ i j) (M i j) c r z = halfWhole pi (areaGeom p) m c r z := by
    intro c hcs
    obtain ⟨q1, q2, q3, q4⟩ := hs' _ _ (Or.inr rfl) (Or.inl rfl)
    unfold halfWhole
    dsimp only [winGeom, areaGeom]
    rw [nR rfl (by omega) (by omega), Res.ok_bind, nZ rfl (by omega) (by omega), Res.ok_bind, Res.ok_bind, Res.ok_bind]
    exact four_window pi p hd (W c hcs) hi hj q1 q2 q3 q4 _ _ _ _ _ _ _
  have wh : ∀ c, c.isSource = false → wholeHalf pi (winGeom p domR domZ i j) (M i j) c r z = wholeHalf pi (areaGeom p) m c r z := by
    intro c hcs
    obtain ⟨q1, q2, q3, q4⟩ := hs' _ _ (Or.inl rfl) (Or.inr rfl)
    unfold wholeHalf
    dsimp only [winGeom, areaGeom]
    rw [nR rfl (by omega) (by omega), Res.ok_bind, nZ rfl (by omega) (by omega), Res.ok_bind, Res.ok_bind, Res.ok_bind]
    exact four_window pi p hd (W c hcs) hi hj q1 q2 q3 q4 _ _ _ _ _ _ _
  have hh : ∀ c, c.isSource = false → halfHalf pi (winGeom p domR domZ i j) (M i j) c r z = halfHalf pi (areaGeom p) m c r z := by
    intro c hcs
    obtain ⟨q1, q2, q3, q4⟩ := hs' _ _ (Or.inr rfl) (Or.inr rfl)
    unfold halfHalf
    dsimp only [winGeom, areaGeom]
    rw [nR rfl (by omega) (by omega), Res.ok_bind, nZ rfl (by omega) (by omega), Res.ok_bind, Res.ok_bind, Res.ok_bind]
    exact four_window pi p hd (W c hcs) hi hj q1 q2 q3 q4 _ _ _ _ _ _ _
  have ww : ∀ c, c.isSource = false → wholeWhole pi (winGeom p domR domZ i j) (M i j) c r z = wholeWhole pi (areaGeom p) m c r z := by
    intro c hcs
    obtain ⟨q1, q2, q3, q4⟩ := hs' _ _ (Or.inl rfl) (Or.inl rfl)
    unfold wholeWhole
    dsimp only [winGeom, areaGeom]
    rw [nR rfl (by omega) (by omega), Res.ok_bind, nZ rfl (by omega) (by omega), Res.ok_bind, Res.ok_bind, Res.ok_bind]
    exact four_window pi p hd (W c hcs) hi hj q1 q2 q3 q4 _ _ _ _ _ _ _
  unfold getE getH
  rw [hw .er rfl, wh .ez rfl, ww .ep rfl, hw .fz rfl, wh .fr rfl, hh .fp rfl]
  exact ⟨rfl, rfl⟩

/-- C63 for a chain of domains along one axis: no exception. -/
theorem C63_chain_partial (pi : K) (p : Par K) (hr : 0 < p.dr) (hz : 0 < p.dz) (hbig : p.r0 + p.nr < 2 ^ 31) {domR domZ : Nat}
    (hd : Divided p domR domZ) (hch : domR = 1 ∨ domZ = 1) (loc : Nat → Nat → Nat → Comp → Int → Int → K)
    (src : Nat → Comp → Int → Int → K) (hs : ∀ t, SameSources p domR domZ (loc t) (src t)) (n : Nat) :
    ∃ M m, dividedRun (domPar p domR domZ) domR domZ loc n = .ok M ∧ wholeRun p src n = .ok m ∧
      ∀ i j r z, i < domR → j < domZ → (domGeom p domR domZ i j).Contains r z →
        getE pi (domGeom p domR domZ i j) (M i j) r z = getE pi (areaGeom p) m r z ∧
        getH pi (domGeom p domR domZ i j) (M i j) r z = getH pi (areaGeom p) m r z := by
  obtain ⟨M, m, e1, e2, W⟩ := C62_run p hd loc src hs n
  refine ⟨M, m, e1, e2, fun i j r z hi hj hc => ?_⟩
  exact C63_partial pi p hr hz hbig hd W hi hj hc (by unfold AtSeam; omega)

/-- C63 fails where four domains meet: a particle in the last row and the first half column of a domain does not see the
radial magnetic field at the node of the domain diagonally before it. -/
theorem C63_corner_fails {pi : K} (hpi : 0 < pi) (p : Par K) (hr : 0 < p.dr) (hz : 0 < p.dz) (hbig : p.r0 + p.nr < 2 ^ 31)
    {domR domZ : Nat} (hd : Divided p domR domZ) {M : Solvers K} {m : Mem K} (W : Windows p domR domZ .fr M m)
    {i j : Nat} (hi : i + 1 < domR) (hj : 0 < j ∧ j < domZ) {r z : K} (hc : (domGeom p domR domZ i j).Contains r z)
    (hax : p.dr / 2 ≤ r) (hlast : ((p.r0 + low p.nr domR i + hgt p.nr domR i : Nat) : K) * p.dr - p.dr < r)
    (hfirst : z < ((low p.nz domZ j : Nat) : K) * p.dz + p.dz / 2)
    (hm : m .fr (low p.nr domR (i + 1)) (low p.nz domZ j - 1) ≠ 0) :
    getH pi (domGeom p domR domZ i j) (M i j) r z ≠ getH pi (areaGeom p) m r z := by
  rw [domGeom_eq hd] at hc ⊢
  have hb := hd.bounds (i := i) (j := j) (by omega) hj.2
  have z3 := hd.z3
  have s1 : low p.nr domR (i + 1) = low p.nr domR i + hgt p.nr domR i := by
    have := low_step hd.r1 hd.r2 i; unfold hgt; omega
  have G1 : (winGeom p domR domZ i j).Good := ⟨hr, hz, by dsimp only [winGeom]; omega, by dsimp only [winGeom]; omega⟩
  have G2 : (areaGeom p).Good := ⟨hr, hz, by dsimp only [areaGeom]; omega, by dsimp only [areaGeom]; omega⟩
  have c1 := hc.rlo
  have c2 := hc.rhi
  have c3 := hc.zlo
  have c4 := hc.zhi
  dsimp only [winGeom] at c1 c2 c3 c4
  have hc2 : (areaGeom p).Contains r z := by
    refine ⟨?_, ?_, ?_, ?_⟩ <;> dsimp only [areaGeom]
    · refine le_trans (mul_le_mul_of_nonneg_right ?_ hr.le) c1
      exact_mod_cast Nat.le_add_right _ _
    · refine lt_of_lt_of_le c2 (mul_le_mul_of_nonneg_right ?_ hr.le)
      exact_mod_cast (by omega : p.r0 + low p.nr domR i + hgt p.nr domR i ≤ p.r0 + p.nr)
    · refine le_trans (mul_le_mul_of_nonneg_right ?_ hz.le) c3
      exact_mod_cast Nat.zero_le _
    · refine lt_of_lt_of_le c4 (mul_le_mul_of_nonneg_right ?_ hz.le)
      exact_mod_cast (by omega : low p.nz domZ j + hgt p.nz domZ j ≤ 0 + p.nz)
  have fr : ⌊r / p.dr⌋ = (p.r0 : Int) + low p.nr domR i + hgt p.nr domR i - 1 := by
    rw [Int.floor_eq_iff, le_div_iff₀ hr, div_lt_iff₀ hr]
    push_cast at hlast c2 ⊢
    constructor <;> linarith
  have fz : ⌊(z - 1/2 * p.dz) / p.dz⌋ = (low p.nz domZ j : Int) - 1 := by
    rw [Int.floor_eq_iff, le_div_iff₀ hz, div_lt_iff₀ hz]
    push_cast
    constructor <;> linarith
  rw [C23_magnetic hpi G1 hc hax, C23_magnetic hpi G2 hc2 hax]
  intro h
  have h := congrArg Vec3.x (Res.ok.inj h)
  dsimp only at h
  have A1 := around01 G1 hc hax
  have A2 := around01 G2 hc2 hax
  dsimp only [winGeom, areaGeom] at A1 A2
  rw [fr, fz] at A1 A2
  dsimp only [winGeom, areaGeom] at h
  rw [seen_four A1, seen_four A2] at h
  dsimp only at h
  -- the four nodes
  have w : ∀ x y : Int, OverlayOf p domR domZ i j x y → ¬ Seam p domR domZ i j x y →
      M i j .fr x y = m .fr (low p.nr domR i + x) (low p.nz domZ j + y) := fun x y o s => (W i j x y o).1 s
  have n00 := w (hgt p.nr domR i - 1) (-1) (by unfold OverlayOf; omega) (by unfold Seam; omega)
  have n01 := w (hgt p.nr domR i - 1) 0 (by unfold OverlayOf; omega) (by unfold Seam; omega)
  have n11 := w (hgt p.nr domR i) 0 (by unfold OverlayOf; omega) (by unfold Seam; omega)
  have n10 : M i j .fr (hgt p.nr domR i) (-1) = 0 :=
    (W i j _ _ (by unfold OverlayOf; omega)).2 (Or.inl ⟨hi, hj.1, le_refl _, by omega⟩)
  have r1 : (p.r0 : Int) + low p.nr domR i + hgt p.nr domR i - 1 - ((p.r0 + low p.nr domR i : Nat) : Int) = (hgt p.nr domR i : Int) - 1 := by
    push_cast; ring
  have r2 : (p.r0 : Int) + low p.nr domR i + hgt p.nr domR i - 1 - (p.r0 : Int) = low p.nr domR i + ((hgt p.nr domR i : Int) - 1) := by ring
  have k1 : (low p.nz domZ j : Int) - 1 - ((low p.nz domZ j : Nat) : Int) = -1 := by ring
  have k2 : (low p.nz domZ j : Int) - 1 - ((0 : Nat) : Int) = low p.nz domZ j + (-1) := by push_cast; ring
  rw [r1, r2, k1, k2] at h
  have t1 : (hgt p.nr domR i : Int) - 1 + 1 = hgt p.nr domR i := by ring
  have t2 : (low p.nr domR i : Int) + ((hgt p.nr domR i : Int) - 1) + 1 = low p.nr domR i + hgt p.nr domR i := by ring
  have t3 : (-1 : Int) + 1 = 0 := by ring
  have t4 : (low p.nz domZ j : Int) + (-1) + 1 = low p.nz domZ j + 0 := by ring
  rw [t1, t2, t3, t4, n00, n01, n11, n10] at h
  -- the weights are the same, so the addend of the seam would have to vanish
  have sw : ∀ a b, seenWeight (⟨p.dr, p.dz, p.r0 + low p.nr domR i, low p.nz domZ j, hgt p.nr domR i, hgt p.nz domZ j⟩ : Geom K)
      0 (1/2) r z a b = seenWeight (⟨p.dr, p.dz, p.r0, 0, p.nr, p.nz⟩ : Geom K) 0 (1/2) r z a b := fun a b => rfl
  simp only [sw] at h
  have hz0 : seenWeight (⟨p.dr, p.dz, p.r0, 0, p.nr, p.nz⟩ : Geom K) 0 (1/2) r z
      ((p.r0 : Int) + low p.nr domR i + hgt p.nr domR i - 1 + 1) ((low p.nz domZ j : Int) - 1) *
      m .fr (low p.nr domR i + hgt p.nr domR i) (low p.nz domZ j + (-1)) = 0 := by linear_combination -h
  have hm' : m .fr (low p.nr domR i + hgt p.nr domR i) (low p.nz domZ j + (-1)) ≠ 0 := by
    rw [s1] at hm
    push_cast at hm
    exact hm
  have hw0 := (mul_eq_zero.mp hz0).resolve_right hm'
  rw [(weight_vals A2).2.2.1] at hw0
  dsimp only at hw0
  push_cast at hw0
  have i0 : (0 : K) ≤ ((p.r0 : K) + low p.nr domR i + hgt p.nr domR i - 1) := by
    have : 1 ≤ p.r0 + low p.nr domR i + hgt p.nr domR i := by omega
    have : (1 : K) ≤ ((p.r0 + low p.nr domR i + hgt p.nr domR i : Nat) : K) := by exact_mod_cast this
    push_cast at this
    linarith
  push_cast at hlast
  generalize hI : (p.r0 : K) + low p.nr domR i + hgt p.nr domR i - 1 = I at hw0 i0
  have rI : I * p.dr < r := by rw [← hI]; linarith
  have p0 : 0 ≤ I * p.dr := mul_nonneg i0 hr.le
  have q1 : 0 < (r + 1/2 * p.dr) ^ 2 - ((I + 0 + 1/2) * p.dr) ^ 2 := by
    have e : (r + 1/2 * p.dr) ^ 2 - ((I + 0 + 1/2) * p.dr) ^ 2 = (r - I * p.dr) * (r + I * p.dr + p.dr) := by ring
    rw [e]
    exact mul_pos (by linarith) (by linarith)
  have q2 : 0 < ((low p.nz domZ j : K) - 1 + 1/2 + 1) * p.dz - z := by linarith
  have q3 : 0 < p.dr * p.dr * (2 * (I + 0) + 3) * p.dz := by positivity
  exact (div_pos (mul_pos q1 q2) q3).ne' hw0

/-! ## A run in which it fails -/

/-- An azimuthal current in cell (2, 1), switched on for the first step. -/
def exLoop (t : Nat) : Comp → Int → Int → ℚ
  | .eps, _, _ => 1
  | .jp, x, y => if t = 0 ∧ x = 2 ∧ y = 1 then 1 else 0
  | _, _, _ => 0

theorem exLoop_field : ∃ m, wholeRun exArea exLoop (0 + 1) = .ok m ∧ m .fr 2 1 = 1/200 := by
  obtain ⟨m1, e1, k1, k2, k3⟩ := calcE_eq exArea (by decide) (by decide) (by decide) (by decide)
    (setSources (exLoop 0) (fun _ _ _ => 0))
  obtain ⟨m2, e2, l1, l2, l3⟩ := calcH_eq exArea (by decide) m1
  refine ⟨m2, ?_, ?_⟩
  · rw [wholeRun, wholeRun, Res.ok_bind, e1, Res.ok_bind, e2]
  · rw [(l2 2 1 (by decide)).1.2, k1 _ _ _ (by unfold isE; decide), if_neg (by decide)]
    have h1 : m1 .ep 2 1 = -1/10 := by
      rw [(k3 2 1 (by decide)).2.1, if_pos (by decide)]
      norm_num [newE, xP, koefE, koefH, setSources, exLoop, Comp.isSource, exArea]
    have h2 : m1 .ep 2 (1 + 1) = 0 := by
      rw [(k3 2 (1 + 1) (by decide)).2.1, if_pos (by decide)]
      norm_num [newE, xP, koefE, koefH, setSources, exLoop, Comp.isSource, exArea]
    unfold aR
    rw [h1, h2]
    norm_num [setSources, exLoop, Comp.isSource, exArea]

/-- C63 fails in an actual run: four by four cells, two by two domains, one step; a particle of the domain (0, 1)
at (7/4, 9/4) sees a magnetic field that is not the one of the undivided run. -/
theorem C63_run_fails : ∃ M m,
    dividedRun (domPar exArea 2 2) 2 2 (exLoc exArea 2 2 exLoop) 1 = .ok M ∧ wholeRun exArea exLoop 1 = .ok m ∧
    (domGeom exArea 2 2 0 1).Contains (7/4) (9/4) ∧
    getH (22/7) (domGeom exArea 2 2 0 1) (M 0 1) (7/4) (9/4) ≠ getH (22/7) (areaGeom exArea) m (7/4) (9/4) := by
  have hd : Divided exArea 2 2 := ⟨by decide, by decide, by decide, by decide, by decide, by decide, by decide, by decide, by decide⟩
  obtain ⟨M, m, e1, e2, W⟩ := C62_run exArea hd (exLoc exArea 2 2 exLoop) exLoop (fun _ _ _ _ _ _ _ _ => rfl) 1
  obtain ⟨m', e3, f⟩ := exLoop_field
  have : m = m' := Res.ok.inj (e2.symm.trans e3)
  have hcont : (domGeom exArea 2 2 0 1).Contains (7/4) (9/4) :=
    ⟨by decide +kernel, by decide +kernel, by decide +kernel, by decide +kernel⟩
  refine ⟨M, m, e1, e2, hcont, ?_⟩
  refine C63_corner_fails (by norm_num) exArea (by decide +kernel) (by decide +kernel) (by decide) hd (W .fr rfl)
    (by decide) (by decide) hcont (by decide +kernel) (by decide +kernel) (by decide +kernel) ?_
  have a : ((low exArea.nr 2 (0 + 1) : Nat) : Int) = 2 := by decide
  have b : ((low exArea.nz 2 1 : Nat) : Int) - 1 = 1 := by decide
  rw [a, b, this, f]
  norm_num

/-- The hypotheses of the partial theorem are met by a particle of another cell of the same domain in the same run. -/
example : (domGeom exArea 2 2 0 1).Contains (5/4) (13/4) ∧ ¬ AtSeam exArea 2 2 0 1 (5/4) (13/4) := by
  refine ⟨⟨by decide +kernel, by decide +kernel, by decide +kernel, by decide +kernel⟩, ?_⟩
  unfold AtSeam
  decide +kernel

/-- A chain of three domains over twelve columns. -/
example := C63_chain_partial (22/7 : ℚ) { exArea with nz := 12 } (by decide +kernel) (by decide +kernel) (by decide)
  (domR := 1) (domZ := 3) ⟨by decide, by decide, by decide, by decide, by decide, by decide, by decide, by decide, by decide⟩ (Or.inl rfl)
  (exLoc { exArea with nz := 12 } 1 3 exLoop) exLoop (fun _ _ _ _ _ _ _ _ => rfl) 7

end Interp
end Pico
