import Verif.Props.ZigZag
import Verif.Spec.ZigZag

/-! Charge continuity of the ZigZag deposition, and the effect of a whole call. -/

set_option linter.unusedSectionVars false
set_option linter.unusedSimpArgs false
set_option linter.unusedVariables false

namespace Pico
namespace ZigZag

open Yee VB

variable {K : Type _} [Field K] [LinearOrder K] [IsStrictOrderedRing K] [FloorRing K]

/-! ### One straight piece inside a cell -/

theorem hat_cell {x : K} {i : Int} (h1 : (i : K) ≤ x) (h2 : x ≤ (i : K) + 1) (n : Int) :
    hat x n = if n = i then i + 1 - x else if n = i + 1 then x - i else 0 := by
  unfold hat
  by_cases e1 : n = i
  · subst e1
    rw [if_pos rfl, abs_of_nonneg (by linarith), max_eq_right (by linarith)]
    ring
  · rw [if_neg e1]
    by_cases e2 : n = i + 1
    · subst e2
      rw [if_pos rfl]
      push_cast
      rw [abs_of_nonpos (by linarith), max_eq_right (by linarith)]
      ring
    · rw [if_neg e2]
      apply max_eq_left
      rcases lt_or_gt_of_ne e1 with h | h
      · have : (n : K) + 1 ≤ i := by exact_mod_cast h
        have := le_abs_self (x - n)
        linarith
      · have h : i + 2 ≤ n := by omega
        have : (i : K) + 2 ≤ n := by exact_mod_cast h
        have := neg_abs_le (x - n)
        linarith

/-- Radial flow of a piece from `(a, c)` to `(b, d)` inside the cell `(i, k)`. -/
def flowR (a b c d : K) (i k n m : Int) : K :=
  (b - a) * (if n = i ∧ m = k then 1 - ((c + d) / 2 - k) else if n = i ∧ m = k + 1 then (c + d) / 2 - k else 0)
/-- Axial flow. -/
def flowZ (a b c d : K) (i k n m : Int) : K :=
  (d - c) * (if n = i ∧ m = k then 1 - ((a + b) / 2 - i) else if n = i + 1 ∧ m = k then (a + b) / 2 - i else 0)

theorem piece {a b c d : K} {i k : Int} (a1 : (i : K) ≤ a) (a2 : a ≤ i + 1) (b1 : (i : K) ≤ b) (b2 : b ≤ i + 1)
    (c1 : (k : K) ≤ c) (c2 : c ≤ k + 1) (d1 : (k : K) ≤ d) (d2 : d ≤ k + 1) (n m : Int) :
    hat b n * hat d m - hat a n * hat c m =
      -(flowR a b c d i k n m - flowR a b c d i k (n - 1) m + (flowZ a b c d i k n m - flowZ a b c d i k n (m - 1))) := by
  rw [hat_cell a1 a2, hat_cell b1 b2, hat_cell c1 c2, hat_cell d1 d2]
  unfold flowR flowZ
  by_cases n0 : n = i
  · have n1 : n ≠ i + 1 := by omega
    have n2 : n - 1 ≠ i := by omega
    by_cases m0 : m = k
    · have m1 : m ≠ k + 1 := by omega
      have m2 : m - 1 ≠ k := by omega
      simp only [n0, m0, n1, n2, m1, m2, and_true, true_and, and_false, false_and, if_true, if_false, and_self]
      simp
      ring
    · by_cases m1 : m = k + 1
      · subst n0 m1
        simp
        ring
      · have m2 : m - 1 ≠ k := by omega
        have n3 : i - 1 ≠ i := by omega
        subst n0
        simp [m0, m1, m2]
  · by_cases n1 : n = i + 1
    · subst n1
      by_cases m0 : m = k
      · subst m0
        simp
        ring
      · by_cases m1 : m = k + 1
        · subst m1
          simp
          ring
        · have m2 : m - 1 ≠ k := by omega
          simp [m0, m1, m2]
    · have n2 : n - 1 ≠ i := by omega
      simp [n0, n1, n2]

/-- The relay point is in both cells, borders included, if they are the same or neighbours. -/
theorem relay_both {dx : K} (hd : 0 < dx) (x1 x2 : K) (h1 : ⌊x1 / dx⌋ - 1 ≤ ⌊x2 / dx⌋) (h2 : ⌊x2 / dx⌋ ≤ ⌊x1 / dx⌋ + 1) :
    let y := relayPoint ⌊x1 / dx⌋ ⌊x2 / dx⌋ x1 x2 dx
    ((⌊x1 / dx⌋ : K) * dx ≤ y ∧ y ≤ ((⌊x1 / dx⌋ : K) + 1) * dx) ∧
    ((⌊x2 / dx⌋ : K) * dx ≤ y ∧ y ≤ ((⌊x2 / dx⌋ : K) + 1) * dx) := by
  intro y
  obtain ⟨_, same, up, down⟩ := C20_relay dx hd x1 x2
  have f1 := floor_cell hd x1
  have f2 := floor_cell hd x2
  rcases lt_trichotomy ⌊x1 / dx⌋ ⌊x2 / dx⌋ with h | h | h
  · have e : ⌊x2 / dx⌋ = ⌊x1 / dx⌋ + 1 := by omega
    have e' : (⌊x2 / dx⌋ : K) = ⌊x1 / dx⌋ + 1 := by rw [e]; push_cast; rfl
    have hy : y = ((⌊x1 / dx⌋ : K) + 1) * dx := up h
    rw [hy, e']
    refine ⟨⟨?_, ?_⟩, ?_, ?_⟩ <;> nlinarith
  · have hy : y = (x1 + x2) / 2 := same h
    rw [hy]
    rw [← h] at f2 ⊢
    refine ⟨⟨?_, ?_⟩, ?_, ?_⟩ <;> linarith [f1.1, f1.2, f2.1, f2.2]
  · have e : ⌊x1 / dx⌋ = ⌊x2 / dx⌋ + 1 := by omega
    have e' : (⌊x1 / dx⌋ : K) = ⌊x2 / dx⌋ + 1 := by rw [e]; push_cast; rfl
    have hy : y = ((⌊x2 / dx⌋ : K) + 1) * dx := down h
    rw [hy, e']
    refine ⟨⟨?_, ?_⟩, ?_, ?_⟩ <;> nlinarith

/-- What the operations of a particle add up to on unit cells. -/
theorem cellOps_jr (x : Ctx K) (h1 : x.g.dr = 1) (h2 : x.g.dz = 1) (p : Part K) (iN iO kN kO iM a b : Int) :
    tot (cellOps x p iN iO kN kO iM) .jr a b = p.q / x.dt / cellVolume x.pi (iM : K) 1 1 *
      (flowR p.rOld (relayPoint iO iN p.rOld p.r 1) p.zOld (relayPoint kO kN p.zOld p.z 1) iO kO (a + x.g.r0) (b + x.g.z0) +
       flowR (relayPoint iO iN p.rOld p.r 1) p.r (relayPoint kO kN p.zOld p.z 1) p.z iN kN (a + x.g.r0) (b + x.g.z0)) := by
  have A : ∀ u : Int, a = u - x.g.r0 ↔ a + x.g.r0 = u := fun u => by omega
  have B : ∀ u : Int, b = u - x.g.z0 ↔ b + x.g.z0 = u := fun u => by omega
  have B1 : ∀ u : Int, b = u - x.g.z0 + 1 ↔ b + x.g.z0 = u + 1 := fun u => by omega
  unfold cellOps flowR
  simp only [tot_cons, tot_nil, Op.val, reduceCtorEq, false_and, true_and, if_false, A, B, B1, h1, h2, mul_one]
  have X : ∀ u v w : Int, (w = u ∧ b + (x.g.z0 : Int) = v) → ¬ (w = u ∧ b + (x.g.z0 : Int) = v + 1) := fun u v w => by omega
  by_cases c1 : a + (x.g.r0 : Int) = iO ∧ b + (x.g.z0 : Int) = kO <;> by_cases c2 : a + (x.g.r0 : Int) = iN ∧ b + (x.g.z0 : Int) = kN <;>
    (first
      | (have d1 := X _ _ _ c1; have d2 := X _ _ _ c2; simp only [if_pos c1, if_pos c2, if_neg d1, if_neg d2]; ring)
      | (have d1 := X _ _ _ c1; simp only [if_pos c1, if_neg c2, if_neg d1]; split_ifs <;> ring)
      | (have d2 := X _ _ _ c2; simp only [if_neg c1, if_pos c2, if_neg d2]; split_ifs <;> ring)
      | (simp only [if_neg c1, if_neg c2]; split_ifs <;> ring))

theorem cellOps_jz (x : Ctx K) (h1 : x.g.dr = 1) (h2 : x.g.dz = 1) (p : Part K) (iN iO kN kO iM a b : Int) :
    tot (cellOps x p iN iO kN kO iM) .jz a b = p.q / x.dt / cellVolume x.pi (iM : K) 1 1 *
      (flowZ p.rOld (relayPoint iO iN p.rOld p.r 1) p.zOld (relayPoint kO kN p.zOld p.z 1) iO kO (a + x.g.r0) (b + x.g.z0) +
       flowZ (relayPoint iO iN p.rOld p.r 1) p.r (relayPoint kO kN p.zOld p.z 1) p.z iN kN (a + x.g.r0) (b + x.g.z0)) := by
  have A : ∀ u : Int, a = u - x.g.r0 ↔ a + x.g.r0 = u := fun u => by omega
  have B : ∀ u : Int, b = u - x.g.z0 ↔ b + x.g.z0 = u := fun u => by omega
  have A1 : ∀ u : Int, a = u - x.g.r0 + 1 ↔ a + x.g.r0 = u + 1 := fun u => by omega
  unfold cellOps flowZ
  simp only [tot_cons, tot_nil, Op.val, reduceCtorEq, false_and, true_and, if_false, A, B, A1, h1, h2, mul_one]
  have X : ∀ u v w : Int, (a + (x.g.r0 : Int) = u ∧ w = v) → ¬ (a + (x.g.r0 : Int) = u + 1 ∧ w = v) := fun u v w => by omega
  by_cases c1 : a + (x.g.r0 : Int) = iO ∧ b + (x.g.z0 : Int) = kO <;> by_cases c2 : a + (x.g.r0 : Int) = iN ∧ b + (x.g.z0 : Int) = kN <;>
    (first
      | (have d1 := X _ _ _ c1; have d2 := X _ _ _ c2; simp only [if_pos c1, if_pos c2, if_neg d1, if_neg d2]; ring)
      | (have d1 := X _ _ _ c1; simp only [if_pos c1, if_neg c2, if_neg d1]; split_ifs <;> ring)
      | (have d2 := X _ _ _ c2; simp only [if_neg c1, if_pos c2, if_neg d2]; split_ifs <;> ring)
      | (simp only [if_neg c1, if_neg c2]; split_ifs <;> ring))

/-- C82, on cells of size one: for every particle of the domain that moves within its cell or to a neighbour
cell the currents that one turn of the loop adds satisfy the continuity equation at every node. -/
theorem C82_continuity_partial (x : Ctx K) (hx : x.Good) (h1 : x.g.dr = 1) (h2 : x.g.dz = 1) (p : Part K)
    (hb : p.Bound x.g) (hn : p.NearCell x.g) (m : Mem K) :
    ∃ m', particle x p m = .ok m' ∧
      LinContinuity x.g x.dt (midVolume x p) p.q p.r p.z p.rOld p.zOld (fun c i k => m' c i k - m c i k) := by
  obtain ⟨e, hi⟩ := near_cells x hx p hb hn
  obtain ⟨m', e1, v⟩ := runOps_inc x.g _ hi m
  refine ⟨m', by unfold particle; rw [e, Res.ok_bind]; exact e1, ?_⟩
  have dv : (fun c i k => m' c i k - m c i k) = tot (cellOps x p ⌊p.r / x.g.dr⌋ ⌊p.rOld / x.g.dr⌋ ⌊p.z / x.g.dz⌋
      ⌊p.zOld / x.g.dz⌋ ⌊(p.r + p.rOld) / 2 / x.g.dr⌋) := by
    funext c i k; rw [v]; ring
  rw [dv]
  intro a b
  unfold div linCharge
  rw [cellOps_jr x h1 h2, cellOps_jr x h1 h2, cellOps_jz x h1 h2, cellOps_jz x h1 h2]
  have vm := midVolume_eq x p
  rw [h1, h2] at vm
  obtain ⟨⟨n1, n2⟩, n3, n4⟩ := hn
  rw [h1] at n1 n2
  rw [h2] at n3 n4
  have fr := floor_cell (one_pos : (0 : K) < 1) p.r
  have fro := floor_cell (one_pos : (0 : K) < 1) p.rOld
  have fz := floor_cell (one_pos : (0 : K) < 1) p.z
  have fzo := floor_cell (one_pos : (0 : K) < 1) p.zOld
  obtain ⟨⟨r1, r2⟩, r3, r4⟩ := relay_both (one_pos : (0 : K) < 1) p.rOld p.r n1 n2
  obtain ⟨⟨z1, z2⟩, z3, z4⟩ := relay_both (one_pos : (0 : K) < 1) p.zOld p.z n3 n4
  rw [h1, h2, vm]
  simp only [mul_one] at fr fro fz fzo r1 r2 r3 r4 z1 z2 z3 z4
  have P1 := piece fro.1 fro.2.le r1 r2 fzo.1 fzo.2.le z1 z2 (a + x.g.r0) (b + x.g.z0)
  have P2 := piece r3 r4 fr.1 fr.2.le z3 z4 fz.1 fz.2.le (a + x.g.r0) (b + x.g.z0)
  have ea : a - 1 + (x.g.r0 : Int) = a + x.g.r0 - 1 := by ring
  have eb : b - 1 + (x.g.z0 : Int) = b + x.g.z0 - 1 := by ring
  rw [ea, eb]
  simp only [div_one] at P1 P2 ⊢
  have dt := hx.dt.ne'
  rw [mul_assoc p.q, mul_assoc p.q, ← sub_div, ← mul_sub]
  rw [show hat p.r (a + x.g.r0) * hat p.z (b + x.g.z0) - hat p.rOld (a + x.g.r0) * hat p.zOld (b + x.g.z0) =
    (hat (relayPoint ⌊p.rOld⌋ ⌊p.r⌋ p.rOld p.r 1) (a + x.g.r0) * hat (relayPoint ⌊p.zOld⌋ ⌊p.z⌋ p.zOld p.z 1) (b + x.g.z0) - hat p.rOld (a + x.g.r0) * hat p.zOld (b + x.g.z0)) +
    (hat p.r (a + x.g.r0) * hat p.z (b + x.g.z0) - hat (relayPoint ⌊p.rOld⌋ ⌊p.r⌋ p.rOld p.r 1) (a + x.g.r0) * hat (relayPoint ⌊p.zOld⌋ ⌊p.z⌋ p.zOld p.z 1) (b + x.g.z0)) from by ring, P1, P2]
  have cancel : ∀ u : K, - x.dt * (p.q / x.dt / midVolume x p * u) = - (p.q * u / midVolume x p) := by
    intro u; field_simp
  rw [show ∀ A B C D E F G H : K, ∀ w : K, -x.dt * (w * (A + B) - w * (C + D) + (w * (E + F) - w * (G + H))) =
    -x.dt * (w * (A + B - (C + D) + (E + F - (G + H)))) from fun A B C D E F G H w => by ring, cancel]
  ring

theorem midVolume_pos (x : Ctx K) (hx : x.Good) (p : Part K) (hb : p.Bound x.g) : 0 < midVolume x p := by
  have i0 : 0 ≤ ⌊(p.r + p.rOld) / 2 / x.g.dr⌋ :=
    Int.floor_nonneg.mpr (div_nonneg (by linarith [hb.rpos, hb.rOldPos]) hx.geo.dr.le)
  have i0 : (0 : K) ≤ (⌊(p.r + p.rOld) / 2 / x.g.dr⌋ : K) := by exact_mod_cast i0
  rw [← midVolume_eq]
  unfold cellVolume
  have := hx.pi; have := hx.geo.dr; have := hx.geo.dz
  positivity

theorem hat_low {x d : K} (hd : 0 < d) (i : Int) (h : (i : K) * d ≤ x ∧ x < ((i : K) + 1) * d) :
    hat (x / d) i = i + 1 - x / d := by
  rw [hat_cell ((le_div_iff₀ hd).mpr h.1) ((div_le_iff₀ hd).mpr h.2.le), if_pos rfl]

/-- C82 fails for every other axial cell size: the shares are lengths, not fractions of a cell.  A charge that
moves radially inside its cell, off the grid line, violates the continuity equation. -/
theorem C82_cell_size_fails (x : Ctx K) (hx : x.Good) (h2 : x.g.dz ≠ 1) (p : Part K) (hb : p.Bound x.g)
    (hs : p.SameCell x.g) (hq : p.q ≠ 0) (hr : p.r ≠ p.rOld) (hz : p.z = p.zOld)
    (hline : p.z ≠ (⌊p.z / x.g.dz⌋ : K) * x.g.dz) (m : Mem K) :
    ∃ m', particle x p m = .ok m' ∧
      ¬ LinContinuity x.g x.dt (midVolume x p) p.q p.r p.z p.rOld p.zOld (fun c i k => m' c i k - m c i k) := by
  have hn : p.NearCell x.g := by obtain ⟨h1, h2⟩ := hs; unfold Part.NearCell; omega
  obtain ⟨e, hi⟩ := near_cells x hx p hb hn
  obtain ⟨m', e1, v⟩ := runOps_inc x.g _ hi m
  refine ⟨m', by unfold particle; rw [e, Res.ok_bind]; exact e1, ?_⟩
  have dv : (fun c i k => m' c i k - m c i k) = tot (cellOps x p ⌊p.r / x.g.dr⌋ ⌊p.rOld / x.g.dr⌋ ⌊p.z / x.g.dz⌋
      ⌊p.zOld / x.g.dz⌋ ⌊(p.r + p.rOld) / 2 / x.g.dr⌋) := by
    funext c i k; rw [v]; ring
  rw [dv]
  intro C
  have C := C (⌊p.r / x.g.dr⌋ - x.g.r0) (⌊p.z / x.g.dz⌋ - x.g.z0)
  rw [hs.1, hs.2] at C
  have vol := midVolume_pos x hx p hb
  have fr := floor_cell hx.geo.dr p.r
  have fro := floor_cell hx.geo.dr p.rOld
  have fz := floor_cell hx.geo.dz p.z
  rw [hs.1] at fro
  have rz : relayPoint ⌊p.z / x.g.dz⌋ ⌊p.z / x.g.dz⌋ p.zOld p.z x.g.dz = p.z := by
    rw [← hz, relay_same fz fz]; ring
  have q1 : ∀ u w : Int, u - w - 1 ≠ u - w := fun u w => by omega
  have q2 : ∀ u w : Int, u - w ≠ u - w + 1 := fun u w => by omega
  have q3 : ∀ u w : Int, u - w - 1 ≠ u - w + 1 := fun u w => by omega
  unfold div linCharge at C
  rw [sub_add_cancel, sub_add_cancel, hat_low hx.geo.dr _ fr, hat_low hx.geo.dr _ fro, ← hz, hat_low hx.geo.dz _ fz] at C
  unfold cellOps at C
  simp only [tot_cons, tot_nil, Op.val, reduceCtorEq, false_and, and_false, true_and, if_false, if_true, q1, q2, q3,
    and_self, ← hz, midVolume_eq, add_zero, zero_add, sub_zero] at C
  have rz' : relayPoint ⌊p.z / x.g.dz⌋ ⌊p.z / x.g.dz⌋ p.z p.z x.g.dz = p.z := by
    rw [relay_same fz fz]; ring
  rw [rz'] at C
  have dt := hx.dt.ne'
  have dr := hx.geo.dr.ne'
  have dz := hx.geo.dz.ne'
  have v0 := vol.ne'
  have k : p.q * (p.r - p.rOld) / (midVolume x p * x.g.dr) * ((p.z - ⌊p.z / x.g.dz⌋ * x.g.dz) * (1 - 1 / x.g.dz)) = 0 := by
    generalize relayPoint ⌊p.r / x.g.dr⌋ ⌊p.r / x.g.dr⌋ p.rOld p.r x.g.dr = rr at C
    generalize (p.vphi * x.dt / (2 * x.pi * (p.rOld + p.r))) = w at C
    generalize (⌊p.z / x.g.dz⌋ : K) = k at C ⊢
    generalize (⌊p.r / x.g.dr⌋ : K) = i at C ⊢
    clear v dv e e1 hi rz rz' q1 q2 q3
    field_simp at C ⊢
    linear_combination (-(p.q / 2)) * C
  rcases mul_eq_zero.mp k with k | k
  · exact div_ne_zero (mul_ne_zero hq (sub_ne_zero.mpr hr)) (mul_ne_zero v0 dr) k
  · rcases mul_eq_zero.mp k with k | k
    · exact hline (sub_eq_zero.mp k)
    · apply h2
      field_simp at k
      linarith

/-! ### The whole call -/

theorem particle_alone (x : Ctx K) (hx : x.Good) (p : Part K) (hb : p.Bound x.g) (hn : p.NearCell x.g) :
    ∃ D : Mem K, ∀ m : Mem K, ∃ m', particle x p m = .ok m' ∧ ∀ c i k, m' c i k = m c i k + D c i k := by
  obtain ⟨e, hi⟩ := near_cells x hx p hb hn
  refine ⟨tot (cellOps x p ⌊p.r / x.g.dr⌋ ⌊p.rOld / x.g.dr⌋ ⌊p.z / x.g.dz⌋ ⌊p.zOld / x.g.dz⌋
    ⌊(p.r + p.rOld) / 2 / x.g.dr⌋), fun m => ?_⟩
  obtain ⟨m', e1, v⟩ := runOps_inc x.g _ hi m
  exact ⟨m', by unfold particle; rw [e, Res.ok_bind]; exact e1, v⟩

theorem loop_sum {α : Type _} (f : α → Mem K → Res (Mem K)) (D : α → Mem K) (ps : List α)
    (h : ∀ p ∈ ps, ∀ m : Mem K, ∃ m', f p m = .ok m' ∧ ∀ c i k, m' c i k = m c i k + D p c i k) (m : Mem K) :
    ∃ m', loop f ps m = .ok m' ∧ ∀ c i k, m' c i k = m c i k + (ps.map (fun p => D p c i k)).sum := by
  induction ps generalizing m with
  | nil => exact ⟨m, rfl, fun c i k => by simp⟩
  | cons p l ih =>
    obtain ⟨m1, e1, v1⟩ := h p (by simp) m
    obtain ⟨m2, e2, v2⟩ := ih (fun q hq => h q (by simp [hq])) m1
    refine ⟨m2, by rw [loop_cons, e1, Res.ok_bind]; exact e2, fun c i k => ?_⟩
    rw [v2, v1]
    simp only [List.map_cons, List.sum_cons]
    ring

/-- C20, the whole call: it succeeds for every list of such particles; afterwards a current in the domain is what
it was before plus the sum of what each particle alone deposits on empty grids, and the overlay holds nothing but
deposits of this call. -/
theorem C20_call_partial (x : Ctx K) (hx : x.Good) (ps : List (Part K))
    (h : ∀ p ∈ ps, p.Bound x.g ∧ p.NearCell x.g) (m : Mem K) :
    ∃ (m' : Mem K) (D : Part K → Mem K), currentDistribution x ps m = .ok m' ∧
      (∀ p ∈ ps, particle x p (fun _ _ _ => 0) = .ok (D p)) ∧
      ∀ c, c = .jr ∨ c = .jp ∨ c = .jz → ∀ i k : Int,
        (0 ≤ i ∧ i < x.g.nr ∧ 0 ≤ k ∧ k < x.g.nz → m' c i k = m c i k + (ps.map (fun p => D p c i k)).sum) ∧
        (insideG x.g i k → ¬ (0 ≤ i ∧ i < x.g.nr ∧ 0 ≤ k ∧ k < x.g.nz) → m' c i k = (ps.map (fun p => D p c i k)).sum) := by
  classical
  have ex : ∀ p : Part K, ∃ D : Mem K, p ∈ ps → ∀ m : Mem K, ∃ m', particle x p m = .ok m' ∧ ∀ c i k, m' c i k = m c i k + D c i k := by
    intro p
    by_cases hp : p ∈ ps
    · obtain ⟨D, hD⟩ := particle_alone x hx p (h p hp).1 (h p hp).2
      exact ⟨D, fun _ => hD⟩
    · exact ⟨fun _ _ _ => 0, fun k => absurd k hp⟩
  choose D hD using ex
  obtain ⟨m', e, v⟩ := loop_sum (particle x) D ps (fun p hp => hD p hp) (overlayClear x.g m)
  refine ⟨m', D, e, ?_, ?_⟩
  · intro p hp
    obtain ⟨m1, e1, v1⟩ := hD p hp (fun _ _ _ => 0)
    rw [e1]
    congr 1
    funext c i k
    rw [v1, zero_add]
  · intro c hc i k
    rw [v]
    unfold overlayClear
    constructor
    · rintro ⟨a1, a2, a3, a4⟩
      rw [if_neg]
      rintro ⟨_, _, n⟩
      exact n ⟨⟨a1, a2⟩, a3, a4⟩
    · intro hin hout
      rw [if_pos ⟨hc, hin, fun q => hout ⟨q.1.1, q.1.2, q.2.1, q.2.2⟩⟩, zero_add]

/-- C20: the order of the particles does not matter. -/
theorem C20_order_partial (x : Ctx K) (hx : x.Good) (ps qs : List (Part K)) (hp : ps.Perm qs)
    (h : ∀ p ∈ ps, p.Bound x.g ∧ p.NearCell x.g) (m : Mem K) :
    currentDistribution x ps m = currentDistribution x qs m := by
  classical
  have ex : ∀ p : Part K, ∃ D : Mem K, p ∈ ps → ∀ m : Mem K, ∃ m', particle x p m = .ok m' ∧ ∀ c i k, m' c i k = m c i k + D c i k := by
    intro p
    by_cases hp : p ∈ ps
    · obtain ⟨D, hD⟩ := particle_alone x hx p (h p hp).1 (h p hp).2
      exact ⟨D, fun _ => hD⟩
    · exact ⟨fun _ _ _ => 0, fun k => absurd k hp⟩
  choose D hD using ex
  obtain ⟨m1, e1, v1⟩ := loop_sum (particle x) D ps (fun p hp => hD p hp) (overlayClear x.g m)
  obtain ⟨m2, e2, v2⟩ := loop_sum (particle x) D qs (fun p hq => hD p (hp.mem_iff.mpr hq)) (overlayClear x.g m)
  unfold currentDistribution
  rw [e1, e2]
  congr 1
  funext c i k
  rw [v1, v2, (hp.map _).sum_eq]

/-! ### Concrete cases -/

def exWide : Ctx ℚ := ⟨⟨1, 1/2, 0, 0, 4, 4⟩, 1, 22/7, 1/1000, fun y => y - 1⟩
def exR : Part ℚ := ⟨7/4, 3/4, 5/4, 3/4, 1, 1, 1, 3⟩

theorem exWide_good : exWide.Good := ⟨⟨by decide +kernel, by decide +kernel, by decide, by decide⟩, by decide +kernel,
  by decide +kernel, by decide +kernel⟩
theorem exR_bound : exR.Bound exWide.g := ⟨⟨by decide +kernel, by decide +kernel, by decide +kernel, by decide +kernel⟩,
  by decide +kernel, by decide +kernel, by decide +kernel, by decide +kernel⟩

example (m : Mem ℚ) := C82_continuity_partial exCtx exCtx_good rfl rfl exP exP_bound
  (by unfold Part.NearCell; decide +kernel) m
example (m : Mem ℚ) := C82_cell_size_fails exWide exWide_good (by decide +kernel) exR exR_bound
  (by unfold Part.SameCell; decide +kernel) (by decide +kernel) (by decide +kernel) (by decide +kernel)
  (by decide +kernel) m
theorem ex_all : ∀ p ∈ [exP, exQ], p.Bound exCtx.g ∧ p.NearCell exCtx.g := by
  intro p hp
  simp only [List.mem_cons, List.not_mem_nil, or_false] at hp
  rcases hp with rfl | rfl
  · exact ⟨exP_bound, by unfold Part.NearCell; decide +kernel⟩
  · exact ⟨exQ_bound, by unfold Part.NearCell; decide +kernel⟩
example (m : Mem ℚ) := C20_call_partial exCtx exCtx_good [exP, exQ] ex_all m
example (m : Mem ℚ) := C20_order_partial exCtx exCtx_good [exP, exQ] [exQ, exP] (List.Perm.swap _ _ _) ex_all m

end ZigZag
end Pico
