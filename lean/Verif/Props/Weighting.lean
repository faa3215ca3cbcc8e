import Verif.Lemmas.Weighter
import Mathlib.Data.List.Perm.Basic
import Mathlib.Tactic.NormNum
import Mathlib.Data.Rat.Floor

/-! # C13, C14 — weighting of particles onto the density map -/

set_option linter.unusedSimpArgs false
set_option linter.unusedVariables false

namespace Pico

variable {K : Type _} [Field K] [LinearOrder K] [IsStrictOrderedRing K] [FloorRing K]

/-- The divisor that the code uses for the lower cells `(i, k)`, `(i, k+1)`. -/
def divLow (pi dr dz r : K) (i : Nat) : K := pi * dz * dr * dr * (if dr < r then 2 * (i : K) + 1 else 1)
/-- The divisor that the code uses for the upper cells `(i+1, k)`, `(i+1, k+1)`. -/
def divHigh (pi dr dz : K) (i : Nat) : K := pi * dz * dr * dr * (2 * i + 2)

theorem divLow_pos {pi dr dz r : K} (hpi : 0 < pi) (hdr : 0 < dr) (hdz : 0 < dz) (i : Nat) :
    0 < divLow pi dr dz r i := by
  unfold divLow
  have : (0 : K) < if dr < r then 2 * (i : K) + 1 else 1 := by split <;> positivity
  positivity

theorem divHigh_pos {pi dr dz : K} (hpi : 0 < pi) (hdr : 0 < dr) (hdz : 0 < dz) (i : Nat) :
    0 < divHigh pi dr dz i := by
  unfold divHigh
  positivity

/-- The radial extents the code assigns to the lower and the upper cell, and their sum. -/
def radLow (dr r : K) (i : Nat) : K :=
  if r ≤ dr / 2 then dr * dr / 2 - r * dr + r * r
  else ((i + 1/2) * dr) ^ 2 - (r - 1/2 * dr) ^ 2
def radHigh (dr r : K) (i : Nat) : K := (r + 1/2 * dr) ^ 2 - ((i + 1/2) * dr) ^ 2
def radSum (dr r : K) : K := if r ≤ dr / 2 then 2 * r * r + dr * dr / 2 else 2 * r * dr

theorem rad_sum (dr r : K) (i : Nat) (h : r ≤ dr / 2 → i = 0) :
    radLow dr r i + radHigh dr r i = radSum dr r := by
  unfold radLow radHigh radSum
  split
  · rename_i hr
    rw [h hr]
    push_cast
    ring
  · ring

/-- Uniform description of the four deposits. -/
theorem depositOf_eq (pi : K) (g : Geom K) (hpi : 0 < pi) (G : g.Good) {r z : K} (hr : 0 ≤ r) (w : K)
    {i k : Nat} (i1 : (i : K) * g.dr ≤ r) (i2 : r < ((i : K) + 1) * g.dr) :
    let c := w / (g.dz * radSum g.dr r)
    let lo := pi * radLow g.dr r i / divLow pi g.dr g.dz r i
    let hi := pi * radHigh g.dr r i / divHigh pi g.dr g.dz i
    let d := depositOf pi g r z w i k
    d.d00 = c / pi * (((k : K) + 1) * g.dz - z) * lo ∧ d.d10 = c / pi * (((k : K) + 1) * g.dz - z) * hi ∧
    d.d01 = c / pi * (z - k * g.dz) * lo ∧ d.d11 = c / pi * (z - k * g.dz) * hi := by
  have hdr := G.dr
  have hdz := G.dz
  have hzero : r ≤ g.dr → r < g.dr → i = 0 := by
    intro _ h
    by_contra hi
    have : (1 : K) ≤ (i : K) := by exact_mod_cast Nat.one_le_iff_ne_zero.mpr hi
    nlinarith
  dsimp only
  unfold depositOf
  dsimp only
  by_cases hb : r > g.dr
  · rw [if_pos hb]
    have h2 : ¬ r ≤ g.dr / 2 := by intro h; linarith
    have hrp : 0 < r := by linarith
    unfold divLow divHigh radLow radHigh radSum cellVolume cellVolumeNext cylRngVol
    rw [if_pos hb, if_neg h2, if_neg h2]
    have hn1 : (2 * (i : K) + 1) ≠ 0 := by positivity
    have hn2 : (2 * (i : K) + 1 + 1) ≠ 0 := by positivity
    have hn3 : (2 * (i : K) + 2) ≠ 0 := by positivity
    have e : (2 * (i : K) + 1 + 1) = 2 * i + 2 := by ring
    rw [e]
    refine ⟨?_, ?_, ?_, ?_⟩ <;> field_simp <;> ring
  · rw [if_neg hb]
    by_cases h2 : r ≤ g.dr / 2
    · rw [if_pos h2]
      have hi := hzero (by linarith) (by linarith)
      subst hi
      have hs : 0 < 2 * r * r + g.dr * g.dr / 2 := by nlinarith [mul_pos hdr hdr, mul_nonneg hr hr]
      have hs' := hs.ne'
      unfold divLow divHigh radLow radHigh radSum cellVolume cellVolumeNext cylRngVol
      rw [if_neg hb, if_pos h2, if_pos h2]
      push_cast
      generalize hS : 2 * r * r + g.dr * g.dr / 2 = S at hs' ⊢
      refine ⟨?_, ?_, ?_, ?_⟩ <;> field_simp <;> ring
    · rw [if_neg h2]
      have hrp : 0 < r := by linarith
      unfold divLow divHigh radLow radHigh radSum cellVolumeNext cylRngVol cylVol
      rw [if_neg hb, if_neg h2, if_neg h2]
      have hn2 : (2 * (i : K) + 1 + 1) ≠ 0 := by positivity
      have hn3 : (2 * (i : K) + 2) ≠ 0 := by positivity
      have e : (2 * (i : K) + 1 + 1) = 2 * i + 2 := by ring
      rw [e]
      refine ⟨?_, ?_, ?_, ?_⟩ <;> field_simp <;> ring

theorem rad_nonneg {dr r : K} (hdr : 0 < dr) (hr : 0 ≤ r) {i : Nat} (i1 : (i : K) * dr ≤ r)
    (i2 : r < ((i : K) + 1) * dr) :
    0 ≤ radLow dr r i ∧ 0 ≤ radHigh dr r i ∧ 0 < radSum dr r := by
  have hi : (0 : K) ≤ i := Nat.cast_nonneg i
  have hid : 0 ≤ (i : K) * dr := by positivity
  refine ⟨?_, ?_, ?_⟩
  · unfold radLow
    split
    · nlinarith [sq_nonneg (r - dr / 2), mul_pos hdr hdr]
    · rename_i h
      have a : r - 1/2 * dr ≤ (i + 1/2) * dr := by linarith
      have b : 0 ≤ r - 1/2 * dr := by linarith
      nlinarith
  · unfold radHigh
    have a : (i + 1/2) * dr ≤ r + 1/2 * dr := by linarith
    have b : 0 ≤ (i + 1/2) * dr := by linarith
    nlinarith
  · unfold radSum
    split
    · nlinarith [mul_pos hdr hdr, mul_nonneg hr hr]
    · rename_i h
      have : 0 < r := by linarith
      positivity

/-! ## C14 -/

/-- **Local, non-negative, inside the map.**  A particle in the domain with non-negative weight is
weighted without undefined behaviour; exactly the four cells around it may change, all four are
allocated cells of the map, and every change is non-negative. -/
theorem C14_local (pi : K) (hpi : 0 < pi) (g : Geom K) (G : g.Good) (m : Grid K) (M : g.MapOf m)
    {r z : K} (C : g.Contains r z) {w : K} (hw : 0 ≤ w) :
    ∃ m' δ, weightCyl pi g m r z w = .ok m' ∧ m.Added m' δ ∧
      ∃ i k : Nat, (i * g.dr ≤ r ∧ r < (i + 1) * g.dr) ∧ (k * g.dz ≤ z ∧ z < (k + 1) * g.dz) ∧
        (∀ x y : Int, (x + g.r0 = i ∨ x + g.r0 = i + 1) ∧ (y + g.z0 = k ∨ y + g.z0 = k + 1) →
          m.Inside x y ∧ 0 ≤ δ x y) ∧
        (∀ x y : Int, ¬ ((x + g.r0 = i ∨ x + g.r0 = i + 1) ∧ (y + g.z0 = k ∨ y + g.z0 = k + 1)) →
          δ x y = 0) := by
  have hr : 0 ≤ r := le_trans (mul_nonneg (Nat.cast_nonneg _) G.dr.le) C.rlo
  obtain ⟨i, k, hi, hk, ⟨i3, i4⟩, ⟨k3, k4⟩, m', e, A⟩ := weightCyl_added pi g G m M C w
  refine ⟨m', _, e, A, i, k, ⟨i3, i4⟩, ⟨k3, k4⟩, ?_, ?_⟩
  · intro x y hxy
    refine ⟨?_, ?_⟩
    · have := M.xs
      have := M.ys
      have := M.os
      unfold Grid.Inside
      omega
    · obtain ⟨h1, h2, h3, h4⟩ := depositOf_eq pi g hpi G (z := z) hr w (k := k) i3 i4
      obtain ⟨n1, n2, n3⟩ := rad_nonneg G.dr hr i3 i4
      have p1 := divLow_pos (r := r) hpi G.dr G.dz i
      have p2 := divHigh_pos hpi G.dr G.dz i
      have hdz := G.dz
      have z1 : 0 ≤ ((k : K) + 1) * g.dz - z := by linarith
      have z2 : 0 ≤ z - k * g.dz := by linarith
      have e1 : 0 ≤ (depositOf pi g r z w i k).d00 := by rw [h1]; positivity
      have e2 : 0 ≤ (depositOf pi g r z w i k).d10 := by rw [h2]; positivity
      have e3 : 0 ≤ (depositOf pi g r z w i k).d01 := by rw [h3]; positivity
      have e4 : 0 ≤ (depositOf pi g r z w i k).d11 := by rw [h4]; positivity
      unfold Deposit.δ Grid.single
      refine add_nonneg (add_nonneg (add_nonneg ?_ ?_) ?_) ?_ <;> split <;> first | assumption | exact le_refl _
  · intro x y hxy
    unfold Deposit.δ Grid.single
    rw [if_neg (by omega), if_neg (by omega), if_neg (by omega), if_neg (by omega)]
    simp

/-! ## C13 -/

/-- **Conservation** (first half of C13).  The four changes, each multiplied by the volume it was
normalised with, sum up to the weight of the particle, for every position including the axis.
What is missing: `divLow`/`divHigh` are not the ring volumes of the cells that receive the
deposits, see `C13_true_volume_fails`. -/
theorem C13_conserves_partial (pi : K) (hpi : 0 < pi) (g : Geom K) (G : g.Good) (m : Grid K)
    (M : g.MapOf m) {r z : K} (C : g.Contains r z) (w : K) :
    ∃ m' δ, weightCyl pi g m r z w = .ok m' ∧ m.Added m' δ ∧
      ∃ i k : Nat, (i * g.dr ≤ r ∧ r < (i + 1) * g.dr) ∧ (k * g.dz ≤ z ∧ z < (k + 1) * g.dz) ∧
        (let x : Int := i - g.r0; let y : Int := k - g.z0
         (δ x y + δ x (y + 1)) * divLow pi g.dr g.dz r i +
         (δ (x + 1) y + δ (x + 1) (y + 1)) * divHigh pi g.dr g.dz i = w) := by
  have hr : 0 ≤ r := le_trans (mul_nonneg (Nat.cast_nonneg _) G.dr.le) C.rlo
  obtain ⟨i, k, hi, hk, ⟨i3, i4⟩, ⟨k3, k4⟩, m', e, A⟩ := weightCyl_added pi g G m M C w
  refine ⟨m', _, e, A, i, k, ⟨i3, i4⟩, ⟨k3, k4⟩, ?_⟩
  obtain ⟨h1, h2, h3, h4⟩ := depositOf_eq pi g hpi G (z := z) hr w (k := k) i3 i4
  obtain ⟨n1, n2, n3⟩ := rad_nonneg G.dr hr i3 i4
  have p1 := (divLow_pos (r := r) hpi G.dr G.dz i).ne'
  have p2 := (divHigh_pos hpi G.dr G.dz i).ne'
  have hdr := G.dr
  have hdz := G.dz
  have hs := rad_sum g.dr r i (by
    intro h
    by_contra hi0
    have : (1 : K) ≤ (i : K) := by exact_mod_cast Nat.one_le_iff_ne_zero.mpr hi0
    nlinarith)
  have hδ : ∀ d : Deposit K,
      (d.δ ((i : Int) - g.r0) ((k : Int) - g.z0) ((i : Int) - g.r0) ((k : Int) - g.z0) = d.d00) ∧
      (d.δ ((i : Int) - g.r0) ((k : Int) - g.z0) ((i : Int) - g.r0 + 1) ((k : Int) - g.z0) = d.d10) ∧
      (d.δ ((i : Int) - g.r0) ((k : Int) - g.z0) ((i : Int) - g.r0) ((k : Int) - g.z0 + 1) = d.d01) ∧
      (d.δ ((i : Int) - g.r0) ((k : Int) - g.z0) ((i : Int) - g.r0 + 1) ((k : Int) - g.z0 + 1) = d.d11) := by
    intro d
    unfold Deposit.δ Grid.single
    refine ⟨?_, ?_, ?_, ?_⟩ <;> simp
  obtain ⟨q1, q2, q3, q4⟩ := hδ (depositOf pi g r z w i k)
  dsimp only
  rw [q1, q2, q3, q4, h1, h2, h3, h4]
  have hR := n3.ne'
  have key : ∀ A B L H S : K, L ≠ 0 → H ≠ 0 → S ≠ 0 → A + B = S →
      (w / (g.dz * S) / pi * (((k : K) + 1) * g.dz - z) * (pi * A / L) +
        w / (g.dz * S) / pi * (z - k * g.dz) * (pi * A / L)) * L +
      (w / (g.dz * S) / pi * (((k : K) + 1) * g.dz - z) * (pi * B / H) +
        w / (g.dz * S) / pi * (z - k * g.dz) * (pi * B / H)) * H = w := by
    intro A B L H S hL hH hS hAB
    subst hAB
    field_simp
    ring
  exact key _ _ _ _ _ p1 p2 hR hs

/-- Share of the particle ring in the cells of the two radial nodes: off the axis
(`r > dr/2`) the deposits are exactly the overlaps of the particle's ring with the cells of the
four nodes around, divided by the ring's volume and by the divisor. -/
theorem C13_shares_partial (pi : K) (hpi : 0 < pi) (g : Geom K) (G : g.Good) {r z : K}
    (hr : g.dr / 2 < r) (w : K) {i k : Nat}
    (i1 : (i : K) * g.dr ≤ r) (i2 : r < ((i : K) + 1) * g.dr)
    (k1 : (k : K) * g.dz ≤ z) (k2 : z < ((k : K) + 1) * g.dz) :
    let vol := 2 * pi * r * g.dr * g.dz
    let d := depositOf pi g r z w i k
    d.d00 * divLow pi g.dr g.dz r i = w * (pi * ringShare g.dr r i * lineShare g.dz z k) / vol ∧
    d.d10 * divHigh pi g.dr g.dz i = w * (pi * ringShare g.dr r (i + 1) * lineShare g.dz z k) / vol ∧
    d.d01 * divLow pi g.dr g.dz r i = w * (pi * ringShare g.dr r i * lineShare g.dz z (k + 1)) / vol ∧
    d.d11 * divHigh pi g.dr g.dz i = w * (pi * ringShare g.dr r (i + 1) * lineShare g.dz z (k + 1)) / vol := by
  have hdr := G.dr
  have hdz := G.dz
  have hr0 : 0 < r := by linarith
  obtain ⟨h1, h2, h3, h4⟩ := depositOf_eq pi g hpi G (z := z) hr0.le w (k := k) i1 i2
  have p1 := (divLow_pos (r := r) hpi G.dr G.dz i).ne'
  have p2 := (divHigh_pos hpi G.dr G.dz i).ne'
  obtain ⟨n1, n2, _⟩ := rad_nonneg hdr hr0.le i1 i2
  have hnot : ¬ r ≤ g.dr / 2 := not_le.mpr hr
  have s0 : ringShare g.dr r i = radLow g.dr r i := by
    have : radLow g.dr r i = ((i + 1/2) * g.dr) ^ 2 - (r - g.dr / 2) ^ 2 := by
      unfold radLow; rw [if_neg hnot]; ring
    unfold ringShare
    rw [min_eq_right (by linarith), max_eq_left (a := r - g.dr / 2) (by linarith), ← this, max_eq_right n1]
  have s1 : ringShare g.dr r ((i : K) + 1) = radHigh g.dr r i := by
    have : radHigh g.dr r i = (r + g.dr / 2) ^ 2 - ((i + 1 - 1/2) * g.dr) ^ 2 := by
      unfold radHigh; ring
    unfold ringShare
    rw [min_eq_left (by linarith), max_eq_right (a := r - g.dr / 2) (by linarith), ← this, max_eq_right n2]
  have l0 : lineShare g.dz z k = ((k : K) + 1) * g.dz - z := by
    unfold lineShare
    rw [min_eq_right (by linarith), max_eq_left (a := z - g.dz / 2) (by linarith),
      max_eq_right (by linarith)]
    ring
  have l1 : lineShare g.dz z ((k : K) + 1) = z - k * g.dz := by
    unfold lineShare
    rw [min_eq_left (by linarith), max_eq_right (a := z - g.dz / 2) (by linarith),
      max_eq_right (by linarith)]
    ring
  have hS : radSum g.dr r = 2 * r * g.dr := by unfold radSum; rw [if_neg hnot]
  dsimp only
  rw [h1, h2, h3, h4, s0, s1, l0, l1, hS]
  refine ⟨?_, ?_, ?_, ?_⟩ <;> field_simp

/-- **The divisors are not the volumes of the cells.**  For every particle above the first cell that
is not exactly on a cell border, the deposits multiplied by the volumes of the rings between
`j dr` and `(j+1) dr` total *more* than the weight, and multiplied by the volumes of the node rings
between `(j-1/2) dr` and `(j+1/2) dr` *less*: the macro argument `r_i + 1` is not parenthesised. -/
theorem C13_true_volume_fails (pi : K) (hpi : 0 < pi) (g : Geom K) (G : g.Good) {r z : K}
    (hr : g.dr < r) {w : K} (hw : 0 < w) {i k : Nat}
    (i1 : (i : K) * g.dr < r) (i2 : r < ((i : K) + 1) * g.dr)
    (k1 : (k : K) * g.dz ≤ z) (k2 : z < ((k : K) + 1) * g.dz) :
    let d := depositOf pi g r z w i k
    w < (d.d00 + d.d01) * cellRing pi g.dr g.dz i + (d.d10 + d.d11) * cellRing pi g.dr g.dz (i + 1) ∧
    (d.d00 + d.d01) * nodeRing pi g.dr g.dz i + (d.d10 + d.d11) * nodeRing pi g.dr g.dz (i + 1) < w := by
  have hdr := G.dr
  have hdz := G.dz
  have hr0 : 0 < r := by linarith
  obtain ⟨h1, h2, h3, h4⟩ := depositOf_eq pi g hpi G (z := z) hr0.le w (k := k) i1.le i2
  have hnot : ¬ r ≤ g.dr / 2 := by intro h; linarith
  have hS : radSum g.dr r = 2 * r * g.dr := by unfold radSum; rw [if_neg hnot]
  have hi : (0 : K) ≤ i := Nat.cast_nonneg i
  have hlo : 0 < radLow g.dr r i := by
    unfold radLow; rw [if_neg hnot]
    have a : r - 1/2 * g.dr < (i + 1/2) * g.dr := by linarith
    have b : 0 ≤ r - 1/2 * g.dr := by linarith
    nlinarith
  have hhi : 0 < radHigh g.dr r i := by
    unfold radHigh
    have a : (i + 1/2) * g.dr < r + 1/2 * g.dr := by linarith
    have b : 0 ≤ (i + 1/2) * g.dr := by positivity
    nlinarith
  have hsum := rad_sum g.dr r i (fun h => absurd h hnot)
  rw [hS] at hsum
  dsimp only
  rw [h1, h2, h3, h4, hS]
  generalize hL : radLow g.dr r i = L at *
  generalize hH : radHigh g.dr r i = H at *
  unfold divLow divHigh cellRing nodeRing
  rw [if_pos hr]
  have n1 : (0 : K) < 2 * i + 1 := by positivity
  have n2 : (0 : K) < 2 * i + 2 := by positivity
  have e1 : (w / (g.dz * (2 * r * g.dr)) / pi * (((k : K) + 1) * g.dz - z) * (pi * L / (pi * g.dz * g.dr * g.dr * (2 * i + 1))) +
        w / (g.dz * (2 * r * g.dr)) / pi * (z - k * g.dz) * (pi * L / (pi * g.dz * g.dr * g.dr * (2 * i + 1)))) *
      (pi * g.dz * ((((i : K) + 1) * g.dr) ^ 2 - (i * g.dr) ^ 2)) +
      (w / (g.dz * (2 * r * g.dr)) / pi * (((k : K) + 1) * g.dz - z) * (pi * H / (pi * g.dz * g.dr * g.dr * (2 * i + 2))) +
        w / (g.dz * (2 * r * g.dr)) / pi * (z - k * g.dz) * (pi * H / (pi * g.dz * g.dr * g.dr * (2 * i + 2)))) *
      (pi * g.dz * ((((i : K) + 1 + 1) * g.dr) ^ 2 - ((i + 1) * g.dr) ^ 2))
      = w * ((L + H) / (2 * r * g.dr)) + w * (H / (2 * r * g.dr * (2 * i + 2))) := by
    field_simp
    ring
  have e2 : (w / (g.dz * (2 * r * g.dr)) / pi * (((k : K) + 1) * g.dz - z) * (pi * L / (pi * g.dz * g.dr * g.dr * (2 * i + 1))) +
        w / (g.dz * (2 * r * g.dr)) / pi * (z - k * g.dz) * (pi * L / (pi * g.dz * g.dr * g.dr * (2 * i + 1)))) *
      (pi * g.dz * ((((i : K) + 1/2) * g.dr) ^ 2 - ((i - 1/2) * g.dr) ^ 2)) +
      (w / (g.dz * (2 * r * g.dr)) / pi * (((k : K) + 1) * g.dz - z) * (pi * H / (pi * g.dz * g.dr * g.dr * (2 * i + 2))) +
        w / (g.dz * (2 * r * g.dr)) / pi * (z - k * g.dz) * (pi * H / (pi * g.dz * g.dr * g.dr * (2 * i + 2)))) *
      (pi * g.dz * ((((i : K) + 1 + 1/2) * g.dr) ^ 2 - ((i + 1 - 1/2) * g.dr) ^ 2))
      = w * ((L + H) / (2 * r * g.dr)) - w * (L / (2 * r * g.dr * (2 * i + 1))) := by
    field_simp
    ring
  rw [e1, e2, hsum]
  have one : 2 * r * g.dr / (2 * r * g.dr) = 1 := div_self (by positivity)
  rw [one]
  have t1 : 0 < w * (H / (2 * r * g.dr * (2 * i + 2))) := by positivity
  have t2 : 0 < w * (L / (2 * r * g.dr * (2 * i + 1))) := by positivity
  constructor <;> linarith

/-! ### The whole density map -/

/-- Contribution of one particle to the density map. -/
def densityOf (pi : K) (g : Geom K) (p : WP K) : Int → Int → K :=
  (depositOf pi g p.r p.z p.w (toU32 ⌊p.r / g.dr⌋) (toU32 ⌊p.z / g.dz⌋)).δ (⌊p.r / g.dr⌋ - g.r0)
    (⌊p.z / g.dz⌋ - g.z0)

theorem weightCyl_density (pi : K) (g : Geom K) (G : g.Good) (m : Grid K) (M : g.MapOf m) (p : WP K)
    (C : g.Contains p.r p.z) :
    ∃ m', weightCyl pi g m p.r p.z p.w = .ok m' ∧ m.Added m' (densityOf pi g p) := by
  obtain ⟨i, _, _, _, ui, _, _, fi⟩ := cellNumber_in G.dr G.nr C.rlo C.rhi
  obtain ⟨k, _, _, _, uk, _, _, fk⟩ := cellNumber_in G.dz G.nz C.zlo C.zhi
  obtain ⟨i', k', _, _, hi, hk, m', e, A⟩ := weightCyl_added pi g G m M C p.w
  refine ⟨m', e, ?_⟩
  have ei : ⌊p.r / g.dr⌋ = (i' : Int) := by
    rw [Int.floor_eq_iff]
    push_cast
    exact ⟨(le_div_iff₀ G.dr).mpr hi.1, (div_lt_iff₀ G.dr).mpr hi.2⟩
  have ek : ⌊p.z / g.dz⌋ = (k' : Int) := by
    rw [Int.floor_eq_iff]
    push_cast
    exact ⟨(le_div_iff₀ G.dz).mpr hk.1, (div_lt_iff₀ G.dz).mpr hk.2⟩
  have hii : i' = i := by omega
  have hkk : k' = k := by omega
  subst hii hkk
  unfold densityOf
  rw [fi, fk, ui, uk]
  exact A

/-- **The density map is the sum of the particles' contributions**, whatever the map contained
before (memory garbage included), and does not depend on the order of the particles. -/
theorem C13_density_map (pi : K) (g : Geom K) (G : g.Good) (m : Grid K) (M : g.MapOf m)
    (ps qs : List (WP K)) (C : ∀ p ∈ ps, g.Contains p.r p.z) (hp : qs.Perm ps) :
    ∃ m₁ m₂, calcDensity pi g m ps = .ok m₁ ∧ calcDensity pi g m qs = .ok m₂ ∧
      ∀ x y : Int, m.Inside x y →
        m₁.get x y = .ok ((ps.map fun p => densityOf pi g p x y).sum) ∧ m₂.get x y = m₁.get x y := by
  have key : ∀ (ps : List (WP K)), (∀ p ∈ ps, g.Contains p.r p.z) → ∃ m₁, calcDensity pi g m ps = .ok m₁ ∧
      ∀ x y : Int, m.Inside x y → m₁.get x y = .ok ((ps.map fun p => densityOf pi g p x y).sum) := by
    intro ps C
    obtain ⟨a, ea, sa, ha, _⟩ := Grid.C02_assign m M.wf (0 : K)
    have wfa := sa.wf M.wf
    obtain ⟨b, eb, sb, hb, hb'⟩ := Grid.C02_overlay_set a wfa (0 : K)
    have sab := sa.trans sb
    have Mb : g.MapOf b := ⟨sab.wf M.wf, sab.2.1.trans M.xs, sab.2.2.trans M.ys, by rw [sab.1]; exact M.os⟩
    have loopA : ∀ (ps : List (WP K)) (b : Grid K), g.MapOf b → (∀ p ∈ ps, g.Contains p.r p.z) →
        ∃ c, loop (fun p m => weightCyl pi g m p.r p.z p.w) ps b = .ok c ∧
          b.Added c (fun x y => (ps.map fun p => densityOf pi g p x y).sum) := by
      intro ps
      induction ps with
      | nil => intro b _ _; exact ⟨b, rfl, Grid.Added.refl b⟩
      | cons p ps ih =>
        intro b Mb C
        obtain ⟨c, ec, Ac⟩ := weightCyl_density pi g G b Mb p (C p List.mem_cons_self)
        have Mc : g.MapOf c := ⟨Ac.1.wf Mb.wf, Ac.1.2.1.trans Mb.xs, Ac.1.2.2.trans Mb.ys,
          by rw [Ac.1.1]; exact Mb.os⟩
        obtain ⟨d, ed, Ad⟩ := ih c Mc (fun q hq => C q (List.mem_cons_of_mem _ hq))
        refine ⟨d, by rw [loop_cons, ec, Res.ok_bind, ed], ?_⟩
        exact (Ac.trans Ad).congr (fun x y _ => by simp)
    obtain ⟨c, ec, Ac⟩ := loopA ps b Mb C
    refine ⟨c, by unfold calcDensity; rw [ea, Res.ok_bind, eb, Res.ok_bind, ec], ?_⟩
    intro x y hin
    have hz : b.get x y = .ok 0 := by
      by_cases hi : m.Interior x y
      · have hia : a.Interior x y := by unfold Grid.Interior at *; rw [sa.2.1, sa.2.2]; exact hi
        rw [hb' x y hia]
        exact ha x y hi
      · have hia : ¬ a.Interior x y := by unfold Grid.Interior at *; rw [sa.2.1, sa.2.2]; exact hi
        exact hb x y ((sa.inside x y).mpr hin) hia
    rw [Ac.2 x y 0 ((sab.inside x y).mpr hin) hz, zero_add]
  obtain ⟨m₁, e₁, h₁⟩ := key ps C
  obtain ⟨m₂, e₂, h₂⟩ := key qs (fun p hp' => C p (hp.mem_iff.mp hp'))
  refine ⟨m₁, m₂, e₁, e₂, fun x y hin => ⟨h₁ x y hin, ?_⟩⟩
  rw [h₁ x y hin, h₂ x y hin, (hp.map _).sum_eq]

-- non-trivial instances (ℚ, pi replaced by 22/7)
def exGeom : Geom ℚ := ⟨1/2, 1/4, 2, 4, 3, 5⟩
example : exGeom.Good := ⟨by norm_num [exGeom], by norm_num [exGeom], by norm_num [exGeom], by norm_num [exGeom]⟩
example : exGeom.Contains (8/5) (3/2) :=
  ⟨by norm_num [exGeom], by norm_num [exGeom], by norm_num [exGeom], by norm_num [exGeom]⟩
example : exGeom.MapOf ⟨2, 3, 5, fun _ _ => 0⟩ :=
  ⟨by simp [Grid.WF, Grid.xr, Grid.yr], rfl, rfl, by decide⟩
example : (depositOf (22/7) exGeom (8/5) (3/2) 10 3 6).d00 ≠ 0 := by
  norm_num [depositOf, exGeom, cylRngVol, cellVolume]

end Pico
