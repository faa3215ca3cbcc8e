import Verif.Lemmas.PassCells
import Verif.Spec.Overlay
import Mathlib.Algebra.BigOperators.Intervals
import Mathlib.Algebra.BigOperators.Group.Finset.Piecewise
import Mathlib.Tactic.Ring

/-! The cells after an overlay pass in terms of all copies of a node. -/

set_option linter.unusedSimpArgs false
set_option linter.unusedVariables false
set_option linter.unusedSectionVars false

namespace Pico
namespace SMB

variable {T : Type _} [AddCommMonoid T]

theorem sum_three (n i : Nat) (hi : i < n) (f : Nat → T) (h : ∀ a, a < n → a ≠ i → a ≠ i + 1 → a + 1 ≠ i → f a = 0) :
    ∑ a ∈ Finset.range n, f a = f i + ((if i + 1 < n then f (i+1) else 0) + if 0 < i then f (i-1) else 0) := by
  have e : ∀ a ∈ Finset.range n, f a = (if a = i then f i else 0) + ((if a = i + 1 then f (i+1) else 0) +
      if a = i - 1 then (if 0 < i then f (i-1) else 0) else 0) := by
    intro a ha
    have ha := Finset.mem_range.mp ha
    by_cases h1 : a = i
    · subst h1
      rw [if_pos rfl, if_neg (show ¬ a = a + 1 by omega)]
      by_cases h2 : 0 < a
      · rw [if_neg (show ¬ a = a - 1 by omega)]
        simp
      · rw [if_neg h2]
        simp
    · rw [if_neg h1]
      by_cases h2 : a = i + 1
      · subst h2
        rw [if_pos rfl, if_neg (show ¬ i + 1 = i - 1 by omega)]
        simp
      · rw [if_neg h2]
        by_cases h3 : a = i - 1
        · subst h3
          rw [if_pos rfl, if_pos (show 0 < i by omega)]
          simp
        · rw [if_neg h3, h a ha h1 h2 (by omega)]
          simp
  rw [Finset.sum_congr rfl e, Finset.sum_add_distrib, Finset.sum_add_distrib, Finset.sum_ite_eq' , Finset.sum_ite_eq',
    Finset.sum_ite_eq']
  simp only [Finset.mem_range]
  rw [if_pos hi, if_pos (show i - 1 < n by omega)]

theorem held_zero {D : Domains T} {h w a b i j os : Nat} {x y : Int} (e1 : (D a b).os = os) (e2 : (D a b).xs = h) (e3 : (D a b).ys = w)
    (hx : 0 ≤ x ∧ x < h) (hy : 0 ≤ y ∧ y < w) (ho : os ≤ h) (ho' : os ≤ w)
    (hf : (a ≠ i ∧ a ≠ i + 1 ∧ a + 1 ≠ i) ∨ (b ≠ j ∧ b ≠ j + 1 ∧ b + 1 ≠ j)) :
    held D h w a b (i * h + x) (j * w + y) = 0 := by
  unfold held
  rw [if_neg]
  unfold Grid.Inside
  rw [e1, e2, e3]
  rintro ⟨k1, k2⟩
  rcases hf with hf | hf
  · rcases Nat.lt_or_ge a i with h1 | h1
    · have : (a : Int) + 2 ≤ i := by omega
      have : ((a : Int) + 2) * h ≤ i * h := Int.mul_le_mul_of_nonneg_right this (by omega)
      have e : ((a : Int) + 2) * h = a * h + 2 * h := by ring
      omega
    · have : (i : Int) + 2 ≤ a := by omega
      have : ((i : Int) + 2) * h ≤ a * h := Int.mul_le_mul_of_nonneg_right this (by omega)
      have e : ((i : Int) + 2) * h = i * h + 2 * h := by ring
      omega
  · rcases Nat.lt_or_ge b j with h1 | h1
    · have : (b : Int) + 2 ≤ j := by omega
      have : ((b : Int) + 2) * w ≤ j * w := Int.mul_le_mul_of_nonneg_right this (by omega)
      have e : ((b : Int) + 2) * w = b * w + 2 * w := by ring
      omega
    · have : (j : Int) + 2 ≤ b := by omega
      have : ((j : Int) + 2) * w ≤ b * w := Int.mul_le_mul_of_nonneg_right this (by omega)
      have e : ((j : Int) + 2) * w = j * w + 2 * w := by ring
      omega

theorem held_val {D : Domains T} {h w a b os : Nat} {X Y u v : Int} (e1 : (D a b).os = os) (e2 : (D a b).xs = h) (e3 : (D a b).ys = w)
    (hu : X - a * h = u) (hv : Y - b * w = v) :
    held D h w a b X Y = if (-(os : Int) ≤ u ∧ u < h + os) ∧ (-(os : Int) ≤ v ∧ v < w + os) then
      (D a b).cell (u + os).toNat (v + os).toNat else 0 := by
  unfold held Grid.Inside
  rw [e1, e2, e3, hu, hv]
  by_cases k : (-(os : Int) ≤ u ∧ u < h + os) ∧ (-(os : Int) ≤ v ∧ v < w + os)
  · rw [if_pos k, if_pos k]
  · rw [if_neg k, if_neg k]

/-- All copies of the node of a cell are what the pass gathers in it and the two antidiagonal copies. -/
theorem allHeld_eq (D : Domains T) (nr nz h w os : Nat) (L : Layout D nr nz os (fun _ => h) (fun _ => w)) (G : nr ≤ 1 ∨ nz ≤ 1 ∨ h = w)
    (ho : os ≤ h) (ho' : os ≤ w) (i j : Nat) (hi : i < nr) (hj : j < nz) (x y : Int) (hx : 0 ≤ x ∧ x < h) (hy : 0 ≤ y ∧ y < w) :
    allHeld D nr nz h w (i * h + x) (j * w + y) =
      gathered os (fun _ => h) (fun _ => w) nr nz h (fun q => (D q.1 q.2.1).cell q.2.2.1 q.2.2.2) i j (x + os).toNat (y + os).toNat +
        antidiagonal D nr nz h w i j (i * h + x) (j * w + y) := by
  have hv : ∀ a b, a < nr → b < nz → ∀ X Y u v : Int, X - a * h = u → Y - b * w = v →
      held D h w a b X Y = if (-(os : Int) ≤ u ∧ u < h + os) ∧ (-(os : Int) ≤ v ∧ v < w + os) then
        (D a b).cell (u + os).toNat (v + os).toNat else 0 := fun a b ha hb X Y u v h1 h2 =>
    held_val (L.os_eq a b ha hb) (L.xs_eq a b ha hb) (L.ys_eq a b ha hb) h1 h2
  have up : ∀ (q : Nat) (s : Int) (k : Nat), ((k : Int) * q + s) - (((k + 1 : Nat) : Int)) * q = s - q := fun q s k => by
    push_cast; ring
  have dn : ∀ (q : Nat) (s : Int) (k : Nat), 0 < k → ((k : Int) * q + s) - (((k - 1 : Nat) : Int)) * q = s + q := fun q s k hk => by
    obtain ⟨k, rfl⟩ : ∃ l, k = l + 1 := ⟨k - 1, by omega⟩
    rw [Nat.add_sub_cancel]; push_cast; ring
  have sm : ∀ (q : Nat) (s : Int) (k : Nat), ((k : Int) * q + s) - (k : Int) * q = s := fun q s k => by ring
  unfold allHeld
  have z : ∀ a b, a < nr → b < nz → (a ≠ i ∧ a ≠ i + 1 ∧ a + 1 ≠ i) ∨ (b ≠ j ∧ b ≠ j + 1 ∧ b + 1 ≠ j) →
      held D h w a b (i * h + x) (j * w + y) = 0 := fun a b ha hb hf =>
    held_zero (L.os_eq a b ha hb) (L.xs_eq a b ha hb) (L.ys_eq a b ha hb) hx hy ho ho' hf
  rw [sum_three nr i hi _ (fun a ha h1 h2 h3 => Finset.sum_eq_zero fun b hb =>
    z a b ha (Finset.mem_range.mp hb) (Or.inl ⟨h1, h2, h3⟩))]
  have S : ∀ a, a < nr → ∑ b ∈ Finset.range nz, held D h w a b (i * h + x) (j * w + y) =
      held D h w a j (i * h + x) (j * w + y) + ((if j + 1 < nz then held D h w a (j+1) (i * h + x) (j * w + y) else 0) +
        if 0 < j then held D h w a (j-1) (i * h + x) (j * w + y) else 0) := fun a ha =>
    sum_three nz j hj _ fun b hb h1 h2 h3 => z a b ha hb (Or.inr ⟨h1, h2, h3⟩)
  rw [S i hi]
  have T1 : (if i + 1 < nr then ∑ b ∈ Finset.range nz, held D h w (i+1) b (i * h + x) (j * w + y) else 0) =
      (if i + 1 < nr then held D h w (i+1) j (i * h + x) (j * w + y) else 0) +
        ((if i + 1 < nr ∧ j + 1 < nz then held D h w (i+1) (j+1) (i * h + x) (j * w + y) else 0) +
          if i + 1 < nr ∧ 0 < j then held D h w (i+1) (j-1) (i * h + x) (j * w + y) else 0) := by
    by_cases k : i + 1 < nr
    · simp only [if_pos k, k, true_and]
      exact S _ k
    · simp only [if_neg k, k, false_and, if_false, add_zero]
  have T2 : (if 0 < i then ∑ b ∈ Finset.range nz, held D h w (i-1) b (i * h + x) (j * w + y) else 0) =
      (if 0 < i then held D h w (i-1) j (i * h + x) (j * w + y) else 0) +
        ((if 0 < i ∧ j + 1 < nz then held D h w (i-1) (j+1) (i * h + x) (j * w + y) else 0) +
          if 0 < i ∧ 0 < j then held D h w (i-1) (j-1) (i * h + x) (j * w + y) else 0) := by
    by_cases k : 0 < i
    · simp only [if_pos k, k, true_and]
      exact S _ (by omega)
    · simp only [if_neg k, k, false_and, if_false, add_zero]
  rw [T1, T2]
  unfold gathered antidiagonal
  have c1 : held D h w i j (i * h + x) (j * w + y) = (D i j).cell (x + os).toNat (y + os).toNat := by
    rw [hv i j hi hj _ _ x y (sm _ _ _) (sm _ _ _), if_pos (by omega)]
  have c2 : (if i + 1 < nr then held D h w (i+1) j (i * h + x) (j * w + y) else 0) =
      if i + 1 < nr ∧ h ≤ (x + os).toNat then (D (i+1) j).cell ((x + os).toNat - h) (y + os).toNat else 0 := by
    by_cases k : i + 1 < nr
    · rw [if_pos k, hv (i+1) j k hj _ _ (x - h) y (up _ _ _) (sm _ _ _)]
      by_cases k' : h ≤ (x + os).toNat
      · rw [if_pos (by omega), if_pos ⟨k, k'⟩, show (x - h + os).toNat = (x + os).toNat - h by omega]
      · rw [if_neg (by omega), if_neg (fun q => k' q.2)]
    · rw [if_neg k, if_neg (fun q => k q.1)]
  have c3 : (if 0 < i then held D h w (i-1) j (i * h + x) (j * w + y) else 0) =
      if 0 < i ∧ (x + os).toNat < 2 * os then (D (i-1) j).cell (h + (x + os).toNat) (y + os).toNat else 0 := by
    by_cases k : 0 < i
    · rw [if_pos k, hv (i-1) j (by omega) hj _ _ (x + h) y (dn _ _ _ k) (sm _ _ _)]
      by_cases k' : (x + os).toNat < 2 * os
      · rw [if_pos (by omega), if_pos ⟨k, k'⟩, show (x + h + os).toNat = h + (x + os).toNat by omega]
      · rw [if_neg (by omega), if_neg (fun q => k' q.2)]
    · rw [if_neg k, if_neg (fun q => k q.1)]
  have c4 : (if j + 1 < nz then held D h w i (j+1) (i * h + x) (j * w + y) else 0) =
      if j + 1 < nz ∧ w ≤ (y + os).toNat then (D i (j+1)).cell (x + os).toNat ((y + os).toNat - w) else 0 := by
    by_cases k : j + 1 < nz
    · rw [if_pos k, hv i (j+1) hi k _ _ x (y - w) (sm _ _ _) (up _ _ _)]
      by_cases k' : w ≤ (y + os).toNat
      · rw [if_pos (by omega), if_pos ⟨k, k'⟩, show (y - w + os).toNat = (y + os).toNat - w by omega]
      · rw [if_neg (by omega), if_neg (fun q => k' q.2)]
    · rw [if_neg k, if_neg (fun q => k q.1)]
  have c5 : (if 0 < j then held D h w i (j-1) (i * h + x) (j * w + y) else 0) =
      if 0 < j ∧ (y + os).toNat < 2 * os then (D i (j-1)).cell (x + os).toNat (w + (y + os).toNat) else 0 := by
    by_cases k : 0 < j
    · rw [if_pos k, hv i (j-1) hi (by omega) _ _ x (y + w) (sm _ _ _) (dn _ _ _ k)]
      by_cases k' : (y + os).toNat < 2 * os
      · rw [if_pos (by omega), if_pos ⟨k, k'⟩, show (y + w + os).toNat = w + (y + os).toNat by omega]
      · rw [if_neg (by omega), if_neg (fun q => k' q.2)]
    · rw [if_neg k, if_neg (fun q => k q.1)]
  have sq : 1 < nr → 1 < nz → h = w := fun h1 h2 => by
    rcases G with g | g | g
    · omega
    · omega
    · exact g
  have c6 : (if i + 1 < nr ∧ j + 1 < nz then held D h w (i+1) (j+1) (i * h + x) (j * w + y) else 0) =
      if (i + 1 < nr ∧ j + 1 < nz) ∧ h ≤ (x + os).toNat ∧ h ≤ (y + os).toNat then
        (D (i+1) (j+1)).cell ((x + os).toNat - h) ((y + os).toNat - h) else 0 := by
    by_cases k : i + 1 < nr ∧ j + 1 < nz
    · have e := sq (by omega) (by omega)
      rw [if_pos k, hv (i+1) (j+1) k.1 k.2 _ _ (x - h) (y - w) (up _ _ _) (up _ _ _)]
      by_cases k' : h ≤ (x + os).toNat ∧ h ≤ (y + os).toNat
      · rw [if_pos (by omega), if_pos ⟨k, k'⟩, show (x - h + os).toNat = (x + os).toNat - h by omega,
          show (y - w + os).toNat = (y + os).toNat - h by omega]
      · rw [if_neg (by omega), if_neg (fun q => k' q.2)]
    · rw [if_neg k, if_neg (fun q => k q.1)]
  have c7 : (if 0 < i ∧ 0 < j then held D h w (i-1) (j-1) (i * h + x) (j * w + y) else 0) =
      if (0 < i ∧ 0 < j) ∧ (x + os).toNat < 2 * os ∧ (y + os).toNat < 2 * os then
        (D (i-1) (j-1)).cell (h + (x + os).toNat) (h + (y + os).toNat) else 0 := by
    by_cases k : 0 < i ∧ 0 < j
    · have e := sq (by omega) (by omega)
      rw [if_pos k, hv (i-1) (j-1) (by omega) (by omega) _ _ (x + h) (y + w) (dn _ _ _ k.1) (dn _ _ _ k.2)]
      by_cases k' : (x + os).toNat < 2 * os ∧ (y + os).toNat < 2 * os
      · rw [if_pos (by omega), if_pos ⟨k, k'⟩, show (x + h + os).toNat = h + (x + os).toNat by omega,
          show (y + w + os).toNat = h + (y + os).toNat by omega]
      · rw [if_neg (by omega), if_neg (fun q => k' q.2)]
    · rw [if_neg k, if_neg (fun q => k q.1)]
  rw [c1, c2, c3, c4, c5, c6, c7]
  dsimp only
  ac_rfl

end SMB
end Pico
