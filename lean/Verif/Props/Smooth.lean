import Verif.Model.Helpers
import Verif.Spec.Grid
import Verif.Lemmas.Grid
import Mathlib.Tactic.Linarith
import Mathlib.Tactic.NormNum
import Mathlib.Tactic.FieldSimp
import Mathlib.Data.Rat.Floor

/-! # C49: interpolation of maps -/

set_option linter.unusedSimpArgs false
set_option linter.unusedVariables false
set_option linter.unusedSectionVars false

namespace Pico
namespace Help

/-! ### Specification -/

/-- The index itself and the one before it, if there is one. -/
def upTo : Nat → List Nat
  | 0 => [0]
  | i + 1 => [i, i + 1]

/-- The (up to four) cells that meet at the lower corner of cell (i, j). -/
def around (i j : Nat) : List (Nat × Nat) := (upTo i).flatMap fun a => (upTo j).map fun b => (a, b)

/-- The mean of some numbers. -/
def mean {K : Type _} [Field K] (l : List K) : K := l.sum / l.length

section Lemmas
variable {T : Type _}

theorem get_nat (g : Grid T) (hw : g.WF) {i j : Nat} (hi : i < g.xs + g.os) (hj : j < g.ys + g.os) :
    g.get i j = .ok (g.cell (i + g.os) (j + g.os)) := by
  have h1 : g.xr < 2 ^ 31 := hw.1
  have h2 : g.yr < 2 ^ 31 := hw.2
  unfold Grid.xr at h1
  unfold Grid.yr at h2
  unfold Grid.get
  rw [Grid.uidx_nonneg _ _ (by omega) (by omega), Grid.uidx_nonneg _ _ (by omega) (by omega)]
  rw [show ((i : Int) + g.os).toNat = i + g.os by omega, show ((j : Int) + g.os).toNat = j + g.os by omega]
  exact Grid.rd_ok g (by unfold Grid.xr; omega) (by unfold Grid.yr; omega)

theorem set_nat (g : Grid T) (hw : g.WF) {i j : Nat} (v : T) (hi : i < g.xs + g.os) (hj : j < g.ys + g.os) :
    g.set i j v = .ok (g.withCell fun x y => if x = i + g.os ∧ y = j + g.os then v else g.cell x y) := by
  have h1 : g.xr < 2 ^ 31 := hw.1
  have h2 : g.yr < 2 ^ 31 := hw.2
  unfold Grid.xr at h1
  unfold Grid.yr at h2
  unfold Grid.set
  rw [Grid.uidx_nonneg _ _ (by omega) (by omega), Grid.uidx_nonneg _ _ (by omega) (by omega)]
  rw [show ((i : Int) + g.os).toNat = i + g.os by omega, show ((j : Int) + g.os).toNat = j + g.os by omega]
  exact Grid.wr_ok g v (by unfold Grid.xr; omega) (by unfold Grid.yr; omega)

/-- A loop that sets cells to values that do not depend on the grid it writes. -/
theorem loop_sets {ι : Type _} (b : Grid T) (body : ι → Grid T → Res (Grid T)) (l : List ι) (tgt : ι → Nat × Nat)
    (v : ι → T)
    (hb : ∀ i ∈ l, ∀ c, body i (b.withCell c) =
      .ok (b.withCell fun x y => if x = (tgt i).1 ∧ y = (tgt i).2 then v i else c x y)) (c0 : Nat → Nat → T) :
    ∃ c, loop body l (b.withCell c0) = .ok (b.withCell c) ∧
      (∀ i ∈ l, (∀ k ∈ l, tgt k = tgt i → v k = v i) → c (tgt i).1 (tgt i).2 = v i) ∧
      (∀ x y, (∀ i ∈ l, tgt i ≠ (x, y)) → c x y = c0 x y) := by
  induction l generalizing c0 with
  | nil => exact ⟨c0, rfl, fun _ h _ => absurd h List.not_mem_nil, fun _ _ _ => rfl⟩
  | cons a l ih =>
    obtain ⟨c, e, h1, h2⟩ := ih (fun i hi => hb i (List.mem_cons_of_mem _ hi))
      (fun x y => if x = (tgt a).1 ∧ y = (tgt a).2 then v a else c0 x y)
    refine ⟨c, ?_, ?_, ?_⟩
    · rw [loop_cons, hb a List.mem_cons_self, Res.ok_bind]
      exact e
    · intro i hi hk
      by_cases hex : ∃ k ∈ l, tgt k = tgt i
      · obtain ⟨k, hkl, hkt⟩ := hex
        have := h1 k hkl (fun m hm hmt => by
          rw [hk m (List.mem_cons_of_mem _ hm) (hmt.trans hkt), hk k (List.mem_cons_of_mem _ hkl) hkt])
        rw [hkt] at this
        rw [this, hk k (List.mem_cons_of_mem _ hkl) hkt]
      · rw [h2 _ _ (fun k hkl e => hex ⟨k, hkl, e⟩)]
        rcases List.mem_cons.mp hi with rfl | hi
        · simp
        · exact absurd ⟨i, hi, rfl⟩ hex
    · intro x y hxy
      rw [h2 x y (fun i hi => hxy i (List.mem_cons_of_mem _ hi))]
      have := hxy a List.mem_cons_self
      rw [if_neg]
      rintro ⟨rfl, rfl⟩
      exact this rfl

theorem withCell_WF {g : Grid T} (h : g.WF) (c : Nat → Nat → T) : (g.withCell c).WF := h

end Lemmas

section
variable {K : Type _} [Field K] [LinearOrder K] [IsStrictOrderedRing K]

/-- Values of the logical cells. -/
def val (g : Grid K) (i j : Nat) : K := g.cell (i + g.os) (j + g.os)

theorem mean_around_inner (A : Nat → Nat → K) (i j : Nat) :
    mean ((around (i + 1) (j + 1)).map fun p => A p.1 p.2) = (A i j + A (i + 1) j + A i (j + 1) + A (i + 1) (j + 1)) / 4 := by
  simp only [mean, around, upTo, List.flatMap_cons, List.flatMap_nil, List.map_cons, List.map_nil, List.append_nil,
    List.cons_append, List.nil_append, List.sum_cons, List.sum_nil, List.length_cons, List.length_nil]
  push_cast
  norm_num
  ring

theorem mean_around_x (A : Nat → Nat → K) (i : Nat) :
    mean ((around (i + 1) 0).map fun p => A p.1 p.2) = (A i 0 + A (i + 1) 0) / 2 := by
  simp only [mean, around, upTo, List.flatMap_cons, List.flatMap_nil, List.map_cons, List.map_nil, List.append_nil,
    List.cons_append, List.nil_append, List.sum_cons, List.sum_nil, List.length_cons, List.length_nil]
  push_cast
  norm_num

theorem mean_around_y (A : Nat → Nat → K) (j : Nat) :
    mean ((around 0 (j + 1)).map fun p => A p.1 p.2) = (A 0 j + A 0 (j + 1)) / 2 := by
  simp only [mean, around, upTo, List.flatMap_cons, List.flatMap_nil, List.map_cons, List.map_nil, List.append_nil,
    List.cons_append, List.nil_append, List.sum_cons, List.sum_nil, List.length_cons, List.length_nil]
  push_cast
  norm_num

/-- Everything about the result. -/
theorem bilinear_eq (a b : Grid K) (ha : a.WF) (hb : b.WF) (hx : a.xs ≤ b.xs) (hy : a.ys ≤ b.ys)
    (hx0 : 0 < a.xs) (hy0 : 0 < a.ys) :
    ∃ c, bilinear a b = .ok (b.withCell c) ∧
      (∀ i j, i < a.xs → j < a.ys → (i, j) ≠ (0, 0) →
        c (i + b.os) (j + b.os) = mean ((around i j).map fun p => val a p.1 p.2)) ∧
      (∀ x y, (∀ i j, i < a.xs → j < a.ys → (i, j) ≠ (0, 0) → (i + b.os, j + b.os) ≠ (x, y)) → c x y = b.cell x y) := by
  -- the inner cells
  obtain ⟨c1, e1, s1, f1⟩ := loop_sets b (bilCell a) (idx2 1 a.xs 1 a.ys) (fun p => (p.1 + b.os, p.2 + b.os))
    (fun p => mean ((around p.1 p.2).map fun p => val a p.1 p.2)) (by
      intro p hp c
      rw [mem_idx2] at hp
      obtain ⟨⟨i, j⟩, hij⟩ : ∃ q : Nat × Nat, p = (q.1 + 1, q.2 + 1) := ⟨(p.1 - 1, p.2 - 1), by ext <;> simp <;> omega⟩
      subst hij
      simp only at hp ⊢
      rw [mean_around_inner]
      unfold bilCell
      simp only
      rw [show (((i + 1 : Nat) : Int) - 1) = (i : Int) by omega, show (((j + 1 : Nat) : Int) - 1) = (j : Int) by omega]
      rw [get_nat a ha (by omega) (by omega), Res.ok_bind, get_nat a ha (by omega) (by omega), Res.ok_bind,
        get_nat a ha (by omega) (by omega), Res.ok_bind, get_nat a ha (by omega) (by omega), Res.ok_bind,
        set_nat _ (withCell_WF hb c) _ (by simp only [Grid.withCell_xs, Grid.withCell_os]; omega)
          (by simp only [Grid.withCell_ys, Grid.withCell_os]; omega)]
      rfl) b.cell
  rw [Grid.withCell_self] at e1
  obtain ⟨c2, e2, s2, f2⟩ := loop_sets b (bilX a) (List.range' 1 (a.xs - 1)) (fun i => (i + b.os, b.os))
    (fun i => mean ((around i 0).map fun p => val a p.1 p.2)) (by
      intro p hp c
      rw [List.mem_range'_1] at hp
      obtain ⟨i, rfl⟩ : ∃ i, p = i + 1 := ⟨p - 1, by omega⟩
      rw [mean_around_x]
      unfold bilX
      rw [show (((i + 1 : Nat) : Int) - 1) = (i : Int) by omega]
      have g1 := get_nat a ha (i := i) (j := 0) (by omega) (by omega)
      have g2 := get_nat a ha (i := i + 1) (j := 0) (by omega) (by omega)
      have g3 := set_nat (b.withCell c) (withCell_WF hb c) (i := i + 1) (j := 0) ((val a i 0 + val a (i + 1) 0) / 2)
        (by simp only [Grid.withCell_xs, Grid.withCell_os]; omega)
        (by simp only [Grid.withCell_ys, Grid.withCell_os]; omega)
      simp only [Nat.cast_zero] at g1 g2 g3
      rw [g1, Res.ok_bind, g2, Res.ok_bind]
      refine Eq.trans ?_ (g3.trans ?_)
      · rfl
      · simp only [Grid.withCell_os, Nat.zero_add, Grid.withCell_cell]
        rfl) c1
  obtain ⟨c3, e3, s3, f3⟩ := loop_sets b (bilY a) (List.range' 1 (a.ys - 1)) (fun j => (b.os, j + b.os))
    (fun j => mean ((around 0 j).map fun p => val a p.1 p.2)) (by
      intro p hp c
      rw [List.mem_range'_1] at hp
      obtain ⟨i, rfl⟩ : ∃ i, p = i + 1 := ⟨p - 1, by omega⟩
      rw [mean_around_y]
      unfold bilY
      rw [show (((i + 1 : Nat) : Int) - 1) = (i : Int) by omega]
      have g1 := get_nat a ha (i := 0) (j := i) (by omega) (by omega)
      have g2 := get_nat a ha (i := 0) (j := i + 1) (by omega) (by omega)
      have g3 := set_nat (b.withCell c) (withCell_WF hb c) (i := 0) (j := i + 1) ((val a 0 i + val a 0 (i + 1)) / 2)
        (by simp only [Grid.withCell_xs, Grid.withCell_os]; omega)
        (by simp only [Grid.withCell_ys, Grid.withCell_os]; omega)
      simp only [Nat.cast_zero] at g1 g2 g3
      rw [g1, Res.ok_bind, g2, Res.ok_bind]
      refine Eq.trans ?_ (g3.trans ?_)
      · rfl
      · simp only [Grid.withCell_os, Nat.zero_add, Grid.withCell_cell]
        rfl) c2
  refine ⟨c3, ?_, ?_, ?_⟩
  · unfold bilinear
    rw [e1, Res.ok_bind, e2, Res.ok_bind, e3]
  · intro i j hi hj hne
    rcases Nat.eq_zero_or_pos i with rfl | hi0
    · have hj0 : 0 < j := by
        rcases Nat.eq_zero_or_pos j with rfl | h
        · exact absurd rfl hne
        · exact h
      have := s3 j (List.mem_range'_1.mpr ⟨hj0, by omega⟩) (fun k _ hk => by
        have : k + b.os = j + b.os := (Prod.mk.inj hk).2
        rw [show k = j by omega])
      simpa using this
    · rw [f3 _ _ (fun k _ hk => by have : b.os = i + b.os := (Prod.mk.inj hk).1; omega)]
      rcases Nat.eq_zero_or_pos j with rfl | hj0
      · have := s2 i (List.mem_range'_1.mpr ⟨hi0, by omega⟩) (fun k _ hk => by
          have : k + b.os = i + b.os := (Prod.mk.inj hk).1
          rw [show k = i by omega])
        simpa using this
      · rw [f2 _ _ (fun k _ hk => by have : b.os = j + b.os := (Prod.mk.inj hk).2; omega)]
        have := s1 (i, j) (mem_idx2.mpr ⟨⟨hi0, hi⟩, hj0, hj⟩) (fun k _ hk => by
          have h1 : k.1 + b.os = i + b.os := (Prod.mk.inj hk).1
          have h2 : k.2 + b.os = j + b.os := (Prod.mk.inj hk).2
          rw [show k.1 = i by omega, show k.2 = j by omega])
        exact this
  · intro x y hxy
    rw [f3, f2, f1]
    · intro p hp
      rw [mem_idx2] at hp
      exact hxy p.1 p.2 (by omega) (by omega) (fun h => by have := (Prod.mk.inj h).1; omega)
    · intro k hk
      rw [List.mem_range'_1] at hk
      have := hxy k 0 (by omega) hy0 (fun h => by have := (Prod.mk.inj h).1; omega)
      simpa using this
    · intro k hk
      rw [List.mem_range'_1] at hk
      have := hxy 0 k hx0 (by omega) (fun h => by have := (Prod.mk.inj h).2; omega)
      simpa using this

theorem mean_bounds (l : List K) (hl : l ≠ []) (lo hi : K) (h : ∀ x ∈ l, lo ≤ x ∧ x ≤ hi) : lo ≤ mean l ∧ mean l ≤ hi := by
  have key : ∀ l : List K, (∀ x ∈ l, lo ≤ x ∧ x ≤ hi) → (l.length : K) * lo ≤ l.sum ∧ l.sum ≤ l.length * hi := by
    intro l
    induction l with
    | nil => intro _; simp
    | cons a l ih =>
      intro h
      have h1 := h a List.mem_cons_self
      have h2 := ih (fun x hx => h x (List.mem_cons_of_mem _ hx))
      rw [List.sum_cons, List.length_cons]
      push_cast
      constructor <;> linarith [h1.1, h1.2, h2.1, h2.2]
  have hp : (0 : K) < l.length := by
    have := List.length_pos_of_ne_nil hl
    exact_mod_cast this
  obtain ⟨k1, k2⟩ := key l h
  unfold mean
  rw [le_div_iff₀ hp, div_le_iff₀ hp]
  constructor <;> linarith

theorem mem_around {i j : Nat} {p : Nat × Nat} (h : p ∈ around i j) : p.1 ≤ i ∧ p.2 ≤ j := by
  simp only [around, List.mem_flatMap, List.mem_map] at h
  obtain ⟨x, hx, y, hy, rfl⟩ := h
  constructor
  · cases i with
    | zero => simp [upTo] at hx; simp [hx]
    | succ i => simp [upTo] at hx; simp only; omega
  · cases j with
    | zero => simp [upTo] at hy; simp [hy]
    | succ j => simp [upTo] at hy; simp only; omega

theorem around_ne (i j : Nat) : around i j ≠ [] := by
  cases i <;> cases j <;> simp [around, upTo]

/-- **C49 (partial).**  Bilinear interpolation of a map `a` (with the values `A`) into another grid that is at least as
large: every cell but the first one holds the mean of the cells of the map that meet at its lower corner; every bound on
all values of the map holds for all these cells; if the map is constant they hold the constant; and nothing outside of
the range of the map changes.  Missing: the first cell, see `C49_corner_fails`. -/
theorem C49_partial (a b : Grid K) (A : Nat → Nat → K) (ha : a.WF) (hb : b.WF) (hx : a.xs ≤ b.xs) (hy : a.ys ≤ b.ys)
    (hx0 : 0 < a.xs) (hy0 : 0 < a.ys) (hA : ∀ i j, i < a.xs → j < a.ys → a.get i j = .ok (A i j)) :
    ∃ r, bilinear a b = .ok r ∧ b.SameShape r ∧
      (∀ i j, i < a.xs → j < a.ys → (i, j) ≠ (0, 0) →
        r.get i j = .ok (mean ((around i j).map fun p => A p.1 p.2))) ∧
      (∀ lo hi, (∀ i j, i < a.xs → j < a.ys → lo ≤ A i j ∧ A i j ≤ hi) →
        ∀ i j, i < a.xs → j < a.ys → (i, j) ≠ (0, 0) → ∃ v, r.get i j = .ok v ∧ lo ≤ v ∧ v ≤ hi) ∧
      (∀ k, (∀ i j, i < a.xs → j < a.ys → A i j = k) →
        ∀ i j, i < a.xs → j < a.ys → (i, j) ≠ (0, 0) → r.get i j = .ok k) ∧
      (∀ i j, (i < b.xs ∧ j < b.ys) → ¬ (i < a.xs ∧ j < a.ys) → r.get i j = b.get i j) := by
  obtain ⟨c, e, h1, h2⟩ := bilinear_eq a b ha hb hx hy hx0 hy0
  have hv : ∀ i j, i < a.xs → j < a.ys → val a i j = A i j := by
    intro i j hi hj
    have := hA i j hi hj
    rw [get_nat a ha (by omega) (by omega)] at this
    exact Res.ok.inj this
  have hm : ∀ i j, i < a.xs → j < a.ys →
      ((around i j).map fun p => val a p.1 p.2) = (around i j).map fun p => A p.1 p.2 := by
    intro i j hi hj
    apply List.map_congr_left
    intro p hp
    have := mem_around hp
    exact hv _ _ (by omega) (by omega)
  have hr : ∀ i j, i < b.xs → j < b.ys → (b.withCell c).get i j = .ok (c (i + b.os) (j + b.os)) := by
    intro i j hi hj
    exact get_nat (b.withCell c) (withCell_WF hb c) (by simp only [Grid.withCell_xs, Grid.withCell_os]; omega)
      (by simp only [Grid.withCell_ys, Grid.withCell_os]; omega)
  have hbd : ∀ lo hi, (∀ i j, i < a.xs → j < a.ys → lo ≤ A i j ∧ A i j ≤ hi) →
      ∀ i j, i < a.xs → j < a.ys →
        lo ≤ mean ((around i j).map fun p => A p.1 p.2) ∧ mean ((around i j).map fun p => A p.1 p.2) ≤ hi := by
    intro lo hi h i j hi' hj'
    apply mean_bounds _ (by simpa using around_ne i j)
    intro x hx
    obtain ⟨p, hp, rfl⟩ := List.mem_map.mp hx
    have := mem_around hp
    exact h _ _ (by omega) (by omega)
  refine ⟨_, e, ⟨rfl, rfl, rfl⟩, ?_, ?_, ?_, ?_⟩
  · intro i j hi hj hne
    rw [hr i j (by omega) (by omega), h1 i j hi hj hne, hm i j hi hj]
  · intro lo hi h i j hi' hj' hne
    refine ⟨_, hr i j (by omega) (by omega), ?_⟩
    rw [h1 i j hi' hj' hne, hm i j hi' hj']
    exact hbd lo hi h i j hi' hj'
  · intro k h i j hi hj hne
    rw [hr i j (by omega) (by omega), h1 i j hi hj hne, hm i j hi hj]
    have := hbd k k (fun i j hi hj => by rw [h i j hi hj]; exact ⟨le_refl _, le_refl _⟩) i j hi hj
    rw [le_antisymm this.2 this.1]
  · intro i j hij hn
    rw [hr i j hij.1 hij.2, get_nat b hb (by omega) (by omega), h2]
    intro i' j' h1 h2 _ he
    have e1 := (Prod.mk.inj he).1
    have e2 := (Prod.mk.inj he).2
    omega

/-- Where C49 fails: the first cell is never set; it keeps whatever the result grid held before. -/
theorem C49_corner_fails (a b : Grid K) (ha : a.WF) (hb : b.WF) (hx : a.xs ≤ b.xs) (hy : a.ys ≤ b.ys)
    (hx0 : 0 < a.xs) (hy0 : 0 < a.ys) : ∃ r, bilinear a b = .ok r ∧ r.get 0 0 = b.get 0 0 := by
  obtain ⟨c, e, h1, h2⟩ := bilinear_eq a b ha hb hx hy hx0 hy0
  refine ⟨_, e, ?_⟩
  have g1 := get_nat (b.withCell c) (withCell_WF hb c) (i := 0) (j := 0)
    (by simp only [Grid.withCell_xs, Grid.withCell_os]; omega) (by simp only [Grid.withCell_ys, Grid.withCell_os]; omega)
  have g2 := get_nat b hb (i := 0) (j := 0) (by omega) (by omega)
  simp only [Nat.cast_zero] at g1 g2
  rw [g1, g2]
  simp only [Grid.withCell_os, Grid.withCell_cell]
  rw [h2]
  intro i j _ _ hne he
  have e1 := (Prod.mk.inj he).1
  have e2 := (Prod.mk.inj he).2
  apply hne
  rw [show i = 0 by omega, show j = 0 by omega]

/-- A 3 × 3 map of numbers and a result grid full of garbage. -/
example : ∃ r, bilinear (⟨0, 3, 3, fun i j => (i : ℚ) + 10 * j⟩ : Grid ℚ) ⟨1, 3, 3, fun _ _ => 77⟩ = .ok r ∧
    r.get 2 1 = .ok (13 / 2) ∧ r.get 0 2 = .ok 15 ∧ r.get 0 0 = .ok 77 := by
  refine ⟨_, rfl, ?_, ?_, ?_⟩ <;> decide +kernel

/-! ### Bicubic interpolation -/

/-- With `x = y = 0` only the first coefficient is not zero. -/
theorem coefs_half : coefs half half = (1, 0, 0) :: (coefs half half).tail ∧ ∀ c ∈ (coefs half half).tail, c.1 = 0 := by
  decide

theorem cubCell_eq (a b : Grid K) (ha : a.WF) (hb : b.WF) (i j : Nat) (hi : 2 ≤ i ∧ i + 2 < a.xs) (hj : 2 ≤ j ∧ j + 2 < a.ys)
    (hx : a.xs ≤ b.xs) (hy : a.ys ≤ b.ys) :
    cubCell a (i, j) b = .ok (b.withCell fun x y => if x = i + b.os ∧ y = j + b.os then val a i j else b.cell x y) := by
  have hg : ∀ c ∈ coefs half half, ∃ v, a.get ((i : Int) + c.2.1) ((j : Int) + c.2.2) = .ok v := by
    intro c hc
    have hc' : -2 ≤ c.2.1 ∧ c.2.1 ≤ 2 ∧ -2 ≤ c.2.2 ∧ c.2.2 ≤ 2 := by
      have : ∀ c ∈ coefs half half, -2 ≤ c.2.1 ∧ c.2.1 ≤ 2 ∧ -2 ≤ c.2.2 ∧ c.2.2 ≤ 2 := by decide
      exact this c hc
    have := get_nat a ha (i := ((i : Int) + c.2.1).toNat) (j := ((j : Int) + c.2.2).toNat) (by omega) (by omega)
    rw [Int.toNat_of_nonneg (by omega), Int.toNat_of_nonneg (by omega)] at this
    exact ⟨_, this⟩
  have hzero : ∀ (l : List (Int × Int × Int)), (∀ c ∈ l, c ∈ coefs half half) → (∀ c ∈ l, c.1 = 0) → ∀ s : K,
      loop (fun c s => a.get ((i : Int) + c.2.1) ((j : Int) + c.2.2) >>= fun v => .ok (s + (c.1 : K) * v)) l s = .ok s := by
    intro l
    induction l with
    | nil => intro _ _ _; rfl
    | cons c l ih =>
      intro h1 h2 s
      obtain ⟨v, hv⟩ := hg c (h1 c List.mem_cons_self)
      rw [loop_cons]
      simp only [hv, Res.ok_bind, h2 c List.mem_cons_self, Int.cast_zero, zero_mul, add_zero]
      exact ih (fun c hc => h1 c (List.mem_cons_of_mem _ hc)) (fun c hc => h2 c (List.mem_cons_of_mem _ hc)) s
  have hloop : loop (fun c s => a.get ((i : Int) + c.2.1) ((j : Int) + c.2.2) >>= fun v => .ok (s + (c.1 : K) * v))
      (coefs half half) 0 = .ok (val a i j) := by
    rw [coefs_half.1, loop_cons]
    simp only [add_zero]
    rw [get_nat a ha (by omega) (by omega)]
    simp only [Res.ok_bind, Int.cast_one, one_mul, zero_add]
    exact hzero _ (fun c hc => List.mem_of_mem_tail hc) coefs_half.2 _
  unfold cubCell
  simp only
  rw [hloop, Res.ok_bind, set_nat b hb _ (by omega) (by omega)]

/-- Where C49 fails for the other interpolation: what is called bicubic copies the map (`int x = 0.5` is 0) up to the last
two rows and columns, and sets the first two rows and columns to zero, whatever the map is. -/
theorem C49_bicubic_fails (a b : Grid K) (A : Nat → Nat → K) (ha : a.WF) (hb : b.WF) (hx : a.xs ≤ b.xs) (hy : a.ys ≤ b.ys)
    (ho : 1 ≤ b.os) (hx0 : 2 ≤ a.xs) (hy0 : 2 ≤ a.ys) (hA : ∀ i j, i < a.xs → j < a.ys → a.get i j = .ok (A i j)) :
    ∃ r, bicubic a b a.xs a.ys = .ok r ∧
      (∀ i j, 2 ≤ i → i + 2 < a.xs → 2 ≤ j → j + 2 < a.ys → r.get i j = .ok (A i j)) ∧
      (∀ i j, i < a.xs → j < a.ys → i < 2 ∨ j < 2 → r.get i j = .ok 0) := by
  have hax : a.xr < 2 ^ 31 := ha.1
  have hay : a.yr < 2 ^ 31 := ha.2
  unfold Grid.xr at hax
  unfold Grid.yr at hay
  obtain ⟨c1, e1, s1, f1⟩ := loop_sets b (cubCell a) (idx2 2 (a.xs - 2) 2 (a.ys - 2)) (fun p => (p.1 + b.os, p.2 + b.os))
    (fun p => val a p.1 p.2) (by
      intro p hp c
      rw [mem_idx2] at hp
      exact cubCell_eq a (b.withCell c) ha (withCell_WF hb c) p.1 p.2 (by omega) (by omega) hx hy) b.cell
  rw [Grid.withCell_self] at e1
  have hX : ∀ j ∈ List.range a.ys, ∀ c, cubX a j (b.withCell c) = .ok (b.withCell fun x y =>
      if (x = b.os ∨ x = 1 + b.os ∨ x = a.xs + b.os) ∧ y = j + b.os then 0 else c x y) := by
    intro j hj c
    rw [List.mem_range] at hj
    unfold cubX
    have k1 := fun c => set_nat (b.withCell c) (withCell_WF hb c) (i := 0) (j := j) (0 : K)
      (by simp only [Grid.withCell_xs, Grid.withCell_os]; omega) (by simp only [Grid.withCell_ys, Grid.withCell_os]; omega)
    have k2 := fun c => set_nat (b.withCell c) (withCell_WF hb c) (i := 1) (j := j) (0 : K)
      (by simp only [Grid.withCell_xs, Grid.withCell_os]; omega) (by simp only [Grid.withCell_ys, Grid.withCell_os]; omega)
    have k3 := fun c => set_nat (b.withCell c) (withCell_WF hb c) (i := a.xs) (j := j) (0 : K)
      (by simp only [Grid.withCell_xs, Grid.withCell_os]; omega) (by simp only [Grid.withCell_ys, Grid.withCell_os]; omega)
    have ww : ∀ c c', (b.withCell c).withCell c' = b.withCell c' := fun _ _ => rfl
    simp only [Nat.cast_zero, Nat.cast_one, Grid.withCell_os, Grid.withCell_cell, ww] at k1 k2 k3
    rw [k1, Res.ok_bind, k2, Res.ok_bind, k3, Res.ok_bind, k3]
    congr 2
    funext x y
    by_cases hy : y = j + b.os
    · by_cases h0 : x = b.os
      · simp [hy, h0]
      · by_cases h1 : x = 1 + b.os
        · simp [hy, h0, h1]
        · by_cases h2 : x = a.xs + b.os
          · simp [hy, h0, h1, h2]
          · simp [hy, h0, h1, h2]
    · simp [hy]
  have hY : ∀ i ∈ List.range a.xs, ∀ c, cubY a i (b.withCell c) = .ok (b.withCell fun x y =>
      if (y = b.os ∨ y = 1 + b.os ∨ y = a.ys + b.os) ∧ x = i + b.os then 0 else c x y) := by
    intro i hi c
    rw [List.mem_range] at hi
    unfold cubY
    have k1 := fun c => set_nat (b.withCell c) (withCell_WF hb c) (i := i) (j := 0) (0 : K)
      (by simp only [Grid.withCell_xs, Grid.withCell_os]; omega) (by simp only [Grid.withCell_ys, Grid.withCell_os]; omega)
    have k2 := fun c => set_nat (b.withCell c) (withCell_WF hb c) (i := i) (j := 1) (0 : K)
      (by simp only [Grid.withCell_xs, Grid.withCell_os]; omega) (by simp only [Grid.withCell_ys, Grid.withCell_os]; omega)
    have k3 := fun c => set_nat (b.withCell c) (withCell_WF hb c) (i := i) (j := a.ys) (0 : K)
      (by simp only [Grid.withCell_xs, Grid.withCell_os]; omega) (by simp only [Grid.withCell_ys, Grid.withCell_os]; omega)
    have ww : ∀ c c', (b.withCell c).withCell c' = b.withCell c' := fun _ _ => rfl
    simp only [Nat.cast_zero, Nat.cast_one, Grid.withCell_os, Grid.withCell_cell, ww] at k1 k2 k3
    rw [k1, Res.ok_bind, k2, Res.ok_bind, k3, Res.ok_bind, k3]
    congr 2
    funext x y
    by_cases hx : x = i + b.os
    · by_cases h0 : y = b.os
      · simp [hx, h0]
      · by_cases h1 : y = 1 + b.os
        · simp [hx, h0, h1]
        · by_cases h2 : y = a.ys + b.os
          · simp [hx, h0, h1, h2]
          · simp [hx, h0, h1, h2]
    · simp [hx]
  have lX : ∀ (l : List Nat), (∀ j ∈ l, j ∈ List.range a.ys) → ∀ c, loop (cubX a) l (b.withCell c) = .ok (b.withCell fun x y =>
      if (x = b.os ∨ x = 1 + b.os ∨ x = a.xs + b.os) ∧ ∃ j ∈ l, y = j + b.os then 0 else c x y) := by
    intro l
    induction l with
    | nil => intro _ c; simp [loop]
    | cons j l ih =>
      intro h c
      rw [loop_cons, hX j (h j List.mem_cons_self), Res.ok_bind, ih (fun k hk => h k (List.mem_cons_of_mem _ hk))]
      congr 2
      funext x y
      by_cases hA : (x = b.os ∨ x = 1 + b.os ∨ x = a.xs + b.os)
      · by_cases hB : ∃ k ∈ l, y = k + b.os
        · obtain ⟨k, hk, rfl⟩ := hB
          rw [if_pos ⟨hA, k, hk, rfl⟩, if_pos ⟨hA, k, List.mem_cons_of_mem _ hk, rfl⟩]
        · rw [if_neg (fun h => hB h.2)]
          by_cases hC : y = j + b.os
          · rw [if_pos ⟨hA, hC⟩, if_pos ⟨hA, j, List.mem_cons_self, hC⟩]
          · rw [if_neg (fun h => hC h.2), if_neg]
            rintro ⟨_, k, hk, e⟩
            rcases List.mem_cons.mp hk with rfl | hk
            · exact hC e
            · exact hB ⟨k, hk, e⟩
      · rw [if_neg (fun h => hA h.1), if_neg (fun h => hA h.1), if_neg (fun h => hA h.1)]
  have lY : ∀ (l : List Nat), (∀ j ∈ l, j ∈ List.range a.xs) → ∀ c, loop (cubY a) l (b.withCell c) = .ok (b.withCell fun x y =>
      if (y = b.os ∨ y = 1 + b.os ∨ y = a.ys + b.os) ∧ ∃ i ∈ l, x = i + b.os then 0 else c x y) := by
    intro l
    induction l with
    | nil => intro _ c; simp [loop]
    | cons j l ih =>
      intro h c
      rw [loop_cons, hY j (h j List.mem_cons_self), Res.ok_bind, ih (fun k hk => h k (List.mem_cons_of_mem _ hk))]
      congr 2
      funext x y
      by_cases hA : (y = b.os ∨ y = 1 + b.os ∨ y = a.ys + b.os)
      · by_cases hB : ∃ k ∈ l, x = k + b.os
        · obtain ⟨k, hk, rfl⟩ := hB
          rw [if_pos ⟨hA, k, hk, rfl⟩, if_pos ⟨hA, k, List.mem_cons_of_mem _ hk, rfl⟩]
        · rw [if_neg (fun h => hB h.2)]
          by_cases hC : x = j + b.os
          · rw [if_pos ⟨hA, hC⟩, if_pos ⟨hA, j, List.mem_cons_self, hC⟩]
          · rw [if_neg (fun h => hC h.2), if_neg]
            rintro ⟨_, k, hk, e⟩
            rcases List.mem_cons.mp hk with rfl | hk
            · exact hC e
            · exact hB ⟨k, hk, e⟩
      · rw [if_neg (fun h => hA h.1), if_neg (fun h => hA h.1), if_neg (fun h => hA h.1)]
  have hrun : bicubic a b a.xs a.ys = .ok (b.withCell fun x y =>
      if (y = b.os ∨ y = 1 + b.os ∨ y = a.ys + b.os) ∧ ∃ i ∈ List.range a.xs, x = i + b.os then 0 else
      if (x = b.os ∨ x = 1 + b.os ∨ x = a.xs + b.os) ∧ ∃ j ∈ List.range a.ys, y = j + b.os then 0 else c1 x y) := by
    unfold bicubic
    rw [show (a.xs + (2 ^ 32 - 2)) % 2 ^ 32 = a.xs - 2 by omega, show (a.ys + (2 ^ 32 - 2)) % 2 ^ 32 = a.ys - 2 by omega,
      e1, Res.ok_bind, lX _ (fun _ h => h), Res.ok_bind, lY _ (fun _ h => h)]
  refine ⟨_, hrun, ?_, ?_⟩
  · intro i j h1 h2 h3 h4
    rw [get_nat _ (withCell_WF hb _) (by simp only [Grid.withCell_xs, Grid.withCell_os]; omega)
      (by simp only [Grid.withCell_ys, Grid.withCell_os]; omega)]
    simp only [Grid.withCell_os, Grid.withCell_cell]
    rw [if_neg (by rintro ⟨h, _⟩; omega), if_neg (by rintro ⟨h, _⟩; omega)]
    have := s1 (i, j) (mem_idx2.mpr ⟨⟨h1, by omega⟩, h3, by omega⟩) (fun k _ hk => by
      have h1 : k.1 + b.os = i + b.os := (Prod.mk.inj hk).1
      have h2 : k.2 + b.os = j + b.os := (Prod.mk.inj hk).2
      rw [show k.1 = i by omega, show k.2 = j by omega])
    simp only at this
    rw [this]
    have hv := hA i j (by omega) (by omega)
    rw [get_nat a ha (by omega) (by omega)] at hv
    exact hv
  · intro i j hi hj h
    rw [get_nat _ (withCell_WF hb _) (by simp only [Grid.withCell_xs, Grid.withCell_os]; omega)
      (by simp only [Grid.withCell_ys, Grid.withCell_os]; omega)]
    simp only [Grid.withCell_os, Grid.withCell_cell]
    by_cases h2 : j < 2
    · rw [if_pos ⟨by omega, i, List.mem_range.mpr hi, rfl⟩]
    · rw [if_neg (by rintro ⟨h, _⟩; omega), if_pos ⟨by omega, j, List.mem_range.mpr hj, rfl⟩]

/-- Where C49 fails: without an overlay the bicubic interpolation writes outside of the grid (for maps of two up to four
rows or columns too, where nothing is interpolated). -/
theorem C49_bicubic_overlay_fails (a b : Grid K) (ha : a.WF) (hb : b.WF) (hx : b.xs = a.xs) (hy : b.ys = a.ys)
    (ho : b.os = 0) (hx0 : 2 ≤ a.xs) (hy0 : 2 ≤ a.ys) : bicubic a b a.xs a.ys = .ub := by
  have hax : a.xr < 2 ^ 31 := ha.1
  have hay : a.yr < 2 ^ 31 := ha.2
  unfold Grid.xr at hax
  unfold Grid.yr at hay
  obtain ⟨c1, e1, s1, f1⟩ := loop_sets b (cubCell a) (idx2 2 (a.xs - 2) 2 (a.ys - 2)) (fun p => (p.1 + b.os, p.2 + b.os))
    (fun p => val a p.1 p.2) (by
      intro p hp c
      rw [mem_idx2] at hp
      exact cubCell_eq a (b.withCell c) ha (withCell_WF hb c) p.1 p.2 (by omega) (by omega) (by simp [hx]) (by simp [hy])) b.cell
  rw [Grid.withCell_self] at e1
  obtain ⟨n, hn⟩ : ∃ n, a.ys = n + 1 := ⟨a.ys - 1, by omega⟩
  have hX : cubX a 0 (b.withCell c1) = .ub := by
    unfold cubX
    have k1 := fun c => set_nat (b.withCell c) (withCell_WF hb c) (i := 0) (j := 0) (0 : K)
      (by simp only [Grid.withCell_xs, Grid.withCell_os]; omega) (by simp only [Grid.withCell_ys, Grid.withCell_os]; omega)
    have k2 := fun c => set_nat (b.withCell c) (withCell_WF hb c) (i := 1) (j := 0) (0 : K)
      (by simp only [Grid.withCell_xs, Grid.withCell_os]; omega) (by simp only [Grid.withCell_ys, Grid.withCell_os]; omega)
    have k3 : ∀ c, (b.withCell c).set (a.xs : Int) 0 (0 : K) = .ub := by
      intro c
      unfold Grid.set
      rw [Grid.uidx_nonneg _ _ (by omega) (by simp only [Grid.withCell_os]; omega)]
      apply Grid.wr_ub
      simp only [Grid.withCell_os, Grid.withCell_xr, Grid.withCell_xs, Grid.xr]
      omega
    have ww : ∀ c c', (b.withCell c).withCell c' = b.withCell c' := fun _ _ => rfl
    simp only [Nat.cast_zero, Nat.cast_one, Grid.withCell_os, Grid.withCell_cell, ww] at k1 k2 ⊢
    rw [k1, Res.ok_bind, k2, Res.ok_bind, k3, Res.ub_bind]
  unfold bicubic
  rw [show (a.xs + (2 ^ 32 - 2)) % 2 ^ 32 = a.xs - 2 by omega, show (a.ys + (2 ^ 32 - 2)) % 2 ^ 32 = a.ys - 2 by omega,
    e1, Res.ok_bind, hn, List.range_succ_eq_map, loop_cons, hX, Res.ub_bind, Res.ub_bind]

/-- A constant map is not kept. -/
example : ∃ r, bicubic (⟨1, 6, 6, fun _ _ => (5 : ℚ)⟩ : Grid ℚ) ⟨1, 6, 6, fun _ _ => 77⟩ 6 6 = .ok r ∧
    r.get 2 2 = .ok 5 ∧ r.get 1 1 = .ok 0 ∧ r.get 3 1 = .ok 0 ∧ r.get 5 5 = .ok 77 := by
  refine ⟨_, rfl, ?_, ?_, ?_, ?_⟩ <;> decide +kernel

end
end Help
end Pico
