import Verif.Model.SMB
import Verif.Lemmas.Grid

/-! Helper lemmas for the overlay pass over many domains. -/

set_option linter.unusedSimpArgs false
set_option linter.unusedVariables false

namespace Pico
namespace SMB

variable {T : Type _}

theorem mem_stride {s n i : Nat} : i ∈ stride s n ↔ i < n ∧ i % 2 = s := by
  simp [stride]

theorem nodup_stride (s n : Nat) : (stride s n).Nodup :=
  List.Nodup.sublist List.filter_sublist List.nodup_range

theorem mem_colour {nr nz : Nat} {c p : Nat × Nat} :
    p ∈ colour nr nz c ↔ (p.1 < nr ∧ p.2 < nz) ∧ p.1 % 2 = c.1 ∧ p.2 % 2 = c.2 := by
  obtain ⟨i, j⟩ := p
  simp only [colour, List.mem_flatMap, List.mem_map, mem_stride, Prod.mk.injEq]
  constructor
  · rintro ⟨a, ⟨h1, h2⟩, b, ⟨h3, h4⟩, rfl, rfl⟩
    exact ⟨⟨h1, h3⟩, h2, h4⟩
  · rintro ⟨⟨h1, h3⟩, h2, h4⟩
    exact ⟨i, ⟨h1, h2⟩, j, ⟨h3, h4⟩, rfl, rfl⟩

theorem mem_sweep {nr nz : Nat} {p : Nat × Nat} :
    p ∈ sweep nr nz ↔ p.1 < nr ∧ p.2 < nz := by
  simp only [sweep, colours, List.mem_flatMap, mem_colour, List.mem_cons, List.not_mem_nil, or_false]
  constructor
  · rintro ⟨c, _, h, _⟩; exact h
  · intro h
    refine ⟨(p.1 % 2, p.2 % 2), ?_, h, rfl, rfl⟩
    have h1 := Nat.mod_two_eq_zero_or_one p.1
    have h2 := Nat.mod_two_eq_zero_or_one p.2
    rcases h1 with h1 | h1 <;> rcases h2 with h2 | h2 <;> simp [h1, h2]

theorem nodup_colour (nr nz : Nat) (c : Nat × Nat) : (colour nr nz c).Nodup :=
  nodup_flatMap_pairs _ _ (nodup_stride _ _) (nodup_stride _ _)

theorem nodup_sweep (nr nz : Nat) : (sweep nr nz).Nodup := by
  have dis : ∀ c c' : Nat × Nat, c ≠ c' → ∀ p ∈ colour nr nz c, ∀ q ∈ colour nr nz c', p ≠ q := by
    rintro ⟨c1, c2⟩ ⟨d1, d2⟩ hne p hp q hq rfl
    rw [mem_colour] at hp hq
    apply hne
    dsimp only at hp hq
    rw [← hp.2.1, ← hp.2.2, ← hq.2.1, ← hq.2.2]
  simp only [sweep, colours, List.flatMap_cons, List.flatMap_nil, List.append_nil]
  refine List.nodup_append.mpr ⟨nodup_colour _ _ _, List.nodup_append.mpr ⟨nodup_colour _ _ _,
    List.nodup_append.mpr ⟨nodup_colour _ _ _, nodup_colour _ _ _, ?_⟩, ?_⟩, ?_⟩
  · exact dis _ _ (by decide)
  · intro p hp q hq
    rcases List.mem_append.mp hq with h | h
    · exact dis _ _ (by decide) p hp q h
    · exact dis _ _ (by decide) p hp q h
  · intro p hp q hq
    rcases List.mem_append.mp hq with h | h
    · exact dis _ _ (by decide) p hp q h
    · rcases List.mem_append.mp h with h | h
      · exact dis _ _ (by decide) p hp q h
      · exact dis _ _ (by decide) p hp q h

/-- Location: domain indices and real cell indices. -/
abbrev DLoc := Nat × Nat × Nat × Nat

/-- Domains of the given shapes with the given memory. -/
def ofMemD (sh : Domains T) (m : DLoc → T) : Domains T :=
  fun i j => (sh i j).withCell fun r c => m (i, j, r, c)

/-- A regular layout: common overlay width, heights depend on `i` only, widths on `j` only. -/
structure Layout (sh : Domains T) (nr nz : Nat) (os : Nat) (xs ys : Nat → Nat) : Prop where
  os_eq : ∀ i j, i < nr → j < nz → (sh i j).os = os
  xs_eq : ∀ i j, i < nr → j < nz → (sh i j).xs = xs i
  ys_eq : ∀ i j, i < nr → j < nz → (sh i j).ys = ys j

/-- Effect of `overlay_x` between domains `(i, j)` and `(i+1, j)` on memory. -/
def stX [Add T] (os : Nat) (xs ys : Nat → Nat) (i j : Nat) (m : DLoc → T) : DLoc → T :=
  fun x =>
    if x.2.1 = j ∧ os ≤ x.2.2.2 ∧ x.2.2.2 < ys j + os then
      if x.1 = i ∧ xs i ≤ x.2.2.1 ∧ x.2.2.1 < xs i + 2*os then
        m (i, j, x.2.2.1, x.2.2.2) + m (i+1, j, x.2.2.1 - xs i, x.2.2.2)
      else if x.1 = i + 1 ∧ x.2.2.1 < 2*os then
        m (i, j, xs i + x.2.2.1, x.2.2.2) + m (i+1, j, x.2.2.1, x.2.2.2)
      else m x
    else m x

/-- Effect of `overlay_y` between domains `(i, j)` and `(i, j+1)` on memory. -/
def stY [Add T] (os : Nat) (xs ys : Nat → Nat) (i j : Nat) (m : DLoc → T) : DLoc → T :=
  fun x =>
    if x.1 = i ∧ os ≤ x.2.2.1 ∧ x.2.2.1 < xs i + os then
      if x.2.1 = j ∧ ys j ≤ x.2.2.2 ∧ x.2.2.2 < ys j + 2*os then
        m (i, j, x.2.2.1, x.2.2.2) + m (i, j+1, x.2.2.1, x.2.2.2 - ys j)
      else if x.2.1 = j + 1 ∧ x.2.2.2 < 2*os then
        m (i, j, x.2.2.1, ys j + x.2.2.2) + m (i, j+1, x.2.2.1, x.2.2.2)
      else m x
    else m x

/-- Effect of `overlay_xy` between domains `(i, j)` and `(i+1, j+1)`, all `n × n`. -/
def stXY [Add T] (os n : Nat) (i j : Nat) (m : DLoc → T) : DLoc → T :=
  fun x =>
    if x.1 = i ∧ x.2.1 = j ∧
        ((n ≤ x.2.2.1 ∧ x.2.2.1 < n + os ∧ n ≤ x.2.2.2 ∧ x.2.2.2 < n + os) ∨
         (n + os ≤ x.2.2.1 ∧ x.2.2.1 < n + 2*os ∧ n + os ≤ x.2.2.2 ∧ x.2.2.2 < n + 2*os)) then
      m x + m (i+1, j+1, x.2.2.1 - n, x.2.2.2 - n)
    else if x.1 = i + 1 ∧ x.2.1 = j + 1 ∧
        ((x.2.2.1 < os ∧ x.2.2.2 < os) ∨
         (os ≤ x.2.2.1 ∧ x.2.2.1 < 2*os ∧ os ≤ x.2.2.2 ∧ x.2.2.2 < 2*os)) then
      m (i, j, n + x.2.2.1, n + x.2.2.2) + m x
    else m x

theorem setD_ofMem (sh : Domains T) (m m' : DLoc → T) (i j i' j' : Nat)
    (a b : Nat → Nat → T) (hne : ¬ (i = i' ∧ j = j'))
    (h1 : ∀ r c, m' (i, j, r, c) = a r c) (h2 : ∀ r c, m' (i', j', r, c) = b r c)
    (h3 : ∀ x y r c, ¬ (x = i ∧ y = j) → ¬ (x = i' ∧ y = j') → m' (x, y, r, c) = m (x, y, r, c)) :
    setD (setD (ofMemD sh m) i j ((sh i j).withCell a)) i' j' ((sh i' j').withCell b)
      = ofMemD sh m' := by
  funext x y
  unfold setD ofMemD
  by_cases e' : x = i' ∧ y = j'
  · rw [if_pos e', e'.1, e'.2]
    congr 1
    funext r c
    exact (h2 r c).symm
  · rw [if_neg e']
    by_cases e : x = i ∧ y = j
    · rw [if_pos e, e.1, e.2]
      congr 1
      funext r c
      exact (h1 r c).symm
    · rw [if_neg e]
      congr 1
      funext r c
      exact (h3 x y r c e e').symm

theorem overlayX_mem [AddCommMagma T] (sh : Domains T) (os : Nat) (xs ys : Nat → Nat) (nr nz : Nat)
    (L : Layout sh nr nz os xs ys) (m : DLoc → T) (i j : Nat) (hi : i + 1 < nr) (hj : j < nz) :
    ((ofMemD sh m i j).overlayX (ofMemD sh m (i+1) j) >>= fun p =>
      pure (setD (setD (ofMemD sh m) i j p.1) (i+1) j p.2))
      = .ok (ofMemD sh (stX os xs ys i j m)) := by
  have hl := L.os_eq i j (by omega) (by omega)
  have hl' := L.os_eq (i+1) j (by omega) (by omega)
  have hx := L.xs_eq i j (by omega) (by omega)
  have hx' := L.xs_eq (i+1) j (by omega) (by omega)
  have hy := L.ys_eq i j (by omega) (by omega)
  have hy' := L.ys_eq (i+1) j (by omega) (by omega)
  obtain ⟨c, c', h0, h1, h2, h3⟩ := Grid.overlayX_eq (ofMemD sh m i j) (ofMemD sh m (i+1) j)
    (by simp only [ofMemD, Grid.withCell_os, Grid.withCell_xs, Grid.withCell_ys, Grid.withCell_yr, Grid.yr]; omega)
    (by simp only [ofMemD, Grid.withCell_os, Grid.withCell_xs, Grid.withCell_ys, Grid.withCell_os, Grid.withCell_xr, Grid.xr]; omega)
  rw [h0, Res.ok_bind, Res.pure_eq]
  simp only [ofMemD, Grid.withCell_os, Grid.withCell_xs, Grid.withCell_ys, Grid.withCell_os, Grid.withCell_xs, Grid.withCell_ys, Grid.withCell_xr, Grid.withCell_yr, Grid.withCell_cell,
    Grid.xr, Grid.yr, hl, hx, hy] at h1 h2 h3
  have e1 : xs i + os * 2 - 2 * os = xs i := by omega
  have e2 : ys j + os * 2 - os = ys j + os := by omega
  rw [e1, e2] at h2
  rw [e2] at h3
  simp only [e1, e2] at h1
  congr 1
  refine setD_ofMem sh m _ i j (i+1) j c c' (by omega) ?_ ?_ ?_
  · intro r cc
    unfold stX
    dsimp only
    by_cases hb : os ≤ cc ∧ cc < ys j + os
    · rw [if_pos ⟨rfl, hb⟩]
      by_cases hr : xs i ≤ r ∧ r < xs i + 2 * os
      · rw [if_pos ⟨rfl, hr⟩]
        have := (h1 (r - xs i) cc (by omega) hb.1 hb.2).1
        rw [Nat.add_sub_cancel' hr.1] at this
        exact this.symm
      · rw [if_neg (by omega), if_neg (by omega)]
        exact (h2 r cc (by omega)).symm
    · rw [if_neg (by omega)]
      exact (h2 r cc (by omega)).symm
  · intro r cc
    unfold stX
    dsimp only
    by_cases hb : os ≤ cc ∧ cc < ys j + os
    · rw [if_pos ⟨rfl, hb⟩, if_neg (by omega)]
      by_cases hr : r < 2 * os
      · rw [if_pos ⟨rfl, hr⟩]
        exact (h1 r cc hr hb.1 hb.2).2.symm
      · rw [if_neg (by omega)]
        exact (h3 r cc (by omega)).symm
    · rw [if_neg (by omega)]
      exact (h3 r cc (by omega)).symm
  · intro x y r cc hx hy
    unfold stX
    dsimp only
    by_cases hb : y = j ∧ os ≤ cc ∧ cc < ys j + os
    · rw [if_pos hb, if_neg (by omega), if_neg (by omega)]
    · rw [if_neg hb]

theorem overlayY_mem [AddCommMagma T] (sh : Domains T) (os : Nat) (xs ys : Nat → Nat) (nr nz : Nat)
    (L : Layout sh nr nz os xs ys) (m : DLoc → T) (i j : Nat) (hi : i < nr) (hj : j + 1 < nz) :
    ((ofMemD sh m i j).overlayY (ofMemD sh m i (j+1)) >>= fun p =>
      pure (setD (setD (ofMemD sh m) i j p.1) i (j+1) p.2))
      = .ok (ofMemD sh (stY os xs ys i j m)) := by
  have hl := L.os_eq i j (by omega) (by omega)
  have hl' := L.os_eq i (j+1) (by omega) (by omega)
  have hx := L.xs_eq i j (by omega) (by omega)
  have hx' := L.xs_eq i (j+1) (by omega) (by omega)
  have hy := L.ys_eq i j (by omega) (by omega)
  have hy' := L.ys_eq i (j+1) (by omega) (by omega)
  obtain ⟨c, c', h0, h1, h2, h3⟩ := Grid.overlayY_eq (ofMemD sh m i j) (ofMemD sh m i (j+1))
    (by simp only [ofMemD, Grid.withCell_os, Grid.withCell_xs, Grid.withCell_ys, Grid.withCell_xr, Grid.xr]; omega)
    (by simp only [ofMemD, Grid.withCell_os, Grid.withCell_xs, Grid.withCell_ys, Grid.withCell_os, Grid.withCell_yr, Grid.yr]; omega)
  rw [h0, Res.ok_bind, Res.pure_eq]
  simp only [ofMemD, Grid.withCell_os, Grid.withCell_xs, Grid.withCell_ys, Grid.withCell_os, Grid.withCell_xs, Grid.withCell_ys, Grid.withCell_xr, Grid.withCell_yr, Grid.withCell_cell,
    Grid.xr, Grid.yr, hl, hx, hy] at h1 h2 h3
  have e1 : ys j + os * 2 - 2 * os = ys j := by omega
  have e2 : xs i + os * 2 - os = xs i + os := by omega
  rw [e1, e2] at h2
  rw [e2] at h3
  simp only [e1, e2] at h1
  congr 1
  refine setD_ofMem sh m _ i j i (j+1) c c' (by omega) ?_ ?_ ?_
  · intro r cc
    unfold stY
    dsimp only
    by_cases hb : os ≤ r ∧ r < xs i + os
    · rw [if_pos ⟨rfl, hb⟩]
      by_cases hr : ys j ≤ cc ∧ cc < ys j + 2 * os
      · rw [if_pos ⟨rfl, hr⟩]
        have := (h1 (cc - ys j) r (by omega) hb.1 hb.2).1
        rw [Nat.add_sub_cancel' hr.1] at this
        exact this.symm
      · rw [if_neg (by omega), if_neg (by omega)]
        exact (h2 r cc (by omega)).symm
    · rw [if_neg (by omega)]
      exact (h2 r cc (by omega)).symm
  · intro r cc
    unfold stY
    dsimp only
    by_cases hb : os ≤ r ∧ r < xs i + os
    · rw [if_pos ⟨rfl, hb⟩, if_neg (by omega)]
      by_cases hr : cc < 2 * os
      · rw [if_pos ⟨rfl, hr⟩]
        exact (h1 cc r hr hb.1 hb.2).2.symm
      · rw [if_neg (by omega)]
        exact (h3 r cc (by omega)).symm
    · rw [if_neg (by omega)]
      exact (h3 r cc (by omega)).symm
  · intro x y r cc hx hy
    unfold stY
    dsimp only
    by_cases hb : x = i ∧ os ≤ r ∧ r < xs i + os
    · rw [if_pos hb, if_neg (by omega), if_neg (by omega)]
    · rw [if_neg hb]

theorem overlayXY_mem [AddCommMagma T] (sh : Domains T) (os n : Nat) (nr nz : Nat)
    (L : Layout sh nr nz os (fun _ => n) (fun _ => n)) (m : DLoc → T) (i j : Nat) (hi : i + 1 < nr) (hj : j + 1 < nz) :
    ((ofMemD sh m i j).overlayXY (ofMemD sh m (i+1) (j+1)) >>= fun p =>
      pure (setD (setD (ofMemD sh m) i j p.1) (i+1) (j+1) p.2))
      = .ok (ofMemD sh (stXY os n i j m)) := by
  have hl := L.os_eq i j (by omega) (by omega)
  have hl' := L.os_eq (i+1) (j+1) (by omega) (by omega)
  have hx := L.xs_eq i j (by omega) (by omega)
  have hx' := L.xs_eq (i+1) (j+1) (by omega) (by omega)
  have hy := L.ys_eq i j (by omega) (by omega)
  have hy' := L.ys_eq (i+1) (j+1) (by omega) (by omega)
  obtain ⟨c, c', h0, h1, h2, h3⟩ := Grid.overlayXY_eq (ofMemD sh m i j) (ofMemD sh m (i+1) (j+1))
    (by simp only [ofMemD, Grid.withCell_os, Grid.withCell_xs, Grid.withCell_ys, Grid.withCell_xr, Grid.xr]; omega)
    (by simp only [ofMemD, Grid.withCell_os, Grid.withCell_xs, Grid.withCell_ys, Grid.withCell_yr, Grid.yr]; omega)
    (by simp only [ofMemD, Grid.withCell_os, Grid.withCell_xs, Grid.withCell_ys, Grid.withCell_xr, Grid.withCell_yr, Grid.xr, Grid.yr]; omega)
  rw [h0, Res.ok_bind, Res.pure_eq]
  simp only [ofMemD, Grid.withCell_os, Grid.withCell_xs, Grid.withCell_ys, Grid.withCell_os, Grid.withCell_xs, Grid.withCell_ys, Grid.withCell_xr, Grid.withCell_yr, Grid.withCell_cell,
    Grid.xr, Grid.yr, hl, hx] at h1 h2 h3
  have e1 : n + os * 2 - 2 * os = n := by omega
  have e2 : n + os * 2 - os = n + os := by omega
  simp only [e1, e2] at h1 h2 h3
  congr 1
  refine setD_ofMem sh m _ i j (i+1) (j+1) c c' (by omega) ?_ ?_ ?_
  · intro r cc
    unfold stXY
    dsimp only
    by_cases hb : (n ≤ r ∧ r < n + os ∧ n ≤ cc ∧ cc < n + os) ∨
         (n + os ≤ r ∧ r < n + 2*os ∧ n + os ≤ cc ∧ cc < n + 2*os)
    · rw [if_pos ⟨rfl, rfl, hb⟩]
      have := (h1 (r - n) (cc - n) (by omega)).1
      rw [Nat.add_sub_cancel' (by omega), Nat.add_sub_cancel' (by omega)] at this
      exact this.symm
    · rw [if_neg (fun h => hb h.2.2), if_neg (by omega)]
      exact (h2 r cc (by omega)).symm
  · intro r cc
    unfold stXY
    dsimp only
    rw [if_neg (by omega)]
    by_cases hb : (r < os ∧ cc < os) ∨ (os ≤ r ∧ r < 2*os ∧ os ≤ cc ∧ cc < 2*os)
    · rw [if_pos ⟨rfl, rfl, hb⟩]
      exact (h1 r cc (by omega)).2.symm
    · rw [if_neg (fun h => hb h.2.2)]
      exact (h3 r cc (by omega)).symm
  · intro x y r cc hx hy
    unfold stXY
    dsimp only
    rw [if_neg (by rintro ⟨rfl, rfl, h⟩; omega), if_neg (by omega)]

/-- Effect of the loop body on memory. -/
def stAt [Add T] (os : Nat) (xs ys : Nat → Nat) (nr nz : Nat) (m : DLoc → T) (p : Nat × Nat) :
    DLoc → T :=
  let m₁ := if p.1 + 1 < nr then stX os xs ys p.1 p.2 m else m
  let m₂ := if p.2 + 1 < nz then stY os xs ys p.1 p.2 m₁ else m₁
  if p.1 + 1 < nr ∧ p.2 + 1 < nz then stXY os (xs 0) p.1 p.2 m₂ else m₂

/-- The layouts on which the pass is free of aborts and undefined behaviour:
a chain in one direction, or equal square domains. -/
def Good (nr nz : Nat) (xs ys : Nat → Nat) : Prop :=
  nr ≤ 1 ∨ nz ≤ 1 ∨ ((∀ i, i < nr → xs i = xs 0) ∧ ∀ j, j < nz → ys j = xs 0)

theorem overlayAt_mem [AddCommMagma T] (sh : Domains T) (os : Nat) (xs ys : Nat → Nat)
    (nr nz : Nat) (L : Layout sh nr nz os xs ys) (G : Good nr nz xs ys) (p : Nat × Nat)
    (hp : p ∈ sweep nr nz) (m : DLoc → T) :
    overlayAt nr nz p (ofMemD sh m) = .ok (ofMemD sh (stAt os xs ys nr nz m p)) := by
  obtain ⟨i, j⟩ := p
  have hij : i < nr ∧ j < nz := mem_sweep.mp hp
  have hX : ∀ m : DLoc → T, exchX nr i j (ofMemD sh m)
      = .ok (ofMemD sh (if i + 1 < nr then stX os xs ys i j m else m)) := by
    intro m
    unfold exchX
    by_cases h : i + 1 < nr
    · rw [if_pos h, if_pos h]
      exact overlayX_mem sh os xs ys nr nz L m i j h hij.2
    · rw [if_neg h, if_neg h]; rfl
  have hY : ∀ m : DLoc → T, exchY nz i j (ofMemD sh m)
      = .ok (ofMemD sh (if j + 1 < nz then stY os xs ys i j m else m)) := by
    intro m
    unfold exchY
    by_cases h : j + 1 < nz
    · rw [if_pos h, if_pos h]
      exact overlayY_mem sh os xs ys nr nz L m i j hij.1 h
    · rw [if_neg h, if_neg h]; rfl
  have hXY : ∀ m : DLoc → T, exchXY nr nz i j (ofMemD sh m)
      = .ok (ofMemD sh (if i + 1 < nr ∧ j + 1 < nz then stXY os (xs 0) i j m else m)) := by
    intro m
    unfold exchXY
    by_cases h : i + 1 < nr ∧ j + 1 < nz
    · rw [if_pos h, if_pos h]
      have L' : Layout sh nr nz os (fun _ => xs 0) (fun _ => xs 0) := by
        rcases G with g | g | g
        · omega
        · omega
        · exact ⟨L.os_eq, fun i j hi hj => (L.xs_eq i j hi hj).trans (g.1 i hi),
            fun i j hi hj => (L.ys_eq i j hi hj).trans (g.2 j hj)⟩
      exact overlayXY_mem sh os (xs 0) nr nz L' m i j h.1 h.2
    · rw [if_neg h, if_neg h]; rfl
  unfold overlayAt stAt
  dsimp only
  rw [hX m, Res.ok_bind, hY _, Res.ok_bind, hXY _]

theorem overlayPass_mem [AddCommMagma T] (sh : Domains T) (os : Nat) (xs ys : Nat → Nat)
    (nr nz : Nat) (L : Layout sh nr nz os xs ys) (G : Good nr nz xs ys) (m : DLoc → T) :
    overlayPass nr nz (ofMemD sh m)
      = .ok (ofMemD sh ((sweep nr nz).foldl (stAt os xs ys nr nz) m)) :=
  loop_map (overlayAt nr nz) (ofMemD sh) (stAt os xs ys nr nz) (sweep nr nz)
    (fun p hp m => overlayAt_mem sh os xs ys nr nz L G p hp m) m

/-- Columns in which only `overlay_x` acts. -/
def midCol (os : Nat) (ys : Nat → Nat) (nz : Nat) (x : DLoc) : Prop :=
  nz ≤ 1 ∨ (2*os ≤ x.2.2.2 ∧ x.2.2.2 < ys x.2.1)

/-- Rows in which only `overlay_y` acts. -/
def midRow (os : Nat) (xs : Nat → Nat) (nr : Nat) (x : DLoc) : Prop :=
  nr ≤ 1 ∨ (2*os ≤ x.2.2.1 ∧ x.2.2.1 < xs x.1)

theorem stAt_midCol [Add T] (os : Nat) (xs ys : Nat → Nat) (nr nz : Nat)
    (G : Good nr nz xs ys) (m : DLoc → T)
    (p : Nat × Nat) (hp : p ∈ sweep nr nz) (x : DLoc) (hx : midCol os ys nz x) :
    stAt os xs ys nr nz m p x = if p.1 + 1 < nr then stX os xs ys p.1 p.2 m x else m x := by
  obtain ⟨i, j⟩ := p
  have hij : i < nr ∧ j < nz := mem_sweep.mp hp
  obtain ⟨a, b, r, c⟩ := x
  have h2 := hx
  unfold midCol at h2
  dsimp only at h2
  have hY : ∀ m' : DLoc → T, (if j + 1 < nz then stY os xs ys i j m' else m') (a, b, r, c)
      = m' (a, b, r, c) := by
    intro m'
    by_cases h : j + 1 < nz
    · rw [if_pos h]
      unfold stY
      dsimp only
      have h3 : 2*os ≤ c ∧ c < ys b := by omega
      by_cases hb : b = j
      · subst hb
        split
        · rw [if_neg (by omega), if_neg (by omega)]
        · rfl
      · split
        · rw [if_neg (by omega), if_neg (by omega)]
        · rfl
    · rw [if_neg h]
  unfold stAt
  dsimp only
  by_cases hxy : i + 1 < nr ∧ j + 1 < nz
  · rw [if_pos hxy]
    have g : (∀ i, i < nr → xs i = xs 0) ∧ ∀ j, j < nz → ys j = xs 0 := by
      rcases G with g | g | g
      · omega
      · omega
      · exact g
    have h3 : 2*os ≤ c ∧ c < ys b := by omega
    have hb := g.2 j hij.2
    unfold stXY
    dsimp only
    rw [if_neg (by rintro ⟨rfl, rfl, h⟩; omega), if_neg (by omega), hY]
    split <;> rfl
  · rw [if_neg hxy, hY]
    split <;> rfl

theorem stX_midRow [Add T] (os : Nat) (xs ys : Nat → Nat) (nr : Nat) (i j : Nat)
    (m : DLoc → T) (x : DLoc) (hx : midRow os xs nr x) (h : i + 1 < nr) :
    stX os xs ys i j m x = m x := by
  obtain ⟨a, b, r, c⟩ := x
  have h2 := hx
  unfold midRow at h2
  dsimp only at h2
  unfold stX
  dsimp only
  have h3 : 2*os ≤ r ∧ r < xs a := by omega
  by_cases ha : a = i
  · subst ha
    split
    · rw [if_neg (by omega), if_neg (by omega)]
    · rfl
  · split
    · rw [if_neg (by omega), if_neg (by omega)]
    · rfl

theorem stY_congr [Add T] (os : Nat) (xs ys : Nat → Nat) (nr : Nat) (i j : Nat)
    (m m' : DLoc → T) (h : ∀ x, midRow os xs nr x → m x = m' x) (x : DLoc)
    (hx : midRow os xs nr x) : stY os xs ys i j m x = stY os xs ys i j m' x := by
  obtain ⟨a, b, r, c⟩ := x
  unfold stY
  dsimp only
  by_cases h1 : a = i ∧ os ≤ r ∧ r < xs i + os
  · obtain ⟨rfl, h1⟩ := h1
    have e : ∀ b c, m (a, b, r, c) = m' (a, b, r, c) := fun b c => h _ hx
    simp only [e]
  · rw [if_neg h1, if_neg h1]
    exact h _ hx

theorem stAt_midRow [Add T] (os : Nat) (xs ys : Nat → Nat) (nr nz : Nat)
    (G : Good nr nz xs ys) (m : DLoc → T)
    (p : Nat × Nat) (hp : p ∈ sweep nr nz) (x : DLoc) (hx : midRow os xs nr x) :
    stAt os xs ys nr nz m p x = if p.2 + 1 < nz then stY os xs ys p.1 p.2 m x else m x := by
  obtain ⟨i, j⟩ := p
  have hij : i < nr ∧ j < nz := mem_sweep.mp hp
  have hX : ∀ x, midRow os xs nr x → (if i + 1 < nr then stX os xs ys i j m else m) x = m x := by
    intro x hx
    by_cases h : i + 1 < nr
    · rw [if_pos h, stX_midRow os xs ys nr i j m x hx h]
    · rw [if_neg h]
  have hY : (if j + 1 < nz then stY os xs ys i j (if i + 1 < nr then stX os xs ys i j m else m)
      else (if i + 1 < nr then stX os xs ys i j m else m)) x
      = if j + 1 < nz then stY os xs ys i j m x else m x := by
    by_cases h : j + 1 < nz
    · rw [if_pos h, if_pos h]
      exact stY_congr os xs ys nr i j _ _ hX x hx
    · rw [if_neg h, if_neg h, hX x hx]
  unfold stAt
  dsimp only
  by_cases hxy : i + 1 < nr ∧ j + 1 < nz
  · rw [if_pos hxy]
    have g : (∀ i, i < nr → xs i = xs 0) ∧ ∀ j, j < nz → ys j = xs 0 := by
      rcases G with g | g | g
      · omega
      · omega
      · exact g
    obtain ⟨a, b, r, c⟩ := x
    have h2 := hx
    unfold midRow at h2
    dsimp only at h2
    have h3 : 2*os ≤ r ∧ r < xs a := by omega
    have hb := g.1 i hij.1
    rw [← hY]
    generalize (if j + 1 < nz then stY os xs ys i j (if i + 1 < nr then stX os xs ys i j m else m)
      else (if i + 1 < nr then stX os xs ys i j m else m)) = M
    unfold stXY
    dsimp only
    rw [if_neg (by rintro ⟨rfl, rfl, h⟩; omega), if_neg (by omega)]
  · rw [if_neg hxy, hY]

/-- Location `x` belongs to the interface of `overlay_x` at `(i, j)`. -/
def ownDX (os : Nat) (xs ys : Nat → Nat) (nr : Nat) (x : DLoc) (p : Nat × Nat) : Prop :=
  p.1 + 1 < nr ∧ (x.2.1 = p.2 ∧ os ≤ x.2.2.2 ∧ x.2.2.2 < ys p.2 + os) ∧
    ((x.1 = p.1 ∧ xs p.1 ≤ x.2.2.1 ∧ x.2.2.1 < xs p.1 + 2*os) ∨ (x.1 = p.1 + 1 ∧ x.2.2.1 < 2*os))

/-- Location `x` belongs to the interface of `overlay_y` at `(i, j)`. -/
def ownDY (os : Nat) (xs ys : Nat → Nat) (nz : Nat) (x : DLoc) (p : Nat × Nat) : Prop :=
  p.2 + 1 < nz ∧ (x.1 = p.1 ∧ os ≤ x.2.2.1 ∧ x.2.2.1 < xs p.1 + os) ∧
    ((x.2.1 = p.2 ∧ ys p.2 ≤ x.2.2.2 ∧ x.2.2.2 < ys p.2 + 2*os) ∨
      (x.2.1 = p.2 + 1 ∧ x.2.2.2 < 2*os))

/-- Result of the pass in the columns where only `overlay_x` acts. -/
theorem pass_midCol [Add T] (os : Nat) (xs ys : Nat → Nat) (nr nz : Nat)
    (G : Good nr nz xs ys) (hxs : ∀ i, i < nr → 2 * os ≤ xs i) (m : DLoc → T) :
    (∀ i j r c, i + 1 < nr → j < nz → midCol os ys nz (i, j, r, c) → os ≤ c → c < ys j + os → r < 2 * os →
      (sweep nr nz).foldl (stAt os xs ys nr nz) m (i, j, xs i + r, c)
        = m (i, j, xs i + r, c) + m (i+1, j, r, c) ∧
      (sweep nr nz).foldl (stAt os xs ys nr nz) m (i+1, j, r, c)
        = m (i, j, xs i + r, c) + m (i+1, j, r, c)) ∧
    (∀ x, midCol os ys nz x → (∀ p ∈ sweep nr nz, ¬ ownDX os xs ys nr x p) →
      (sweep nr nz).foldl (stAt os xs ys nr nz) m x = m x) := by
  have key := foldl_footprint (midCol os ys nz) (ownDX os xs ys nr)
    (stAt os xs ys nr nz) (sweep nr nz)
    (by
      rintro ⟨i, j⟩ hp s ⟨a, b, r, c⟩ hx hno
      rw [stAt_midCol os xs ys nr nz G s _ hp _ hx]
      dsimp only
      by_cases h : i + 1 < nr
      · rw [if_pos h]
        unfold stX
        unfold ownDX at hno
        dsimp only at hno ⊢
        split
        · rw [if_neg (by omega), if_neg (by omega)]
        · rfl
      · rw [if_neg h])
    (by
      rintro ⟨i, j⟩ hp s s' hs ⟨a, b, r, c⟩ hx ho
      rw [stAt_midCol os xs ys nr nz G s _ hp _ hx, stAt_midCol os xs ys nr nz G s' _ hp _ hx]
      have hall := hs (a, b, r, c) hx ho
      unfold ownDX at ho
      dsimp only at ho ⊢
      obtain ⟨h, ⟨hbj, hc⟩, hor⟩ := ho
      rw [if_pos h, if_pos h]
      unfold stX
      dsimp only
      subst hbj
      have hc' : b = b ∧ os ≤ c ∧ c < ys b + os := ⟨rfl, hc⟩
      rw [if_pos hc', if_pos hc']
      rcases hor with ⟨rfl, h1, h2⟩ | ⟨rfl, h1⟩
      · have h3 : a = a ∧ xs a ≤ r ∧ r < xs a + 2*os := ⟨rfl, h1, h2⟩
        rw [if_pos h3, if_pos h3, hall,
          hs (a+1, b, r - xs a, c) hx ⟨h, ⟨rfl, hc⟩, Or.inr ⟨rfl, by dsimp only; omega⟩⟩]
      · have h3 : ¬ (i + 1 = i ∧ xs i ≤ r ∧ r < xs i + 2*os) := by omega
        have h4 : i + 1 = i + 1 ∧ r < 2*os := ⟨rfl, h1⟩
        rw [if_neg h3, if_neg h3, if_pos h4, if_pos h4, hall,
          hs (i, b, xs i + r, c) hx ⟨h, ⟨rfl, hc⟩, Or.inl ⟨rfl, by dsimp only; omega, by dsimp only; omega⟩⟩])
    (by
      rintro ⟨a, b, r, c⟩ - ⟨i, j⟩ - ⟨i', j'⟩ - h1 h2
      unfold ownDX at h1 h2
      dsimp only at h1 h2
      obtain ⟨h1a, h1b, h1c⟩ := h1
      obtain ⟨h2a, h2b, h2c⟩ := h2
      have hj : j = j' := by omega
      have hi : i = i' := by
        rcases h1c with ⟨rfl, h1, h1'⟩ | ⟨rfl, h1⟩
        · rcases h2c with ⟨rfl, h2, h2'⟩ | ⟨rfl, h2⟩
          · rfl
          · have := hxs (i'+1) h2a; omega
        · rcases h2c with ⟨rfl, h2, h2'⟩ | ⟨h2, h2'⟩
          · have := hxs (i+1) h1a; omega
          · omega
      rw [hi, hj])
    (nodup_sweep nr nz) m
  refine ⟨?_, key.2⟩
  intro i j r c hi hj hx hc1 hc2 hr
  have hm : (i, j) ∈ sweep nr nz := mem_sweep.mpr ⟨by dsimp only; omega, hj⟩
  have hx' : midCol os ys nz (i, j, xs i + r, c) := hx
  have hx'' : midCol os ys nz (i+1, j, r, c) := hx
  have hc : os ≤ c ∧ c < ys j + os := ⟨hc1, hc2⟩
  have o1 : ownDX os xs ys nr (i, j, xs i + r, c) (i, j) :=
    ⟨hi, ⟨rfl, hc⟩, Or.inl ⟨rfl, by dsimp only; omega, by dsimp only; omega⟩⟩
  have o2 : ownDX os xs ys nr (i+1, j, r, c) (i, j) := ⟨hi, ⟨rfl, hc⟩, Or.inr ⟨rfl, hr⟩⟩
  have a1 := key.1 (i, j) hm _ hx' o1
  have a2 := key.1 (i, j) hm _ hx'' o2
  rw [stAt_midCol os xs ys nr nz G m _ hm _ hx'] at a1
  rw [stAt_midCol os xs ys nr nz G m _ hm _ hx''] at a2
  dsimp only at a1 a2
  rw [if_pos hi] at a1 a2
  unfold stX at a1 a2
  dsimp only at a1 a2
  rw [if_pos ⟨rfl, hc⟩, if_pos ⟨rfl, by omega, by omega⟩, Nat.add_sub_cancel_left] at a1
  rw [if_pos ⟨rfl, hc⟩, if_neg (by omega), if_pos ⟨rfl, hr⟩] at a2
  exact ⟨a1, a2⟩

/-- Result of the pass in the rows where only `overlay_y` acts. -/
theorem pass_midRow [Add T] (os : Nat) (xs ys : Nat → Nat) (nr nz : Nat)
    (G : Good nr nz xs ys) (hys : ∀ j, j < nz → 2 * os ≤ ys j) (m : DLoc → T) :
    (∀ i j r c, i < nr → j + 1 < nz → midRow os xs nr (i, j, r, c) → os ≤ r → r < xs i + os → c < 2 * os →
      (sweep nr nz).foldl (stAt os xs ys nr nz) m (i, j, r, ys j + c)
        = m (i, j, r, ys j + c) + m (i, j+1, r, c) ∧
      (sweep nr nz).foldl (stAt os xs ys nr nz) m (i, j+1, r, c)
        = m (i, j, r, ys j + c) + m (i, j+1, r, c)) ∧
    (∀ x, midRow os xs nr x → (∀ p ∈ sweep nr nz, ¬ ownDY os xs ys nz x p) →
      (sweep nr nz).foldl (stAt os xs ys nr nz) m x = m x) := by
  have key := foldl_footprint (midRow os xs nr) (ownDY os xs ys nz)
    (stAt os xs ys nr nz) (sweep nr nz)
    (by
      rintro ⟨i, j⟩ hp s ⟨a, b, r, c⟩ hx hno
      rw [stAt_midRow os xs ys nr nz G s _ hp _ hx]
      dsimp only
      by_cases h : j + 1 < nz
      · rw [if_pos h]
        unfold stY
        unfold ownDY at hno
        dsimp only at hno ⊢
        split
        · rw [if_neg (by omega), if_neg (by omega)]
        · rfl
      · rw [if_neg h])
    (by
      rintro ⟨i, j⟩ hp s s' hs ⟨a, b, r, c⟩ hx ho
      rw [stAt_midRow os xs ys nr nz G s _ hp _ hx, stAt_midRow os xs ys nr nz G s' _ hp _ hx]
      have hall := hs (a, b, r, c) hx ho
      unfold ownDY at ho
      dsimp only at ho ⊢
      obtain ⟨h, ⟨hbj, hc⟩, hor⟩ := ho
      rw [if_pos h, if_pos h]
      unfold stY
      dsimp only
      subst hbj
      have hc' : a = a ∧ os ≤ r ∧ r < xs a + os := ⟨rfl, hc⟩
      rw [if_pos hc', if_pos hc']
      rcases hor with ⟨rfl, h1, h2⟩ | ⟨rfl, h1⟩
      · have h3 : b = b ∧ ys b ≤ c ∧ c < ys b + 2*os := ⟨rfl, h1, h2⟩
        rw [if_pos h3, if_pos h3, hall,
          hs (a, b+1, r, c - ys b) hx ⟨h, ⟨rfl, hc⟩, Or.inr ⟨rfl, by dsimp only; omega⟩⟩]
      · have h3 : ¬ (j + 1 = j ∧ ys j ≤ c ∧ c < ys j + 2*os) := by omega
        have h4 : j + 1 = j + 1 ∧ c < 2*os := ⟨rfl, h1⟩
        rw [if_neg h3, if_neg h3, if_pos h4, if_pos h4, hall,
          hs (a, j, r, ys j + c) hx ⟨h, ⟨rfl, hc⟩, Or.inl ⟨rfl, by dsimp only; omega, by dsimp only; omega⟩⟩])
    (by
      rintro ⟨a, b, r, c⟩ - ⟨i, j⟩ - ⟨i', j'⟩ - h1 h2
      unfold ownDY at h1 h2
      dsimp only at h1 h2
      obtain ⟨h1a, h1b, h1c⟩ := h1
      obtain ⟨h2a, h2b, h2c⟩ := h2
      have hi : i = i' := by omega
      have hj : j = j' := by
        rcases h1c with ⟨rfl, h1, h1'⟩ | ⟨rfl, h1⟩
        · rcases h2c with ⟨rfl, h2, h2'⟩ | ⟨rfl, h2⟩
          · rfl
          · have := hys (j'+1) h2a; omega
        · rcases h2c with ⟨rfl, h2, h2'⟩ | ⟨h2, h2'⟩
          · have := hys (j+1) h1a; omega
          · omega
      rw [hi, hj])
    (nodup_sweep nr nz) m
  refine ⟨?_, key.2⟩
  intro i j r c hi hj hx hc1 hc2 hr
  have hm : (i, j) ∈ sweep nr nz := mem_sweep.mpr ⟨hi, by dsimp only; omega⟩
  have hx' : midRow os xs nr (i, j, r, ys j + c) := hx
  have hx'' : midRow os xs nr (i, j+1, r, c) := hx
  have hc : os ≤ r ∧ r < xs i + os := ⟨hc1, hc2⟩
  have o1 : ownDY os xs ys nz (i, j, r, ys j + c) (i, j) :=
    ⟨hj, ⟨rfl, hc⟩, Or.inl ⟨rfl, by dsimp only; omega, by dsimp only; omega⟩⟩
  have o2 : ownDY os xs ys nz (i, j+1, r, c) (i, j) := ⟨hj, ⟨rfl, hc⟩, Or.inr ⟨rfl, hr⟩⟩
  have a1 := key.1 (i, j) hm _ hx' o1
  have a2 := key.1 (i, j) hm _ hx'' o2
  rw [stAt_midRow os xs ys nr nz G m _ hm _ hx'] at a1
  rw [stAt_midRow os xs ys nr nz G m _ hm _ hx''] at a2
  dsimp only at a1 a2
  rw [if_pos hj] at a1 a2
  unfold stY at a1 a2
  dsimp only at a1 a2
  rw [if_pos ⟨rfl, hc⟩, if_pos ⟨rfl, by omega, by omega⟩, Nat.add_sub_cancel_left] at a1
  rw [if_pos ⟨rfl, hc⟩, if_neg (by omega), if_pos ⟨rfl, hr⟩] at a2
  exact ⟨a1, a2⟩

end SMB
end Pico
