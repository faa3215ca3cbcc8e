import Verif.Model.Grid
import Verif.Lemmas.Base
import Mathlib.Algebra.Group.Defs

/-! Helper lemmas on grids: closed forms of the loops. -/

namespace Pico

/-- Loop over states that are images of a pure state. -/
theorem loop_map {ι σ τ : Type _} (body : ι → σ → Res σ) (F : τ → σ) (pb : τ → ι → τ)
    (l : List ι) (h : ∀ i ∈ l, ∀ m, body i (F m) = .ok (F (pb m i))) (m : τ) :
    loop body l (F m) = .ok (F (l.foldl pb m)) := by
  induction l generalizing m with
  | nil => rfl
  | cons a l ih =>
    rw [loop_cons, h a List.mem_cons_self m, Res.ok_bind]
    exact ih (fun i hi => h i (List.mem_cons_of_mem _ hi)) (pb m a)

namespace Grid

variable {T : Type _}

/-- Same grid, other cells. -/
def withCell (g : Grid T) (c : Nat → Nat → T) : Grid T := { g with cell := c }

@[simp] theorem withCell_os (g : Grid T) (c) : (g.withCell c).os = g.os := rfl
@[simp] theorem withCell_xs (g : Grid T) (c) : (g.withCell c).xs = g.xs := rfl
@[simp] theorem withCell_ys (g : Grid T) (c) : (g.withCell c).ys = g.ys := rfl
@[simp] theorem withCell_xr (g : Grid T) (c) : (g.withCell c).xr = g.xr := rfl
@[simp] theorem withCell_yr (g : Grid T) (c) : (g.withCell c).yr = g.yr := rfl
@[simp] theorem withCell_cell (g : Grid T) (c) : (g.withCell c).cell = c := rfl
theorem withCell_self (g : Grid T) : g.withCell g.cell = g := rfl

theorem rd_ok (g : Grid T) {i j : Nat} (hi : i < g.xr) (hj : j < g.yr) :
    g.rd i j = .ok (g.cell i j) := by simp [rd, hi, hj]

theorem wr_ok (g : Grid T) {i j : Nat} (v : T) (hi : i < g.xr) (hj : j < g.yr) :
    g.wr i j v =
      .ok (g.withCell fun a b => if a = i ∧ b = j then v else g.cell a b) := by
  simp [wr, hi, hj, withCell]

theorem upd_ok (g : Grid T) {i j : Nat} (f : T → T) (hi : i < g.xr) (hj : j < g.yr) :
    g.upd i j f =
      .ok (g.withCell fun a b => if a = i ∧ b = j then f (g.cell i j) else g.cell a b) := by
  simp [upd, rd_ok g hi hj, wr_ok g _ hi hj]

theorem rd_ub (g : Grid T) {i j : Nat} (h : ¬ (i < g.xr ∧ j < g.yr)) : g.rd i j = .ub := by
  simp only [rd, if_neg h]

theorem wr_ub (g : Grid T) {i j : Nat} (v : T) (h : ¬ (i < g.xr ∧ j < g.yr)) :
    g.wr i j v = .ub := by simp only [wr, if_neg h]

theorem upd_ub (g : Grid T) {i j : Nat} (f : T → T) (h : ¬ (i < g.xr ∧ j < g.yr)) :
    g.upd i j f = .ub := by simp only [upd, rd_ub g h, Res.ub_bind]

theorem uidx_nonneg (x : Int) (os : Nat) (h : 0 ≤ x + os) (h' : x + os < 2 ^ 32) :
    uidx x os = (x + os).toNat := by
  unfold uidx
  rw [Int.emod_eq_of_lt h h']

theorem uidx_neg (x : Int) (os : Nat) (h : x + os < 0) (h' : -2 ^ 31 ≤ x) :
    2 ^ 31 ≤ uidx x os := by
  unfold uidx
  have : (x + os) % 2 ^ 32 = x + os + 2 ^ 32 := by
    omega
  rw [this]
  omega

/-- Fold over the pure cells of one grid. -/
theorem loop_cells (g : Grid T) (body : Nat × Nat → Grid T → Res (Grid T))
    (pb : (Nat → Nat → T) → Nat × Nat → (Nat → Nat → T)) (l : List (Nat × Nat))
    (h : ∀ p ∈ l, ∀ c, body p (g.withCell c) = .ok (g.withCell (pb c p))) :
    loop body l g = .ok (g.withCell (l.foldl pb g.cell)) := by
  have := loop_map body g.withCell pb l h g.cell
  rwa [withCell_self] at this

/-- Closed form of a fold of single-cell updates at pairwise different cells. -/
theorem foldl_cells (f : T → T) (tgt : Nat × Nat → Nat × Nat) (l : List (Nat × Nat))
    (nd : l.Nodup) (inj : ∀ p ∈ l, ∀ q ∈ l, tgt p = tgt q → p = q)
    (P : Nat × Nat → Prop) [DecidablePred P] (c : Nat → Nat → T) :
    ∀ a b, l.foldl (fun c p => if P p then
        (fun a b => if a = (tgt p).1 ∧ b = (tgt p).2 then f (c (tgt p).1 (tgt p).2) else c a b)
        else c) c a b
      = (open Classical in if ∃ p ∈ l, P p ∧ tgt p = (a, b) then f (c a b) else c a b) := by
  induction l generalizing c with
  | nil => intro a b; simp
  | cons q l ih =>
    intro a b
    have hn := List.nodup_cons.mp nd
    rw [List.foldl_cons, ih hn.2
      (fun p hp q hq => inj p (List.mem_cons_of_mem _ hp) q (List.mem_cons_of_mem _ hq))]
    by_cases hq : P q
    · simp only [hq, if_true]
      by_cases hab : a = (tgt q).1 ∧ b = (tgt q).2
      · have hno : ¬ ∃ p ∈ l, P p ∧ tgt p = (a, b) := by
          rintro ⟨p, hp, _, hpt⟩
          have : p = q := inj p (List.mem_cons_of_mem _ hp) q List.mem_cons_self
            (by rw [hpt, hab.1, hab.2])
          exact hn.1 (this ▸ hp)
        have hyes : ∃ p ∈ q :: l, P p ∧ tgt p = (a, b) :=
          ⟨q, List.mem_cons_self, hq, by rw [hab.1, hab.2]⟩
        rw [if_neg hno, if_pos hyes, if_pos hab, ← hab.1, ← hab.2]
      · rw [if_neg hab]
        have : (∃ p ∈ q :: l, P p ∧ tgt p = (a, b)) ↔ ∃ p ∈ l, P p ∧ tgt p = (a, b) := by
          constructor
          · rintro ⟨p, hp, h1, h2⟩
            rcases List.mem_cons.mp hp with rfl | hp'
            · exact absurd ⟨by rw [h2], by rw [h2]⟩ hab
            · exact ⟨p, hp', h1, h2⟩
          · rintro ⟨p, hp, h⟩
            exact ⟨p, List.mem_cons_of_mem _ hp, h⟩
        simp only [this]
    · simp only [hq, if_false]
      have : (∃ p ∈ q :: l, P p ∧ tgt p = (a, b)) ↔ ∃ p ∈ l, P p ∧ tgt p = (a, b) := by
        constructor
        · rintro ⟨p, hp, h1, h2⟩
          rcases List.mem_cons.mp hp with rfl | hp'
          · exact absurd h1 hq
          · exact ⟨p, hp', h1, h2⟩
        · rintro ⟨p, hp, h⟩
          exact ⟨p, List.mem_cons_of_mem _ hp, h⟩
      simp only [this]

/-- Closed form of `overlay_set`. -/
theorem overlaySet_eq (g : Grid T) (v : T) :
    ∃ c, g.overlaySet v = .ok (g.withCell c) ∧ ∀ i j, c i j =
      if (i < g.xr ∧ j < g.yr) ∧
        (i < g.os ∨ j < g.os ∨ i ≥ g.xr - g.os ∨ j ≥ g.yr - g.os) then v else g.cell i j := by
  refine ⟨_, loop_cells g _ (fun c p =>
      if p.1 < g.os ∨ p.2 < g.os ∨ p.1 ≥ g.xr - g.os ∨ p.2 ≥ g.yr - g.os then
        (fun a b => if a = (id p).1 ∧ b = (id p).2 then (fun _ => v) (c (id p).1 (id p).2) else c a b)
      else c) _ ?_, ?_⟩
  · intro p hp c
    rw [mem_idx2] at hp
    by_cases h : p.1 < g.os ∨ p.2 < g.os ∨ p.1 ≥ g.xr - g.os ∨ p.2 ≥ g.yr - g.os
    · rw [if_pos h]
      refine (if_pos h).trans ?_
      rw [wr_ok _ v (by simpa using hp.1.2) (by simpa using hp.2.2)]
      rfl
    · rw [if_neg h]
      exact if_neg h
  · intro i j
    rw [foldl_cells (fun _ => v) id _ (nodup_idx2 _ _ _ _) (fun p _ q _ h => h)]
    by_cases h : (i < g.xr ∧ j < g.yr) ∧
        (i < g.os ∨ j < g.os ∨ i ≥ g.xr - g.os ∨ j ≥ g.yr - g.os)
    · rw [if_pos h, if_pos]
      exact ⟨(i, j), mem_idx2.mpr ⟨⟨Nat.zero_le _, h.1.1⟩, Nat.zero_le _, h.1.2⟩, h.2, rfl⟩
    · rw [if_neg h, if_neg]
      rintro ⟨p, hp, h1, rfl⟩
      rw [mem_idx2] at hp
      exact h ⟨⟨hp.1.2, hp.2.2⟩, h1⟩

theorem shift_exists {P : Nat × Nat → Prop} {os xs ys i j : Nat}
    (hP : ∀ p, P p) :
    (∃ p ∈ idx2 0 xs 0 ys, P p ∧ (p.1 + os, p.2 + os) = (i, j)) ↔
      (os ≤ i ∧ i < xs + os) ∧ (os ≤ j ∧ j < ys + os) := by
  constructor
  · rintro ⟨⟨a, b⟩, hp, _, h⟩
    rw [mem_idx2] at hp
    simp only [Prod.mk.injEq] at h
    dsimp only at hp
    omega
  · rintro ⟨⟨h1, h2⟩, h3, h4⟩
    refine ⟨(i - os, j - os), mem_idx2.mpr ⟨⟨?_, ?_⟩, ?_, ?_⟩, hP _, ?_⟩ <;>
      simp only [Prod.mk.injEq] <;> omega

/-- Closed form of the scalar assignment operators. -/
theorem mapInterior_eq (g : Grid T) (f : T → T) :
    ∃ c, g.mapInterior f = .ok (g.withCell c) ∧ ∀ i j, c i j =
      if (g.os ≤ i ∧ i < g.xs + g.os) ∧ (g.os ≤ j ∧ j < g.ys + g.os)
      then f (g.cell i j) else g.cell i j := by
  refine ⟨_, loop_cells g _ (fun c p =>
      if True then
        (fun a b => if a = ((fun p : Nat × Nat => (p.1 + g.os, p.2 + g.os)) p).1
            ∧ b = ((fun p : Nat × Nat => (p.1 + g.os, p.2 + g.os)) p).2
          then f (c ((fun p : Nat × Nat => (p.1 + g.os, p.2 + g.os)) p).1
            ((fun p : Nat × Nat => (p.1 + g.os, p.2 + g.os)) p).2) else c a b)
      else c) _ ?_, ?_⟩
  · intro p hp c
    rw [mem_idx2] at hp
    simp only [withCell_os, if_true]
    have h1 : p.1 + g.os < (g.withCell c).xr := by simp only [xr, withCell_xs, withCell_os]; omega
    have h2 : p.2 + g.os < (g.withCell c).yr := by simp only [yr, withCell_ys, withCell_os]; omega
    rw [upd_ok _ f h1 h2]
    rfl
  · intro i j
    rw [foldl_cells f _ _ (nodup_idx2 _ _ _ _) (P := fun _ => True)]
    · have := shift_exists (P := fun _ => True) (os := g.os) (xs := g.xs) (ys := g.ys)
        (i := i) (j := j) (fun _ => trivial)
      simp only [this]
    · intro p _ q _ h
      simp only [Prod.mk.injEq, Nat.add_right_cancel_iff] at h
      exact Prod.ext h.1 h.2

theorem assign_eq_map (g : Grid T) (v : T) : g.assign v = g.mapInterior (fun _ => v) := by
  unfold assign mapInterior
  congr 1
  funext p g
  simp only [upd, rd]
  by_cases h : p.1 + g.os < g.xr ∧ p.2 + g.os < g.yr
  · simp [h]
  · simp [h, wr]

/-! ### Overlay exchange -/

/-- Locations of the memory of two grids: `(false, i, j)` left, `(true, i, j)` right. -/
abbrev Loc := Bool × Nat × Nat

/-- The pair of grids with the given memory. -/
def ofMem (l r : Grid T) (m : Loc → T) : Grid T × Grid T :=
  (l.withCell fun i j => m (false, i, j), r.withCell fun i j => m (true, i, j))

/-- Functional update of one location. -/
def put (m : Loc → T) (x : Loc) (v : T) : Loc → T := fun y => if y = x then v else m y

/-- `exch` on memories. -/
def exchM [Add T] (a b c e f : Nat × Nat) (m : Loc → T) : Loc → T :=
  let m₁ := put m (true, a) (m (true, a) + m (false, b))
  let m₂ := put m₁ (false, c) (m₁ (false, c) + m₁ (true, e))
  let m₃ := put m₂ (true, e) (m₂ (false, f))
  put m₃ (false, b) (m₃ (true, a))

theorem withCell_put_false (l : Grid T) (m : Loc → T) (i j : Nat) (v : T) :
    (l.withCell fun a b => if a = i ∧ b = j then v else m (false, a, b))
      = l.withCell fun a b => put m (false, i, j) v (false, a, b) := by
  unfold withCell put
  simp

theorem withCell_put_true (l : Grid T) (m : Loc → T) (i j : Nat) (v : T) :
    (l.withCell fun a b => if a = i ∧ b = j then v else m (true, a, b))
      = l.withCell fun a b => put m (true, i, j) v (true, a, b) := by
  unfold withCell put
  simp

theorem put_other (l : Grid T) (m : Loc → T) (x : Loc) (v : T) (k : Bool) (h : x.1 ≠ k) :
    (l.withCell fun a b => put m x v (k, a, b)) = l.withCell fun a b => m (k, a, b) := by
  unfold withCell put
  congr 1
  funext a b
  rw [if_neg]
  intro e
  rw [← e] at h
  exact h rfl

theorem exch_ok [Add T] (l r : Grid T) (a b c e f : Nat × Nat) (m : Loc → T)
    (ha : a.1 < r.xr ∧ a.2 < r.yr) (hb : b.1 < l.xr ∧ b.2 < l.yr)
    (hc : c.1 < l.xr ∧ c.2 < l.yr) (he : e.1 < r.xr ∧ e.2 < r.yr)
    (hf : f.1 < l.xr ∧ f.2 < l.yr) :
    exch a b c e f (ofMem l r m) = .ok (ofMem l r (exchM a b c e f m)) := by
  obtain ⟨a1, a2⟩ := a
  obtain ⟨b1, b2⟩ := b
  obtain ⟨c1, c2⟩ := c
  obtain ⟨e1, e2⟩ := e
  obtain ⟨f1, f2⟩ := f
  dsimp only at ha hb hc he hf
  unfold exch ofMem
  dsimp only
  rw [rd_ok _ (by simpa using hb.1) (by simpa using hb.2), Res.ok_bind,
    upd_ok _ _ (by simpa using ha.1) (by simpa using ha.2), Res.ok_bind,
    rd_ok _ (by simpa using he.1) (by simpa using he.2), Res.ok_bind,
    upd_ok _ _ (by simpa using hc.1) (by simpa using hc.2), Res.ok_bind,
    rd_ok _ (by simpa using hf.1) (by simpa using hf.2), Res.ok_bind,
    wr_ok _ _ (by simpa using he.1) (by simpa using he.2), Res.ok_bind,
    rd_ok _ (by simpa using ha.1) (by simpa using ha.2), Res.ok_bind,
    wr_ok _ _ (by simpa using hb.1) (by simpa using hb.2), Res.ok_bind, Res.pure_eq]
  congr 1
  unfold exchM put withCell
  simp

theorem exchM_eq [Add T] (a b c e : Nat × Nat) (m : Loc → T) (hae : a ≠ e) (hbc : b ≠ c)
    (y : Loc) :
    exchM a b c e c m y =
      if y = (true, a) ∨ y = (false, b) then m (true, a) + m (false, b)
      else if y = (true, e) ∨ y = (false, c) then m (false, c) + m (true, e)
      else m y := by
  obtain ⟨k, y⟩ := y
  unfold exchM put
  cases k
  · by_cases h1 : y = b
    · subst h1
      simp [hae]
    · by_cases h2 : y = c
      · subst h2
        simp [h1, hae.symm]
      · simp [h1, h2]
  · by_cases h1 : y = a
    · subst h1
      simp [hae]
    · by_cases h2 : y = e
      · subst h2
        simp [h1]
      · simp [h1, h2]

/-- Location `x` is touched by iteration `(d, i)` of `overlay_x`. -/
def ownX (os X : Nat) (x : Loc) (p : Nat × Nat) : Prop :=
  x.2.2 = p.2 ∧
    ((x.1 = true ∧ (x.2.1 = p.1 ∨ x.2.1 = 2*os-p.1-1)) ∨
     (x.1 = false ∧ (x.2.1 = X-2*os+p.1 ∨ x.2.1 = X-1-p.1)))

theorem exchX_val [Add T] (os X d i : Nat) (m : Loc → T) (hd : d < os) (hX : 2 * os ≤ X)
    (y : Loc) :
    exchM (2*os-d-1, i) (X-1-d, i) (X-2*os+d, i) (d, i) (X-2*os+d, i) m y =
      if y = (true, 2*os-d-1, i) ∨ y = (false, X-1-d, i) then
        m (true, 2*os-d-1, i) + m (false, X-1-d, i)
      else if y = (true, d, i) ∨ y = (false, X-2*os+d, i) then
        m (false, X-2*os+d, i) + m (true, d, i)
      else m y := by
  apply exchM_eq
  · intro h; simp only [Prod.mk.injEq] at h; omega
  · intro h; simp only [Prod.mk.injEq] at h; omega

/-- Effect of the `overlay_x` loop on the memory of both grids. -/
theorem foldX [AddCommMagma T] (os X lo hi : Nat) (hX : 2 * os ≤ X) (m : Loc → T) :
    let m' := (idx2 0 os lo hi).foldl (fun m p =>
      exchM (2*os-p.1-1, p.2) (X-1-p.1, p.2) (X-2*os+p.1, p.2) (p.1, p.2) (X-2*os+p.1, p.2) m) m
    (∀ k j, k < 2 * os → lo ≤ j → j < hi →
      m' (false, X-2*os+k, j) = m (false, X-2*os+k, j) + m (true, k, j) ∧
      m' (true, k, j) = m (false, X-2*os+k, j) + m (true, k, j)) ∧
    (∀ i j, ¬ (X - 2*os ≤ i ∧ i < X ∧ lo ≤ j ∧ j < hi) → m' (false, i, j) = m (false, i, j)) ∧
    (∀ i j, ¬ (i < 2*os ∧ lo ≤ j ∧ j < hi) → m' (true, i, j) = m (true, i, j)) := by
  intro m'
  have key := foldl_footprint (fun _ => True) (ownX os X)
    (fun (m : Loc → T) p =>
      exchM (2*os-p.1-1, p.2) (X-1-p.1, p.2) (X-2*os+p.1, p.2) (p.1, p.2) (X-2*os+p.1, p.2) m)
    (idx2 0 os lo hi)
    (by
      rintro ⟨d, i⟩ ha s ⟨k, y1, y2⟩ - hno
      rw [mem_idx2] at ha
      dsimp only at ha ⊢
      rw [exchX_val os X d i s ha.1.2 hX]
      unfold ownX at hno
      dsimp only at hno
      rw [if_neg, if_neg]
      · rintro (h | h) <;> simp only [Prod.mk.injEq] at h <;> exact hno (by simp [h])
      · rintro (h | h) <;> simp only [Prod.mk.injEq] at h <;> exact hno (by simp [h]))
    (by
      rintro ⟨d, i⟩ ha s s' hs ⟨k, y1, y2⟩ - ho
      rw [mem_idx2] at ha
      dsimp only at ha ⊢
      rw [exchX_val os X d i s ha.1.2 hX, exchX_val os X d i s' ha.1.2 hX]
      have e1 := hs (true, 2*os-d-1, i) trivial (by simp [ownX])
      have e2 := hs (false, X-1-d, i) trivial (by simp [ownX])
      have e3 := hs (true, d, i) trivial (by simp [ownX])
      have e4 := hs (false, X-2*os+d, i) trivial (by simp [ownX])
      have e5 := hs (k, y1, y2) trivial ho
      rw [e1, e2, e3, e4, e5])
    (by
      rintro ⟨k, y1, y2⟩ - ⟨d, i⟩ ha ⟨d', i'⟩ hb h1 h2
      rw [mem_idx2] at ha hb
      unfold ownX at h1 h2
      dsimp only at ha hb h1 h2
      have hi : i = i' := by omega
      subst hi
      congr 1
      cases k <;> simp at h1 h2 <;> omega)
    (nodup_idx2 _ _ _ _) m
  refine ⟨?_, ?_, ?_⟩
  · intro k j hk hlo hhi
    by_cases hko : k < os
    · have hm : (k, j) ∈ idx2 0 os lo hi := mem_idx2.mpr ⟨⟨Nat.zero_le _, hko⟩, hlo, hhi⟩
      have a1 := key.1 (k, j) hm (false, X-2*os+k, j) trivial (by simp [ownX])
      have a2 := key.1 (k, j) hm (true, k, j) trivial (by simp [ownX])
      rw [exchX_val os X k j m hko hX] at a1 a2
      refine ⟨a1.trans ?_, a2.trans ?_⟩
      · rw [if_neg (by simp; omega), if_pos (Or.inr rfl)]
      · rw [if_neg (by simp; omega), if_pos (Or.inl rfl)]
    · have hm : (2*os-1-k, j) ∈ idx2 0 os lo hi :=
        mem_idx2.mpr ⟨⟨Nat.zero_le _, by dsimp only; omega⟩, hlo, hhi⟩
      have q1 : X - 1 - (2*os-1-k) = X - 2*os + k := by omega
      have q2 : 2*os - (2*os-1-k) - 1 = k := by omega
      have a1 := key.1 _ hm (false, X-2*os+k, j) trivial (by simp [ownX]; omega)
      have a2 := key.1 _ hm (true, k, j) trivial (by simp [ownX]; omega)
      rw [exchX_val os X (2*os-1-k) j m (by omega) hX, q1, q2] at a1 a2
      refine ⟨a1.trans ?_, a2.trans ?_⟩
      · rw [if_pos (Or.inr rfl), add_comm]
      · rw [if_pos (Or.inl rfl), add_comm]
  · intro i j h
    refine key.2 _ trivial ?_
    rintro ⟨d, i'⟩ hm ho
    rw [mem_idx2] at hm
    simp [ownX] at ho hm
    omega
  · intro i j h
    refine key.2 _ trivial ?_
    rintro ⟨d, i'⟩ hm ho
    rw [mem_idx2] at hm
    simp [ownX] at ho hm
    omega

/-- Closed form of `overlay_x` on matching grids. -/
theorem overlayX_eq [AddCommMagma T] (l r : Grid T) (hy : l.yr = r.yr) (hr : 2 * l.os ≤ r.xr) :
    ∃ c c', overlayX l r = .ok (l.withCell c, r.withCell c') ∧
      (∀ k j, k < 2 * l.os → l.os ≤ j → j < l.yr - l.os →
        c (l.xr-2*l.os+k) j = l.cell (l.xr-2*l.os+k) j + r.cell k j ∧
        c' k j = l.cell (l.xr-2*l.os+k) j + r.cell k j) ∧
      (∀ i j, ¬ (l.xr - 2*l.os ≤ i ∧ i < l.xr ∧ l.os ≤ j ∧ j < l.yr - l.os) → c i j = l.cell i j) ∧
      (∀ i j, ¬ (i < 2*l.os ∧ l.os ≤ j ∧ j < l.yr - l.os) → c' i j = r.cell i j) := by
  have hX : 2 * l.os ≤ l.xr := by unfold xr; omega
  have hl := loop_map (fun (p : Nat × Nat) (s : Grid T × Grid T) =>
      exch (2*l.os-p.1-1, p.2) (s.1.xr-1-p.1, p.2) (s.1.xr-2*l.os+p.1, p.2) (p.1, p.2)
        (s.1.xr-2*l.os+p.1, p.2) s) (ofMem l r) (fun m p =>
      exchM (2*l.os-p.1-1, p.2) (l.xr-1-p.1, p.2) (l.xr-2*l.os+p.1, p.2) (p.1, p.2)
        (l.xr-2*l.os+p.1, p.2) m) (idx2 0 l.os l.os (l.yr - l.os))
    (by
      intro p hp m
      rw [mem_idx2] at hp
      have : (ofMem l r m).1.xr = l.xr := rfl
      rw [this]
      apply exch_ok <;> refine ⟨?_, ?_⟩ <;> omega)
    (fun x => if x.1 then r.cell x.2.1 x.2.2 else l.cell x.2.1 x.2.2)
  have hf := foldX l.os l.xr l.os (l.yr - l.os) hX
    (fun x : Loc => if x.1 then r.cell x.2.1 x.2.2 else l.cell x.2.1 x.2.2)
  dsimp only at hf
  have h0 : overlayX l r = .ok (ofMem l r _) := (if_pos hy).trans hl
  exact ⟨_, _, h0, hf.1, hf.2.1, hf.2.2⟩

/-! ### Transposition: `overlay_y` from `overlay_x` -/

/-- Exchange the two indices of a location. -/
def swL (x : Loc) : Loc := (x.1, x.2.2, x.2.1)

@[simp] theorem swL_swL (x : Loc) : swL (swL x) = x := rfl

theorem put_swap (m : Loc → T) (x : Loc) (v : T) :
    put (m ∘ swL) x v = put m (swL x) v ∘ swL := by
  funext ⟨k, i, j⟩
  obtain ⟨k', i', j'⟩ := x
  simp only [put, Function.comp, swL, Prod.mk.injEq]
  by_cases h : k = k' ∧ i = i' ∧ j = j'
  · rw [if_pos h, if_pos ⟨h.1, h.2.2, h.2.1⟩]
  · rw [if_neg h, if_neg (fun h' => h ⟨h'.1, h'.2.2, h'.2.1⟩)]

theorem exchM_swap [Add T] (a b c e f : Nat × Nat) (m : Loc → T) :
    exchM (a.2, a.1) (b.2, b.1) (c.2, c.1) (e.2, e.1) (f.2, f.1) m
      = exchM a b c e f (m ∘ swL) ∘ swL := by
  unfold exchM
  simp only [put_swap]
  rfl

theorem foldl_swap {ι : Type _} (st st' : (Loc → T) → ι → (Loc → T))
    (h : ∀ m p, st m p = st' (m ∘ swL) p ∘ swL) (l : List ι) (m : Loc → T) :
    l.foldl st m = l.foldl st' (m ∘ swL) ∘ swL := by
  induction l generalizing m with
  | nil => rfl
  | cons a l ih =>
    rw [List.foldl_cons, List.foldl_cons, ih, h]
    rfl

/-- Effect of the `overlay_y` loop on the memory of both grids. -/
theorem foldY [AddCommMagma T] (os Y lo hi : Nat) (hY : 2 * os ≤ Y) (m : Loc → T) :
    let m' := (idx2 0 os lo hi).foldl (fun m p =>
      exchM (p.2, 2*os-p.1-1) (p.2, Y-1-p.1) (p.2, Y-2*os+p.1) (p.2, p.1) (p.2, Y-2*os+p.1) m) m
    (∀ k j, k < 2 * os → lo ≤ j → j < hi →
      m' (false, j, Y-2*os+k) = m (false, j, Y-2*os+k) + m (true, j, k) ∧
      m' (true, j, k) = m (false, j, Y-2*os+k) + m (true, j, k)) ∧
    (∀ i j, ¬ (Y - 2*os ≤ j ∧ j < Y ∧ lo ≤ i ∧ i < hi) → m' (false, i, j) = m (false, i, j)) ∧
    (∀ i j, ¬ (j < 2*os ∧ lo ≤ i ∧ i < hi) → m' (true, i, j) = m (true, i, j)) := by
  intro m'
  have hsw := foldl_swap
    (fun (m : Loc → T) (p : Nat × Nat) =>
      exchM (p.2, 2*os-p.1-1) (p.2, Y-1-p.1) (p.2, Y-2*os+p.1) (p.2, p.1) (p.2, Y-2*os+p.1) m)
    (fun (m : Loc → T) (p : Nat × Nat) =>
      exchM (2*os-p.1-1, p.2) (Y-1-p.1, p.2) (Y-2*os+p.1, p.2) (p.1, p.2) (Y-2*os+p.1, p.2) m)
    (fun m p => exchM_swap (2*os-p.1-1, p.2) (Y-1-p.1, p.2) (Y-2*os+p.1, p.2) (p.1, p.2)
      (Y-2*os+p.1, p.2) m) (idx2 0 os lo hi) m
  have hX := foldX os Y lo hi hY (m ∘ swL)
  dsimp only at hX
  refine ⟨?_, ?_, ?_⟩
  · intro k j hk h1 h2
    have := hX.1 k j hk h1 h2
    have e1 := congrFun hsw (false, j, Y-2*os+k)
    have e2 := congrFun hsw (true, j, k)
    exact ⟨e1.trans this.1, e2.trans this.2⟩
  · intro i j h
    exact (congrFun hsw (false, i, j)).trans (hX.2.1 j i (by omega))
  · intro i j h
    exact (congrFun hsw (true, i, j)).trans (hX.2.2 j i (by omega))

/-- Closed form of `overlay_y` on matching grids. -/
theorem overlayY_eq [AddCommMagma T] (l r : Grid T) (hx : l.xr = r.xr) (hr : 2 * l.os ≤ r.yr) :
    ∃ c c', overlayY l r = .ok (l.withCell c, r.withCell c') ∧
      (∀ k j, k < 2 * l.os → l.os ≤ j → j < l.xr - l.os →
        c j (l.yr-2*l.os+k) = l.cell j (l.yr-2*l.os+k) + r.cell j k ∧
        c' j k = l.cell j (l.yr-2*l.os+k) + r.cell j k) ∧
      (∀ i j, ¬ (l.yr - 2*l.os ≤ j ∧ j < l.yr ∧ l.os ≤ i ∧ i < l.xr - l.os) → c i j = l.cell i j) ∧
      (∀ i j, ¬ (j < 2*l.os ∧ l.os ≤ i ∧ i < l.xr - l.os) → c' i j = r.cell i j) := by
  have hY : 2 * l.os ≤ l.yr := by unfold yr; omega
  have hl := loop_map (fun (p : Nat × Nat) (s : Grid T × Grid T) =>
      exch (p.2, 2*l.os-p.1-1) (p.2, s.1.yr-1-p.1) (p.2, s.1.yr-2*l.os+p.1) (p.2, p.1)
        (p.2, s.1.yr-2*l.os+p.1) s) (ofMem l r) (fun m p =>
      exchM (p.2, 2*l.os-p.1-1) (p.2, l.yr-1-p.1) (p.2, l.yr-2*l.os+p.1) (p.2, p.1)
        (p.2, l.yr-2*l.os+p.1) m) (idx2 0 l.os l.os (l.xr - l.os))
    (by
      intro p hp m
      rw [mem_idx2] at hp
      have : (ofMem l r m).1.yr = l.yr := rfl
      rw [this]
      apply exch_ok <;> refine ⟨?_, ?_⟩ <;> omega)
    (fun x => if x.1 then r.cell x.2.1 x.2.2 else l.cell x.2.1 x.2.2)
  have hf := foldY l.os l.yr l.os (l.xr - l.os) hY
    (fun x : Loc => if x.1 then r.cell x.2.1 x.2.2 else l.cell x.2.1 x.2.2)
  dsimp only at hf
  have h0 : overlayY l r = .ok (ofMem l r _) := (if_pos hx).trans hl
  exact ⟨_, _, h0, hf.1, hf.2.1, hf.2.2⟩

/-! ### Diagonal exchange -/

/-- Location `x` is touched by iteration `(d, e)` of `overlay_xy` on square grids. -/
def ownXY (os X : Nat) (x : Loc) (p : Nat × Nat) : Prop :=
  (x.1 = true ∧ ((x.2.1 = p.1 ∧ x.2.2 = p.2) ∨ (x.2.1 = 2*os-p.1-1 ∧ x.2.2 = 2*os-p.2-1))) ∨
  (x.1 = false ∧ ((x.2.1 = X-2*os+p.1 ∧ x.2.2 = X-2*os+p.2) ∨
    (x.2.1 = X-1-p.1 ∧ x.2.2 = X-1-p.2)))

theorem exchXY_val [Add T] (os X d e : Nat) (m : Loc → T) (hd : d < os) (hX : 2 * os ≤ X)
    (y : Loc) :
    exchM (2*os-d-1, 2*os-e-1) (X-1-d, X-1-e) (X-2*os+d, X-2*os+e) (d, e)
        (X-2*os+d, X-2*os+e) m y =
      if y = (true, 2*os-d-1, 2*os-e-1) ∨ y = (false, X-1-d, X-1-e) then
        m (true, 2*os-d-1, 2*os-e-1) + m (false, X-1-d, X-1-e)
      else if y = (true, d, e) ∨ y = (false, X-2*os+d, X-2*os+e) then
        m (false, X-2*os+d, X-2*os+e) + m (true, d, e)
      else m y := by
  apply exchM_eq
  · intro h; simp only [Prod.mk.injEq] at h; omega
  · intro h; simp only [Prod.mk.injEq] at h; omega

/-- Effect of the `overlay_xy` loop on the memory of two square grids. -/
theorem foldXY [AddCommMagma T] (os X : Nat) (hX : 2 * os ≤ X) (m : Loc → T) :
    let m' := (idx2 0 os 0 os).foldl (fun m p =>
      exchM (2*os-p.1-1, 2*os-p.2-1) (X-1-p.1, X-1-p.2) (X-2*os+p.1, X-2*os+p.2) (p.1, p.2)
        (X-2*os+p.1, X-2*os+p.2) m) m
    (∀ k j, (k < os ∧ j < os) ∨ (os ≤ k ∧ k < 2*os ∧ os ≤ j ∧ j < 2*os) →
      m' (false, X-2*os+k, X-2*os+j) = m (false, X-2*os+k, X-2*os+j) + m (true, k, j) ∧
      m' (true, k, j) = m (false, X-2*os+k, X-2*os+j) + m (true, k, j)) ∧
    (∀ i j, ¬ ((X-2*os ≤ i ∧ i < X-os ∧ X-2*os ≤ j ∧ j < X-os) ∨
        (X-os ≤ i ∧ i < X ∧ X-os ≤ j ∧ j < X)) → m' (false, i, j) = m (false, i, j)) ∧
    (∀ i j, ¬ ((i < os ∧ j < os) ∨ (os ≤ i ∧ i < 2*os ∧ os ≤ j ∧ j < 2*os)) →
      m' (true, i, j) = m (true, i, j)) := by
  intro m'
  have key := foldl_footprint (fun _ => True) (ownXY os X)
    (fun (m : Loc → T) p =>
      exchM (2*os-p.1-1, 2*os-p.2-1) (X-1-p.1, X-1-p.2) (X-2*os+p.1, X-2*os+p.2) (p.1, p.2)
        (X-2*os+p.1, X-2*os+p.2) m)
    (idx2 0 os 0 os)
    (by
      rintro ⟨d, i⟩ ha s ⟨k, y1, y2⟩ - hno
      rw [mem_idx2] at ha
      dsimp only at ha ⊢
      rw [exchXY_val os X d i s ha.1.2 hX]
      unfold ownXY at hno
      dsimp only at hno
      rw [if_neg, if_neg]
      · rintro (h | h) <;> simp only [Prod.mk.injEq] at h <;> exact hno (by simp [h])
      · rintro (h | h) <;> simp only [Prod.mk.injEq] at h <;> exact hno (by simp [h]))
    (by
      rintro ⟨d, i⟩ ha s s' hs ⟨k, y1, y2⟩ - ho
      rw [mem_idx2] at ha
      dsimp only at ha ⊢
      rw [exchXY_val os X d i s ha.1.2 hX, exchXY_val os X d i s' ha.1.2 hX]
      have e1 := hs (true, 2*os-d-1, 2*os-i-1) trivial (by simp [ownXY])
      have e2 := hs (false, X-1-d, X-1-i) trivial (by simp [ownXY])
      have e3 := hs (true, d, i) trivial (by simp [ownXY])
      have e4 := hs (false, X-2*os+d, X-2*os+i) trivial (by simp [ownXY])
      have e5 := hs (k, y1, y2) trivial ho
      rw [e1, e2, e3, e4, e5])
    (by
      rintro ⟨k, y1, y2⟩ - ⟨d, i⟩ ha ⟨d', i'⟩ hb h1 h2
      rw [mem_idx2] at ha hb
      unfold ownXY at h1 h2
      dsimp only at ha hb h1 h2
      have : d = d' ∧ i = i' := by
        cases k <;> simp at h1 h2 <;> omega
      rw [this.1, this.2])
    (nodup_idx2 _ _ _ _) m
  refine ⟨?_, ?_, ?_⟩
  · intro k j hkj
    by_cases hko : k < os
    · have hj : j < os := by omega
      have hm : (k, j) ∈ idx2 0 os 0 os := mem_idx2.mpr ⟨⟨Nat.zero_le _, hko⟩, Nat.zero_le _, hj⟩
      have a1 := key.1 (k, j) hm (false, X-2*os+k, X-2*os+j) trivial (by simp [ownXY])
      have a2 := key.1 (k, j) hm (true, k, j) trivial (by simp [ownXY])
      rw [exchXY_val os X k j m hko hX] at a1 a2
      refine ⟨a1.trans ?_, a2.trans ?_⟩
      · rw [if_neg (by simp; omega), if_pos (Or.inr rfl)]
      · rw [if_neg (by simp; omega), if_pos (Or.inl rfl)]
    · have hm : (2*os-1-k, 2*os-1-j) ∈ idx2 0 os 0 os :=
        mem_idx2.mpr ⟨⟨Nat.zero_le _, by dsimp only; omega⟩, Nat.zero_le _, by dsimp only; omega⟩
      have q1 : X - 1 - (2*os-1-k) = X - 2*os + k := by omega
      have q2 : 2*os - (2*os-1-k) - 1 = k := by omega
      have q3 : X - 1 - (2*os-1-j) = X - 2*os + j := by omega
      have q4 : 2*os - (2*os-1-j) - 1 = j := by omega
      have a1 := key.1 _ hm (false, X-2*os+k, X-2*os+j) trivial (by simp [ownXY]; omega)
      have a2 := key.1 _ hm (true, k, j) trivial (by simp [ownXY]; omega)
      rw [exchXY_val os X (2*os-1-k) (2*os-1-j) m (by omega) hX, q1, q2, q3, q4] at a1 a2
      refine ⟨a1.trans ?_, a2.trans ?_⟩
      · rw [if_pos (Or.inr rfl), add_comm]
      · rw [if_pos (Or.inl rfl), add_comm]
  · intro i j h
    refine key.2 _ trivial ?_
    rintro ⟨d, i'⟩ hm ho
    rw [mem_idx2] at hm
    simp [ownXY] at ho hm
    omega
  · intro i j h
    refine key.2 _ trivial ?_
    rintro ⟨d, i'⟩ hm ho
    rw [mem_idx2] at hm
    simp [ownXY] at ho hm
    omega

/-- Closed form of `overlay_xy` on square grids of equal size. -/
theorem overlayXY_eq [AddCommMagma T] (l r : Grid T) (hx : l.xr = r.xr) (hy : l.yr = r.yr)
    (hsq : l.xr = l.yr) :
    ∃ c c', overlayXY l r = .ok (l.withCell c, r.withCell c') ∧
      (∀ k j, (k < l.os ∧ j < l.os) ∨ (l.os ≤ k ∧ k < 2*l.os ∧ l.os ≤ j ∧ j < 2*l.os) →
        c (l.xr-2*l.os+k) (l.xr-2*l.os+j) = l.cell (l.xr-2*l.os+k) (l.xr-2*l.os+j) + r.cell k j ∧
        c' k j = l.cell (l.xr-2*l.os+k) (l.xr-2*l.os+j) + r.cell k j) ∧
      (∀ i j, ¬ ((l.xr-2*l.os ≤ i ∧ i < l.xr-l.os ∧ l.xr-2*l.os ≤ j ∧ j < l.xr-l.os) ∨
          (l.xr-l.os ≤ i ∧ i < l.xr ∧ l.xr-l.os ≤ j ∧ j < l.xr)) → c i j = l.cell i j) ∧
      (∀ i j, ¬ ((i < l.os ∧ j < l.os) ∨ (l.os ≤ i ∧ i < 2*l.os ∧ l.os ≤ j ∧ j < 2*l.os)) →
        c' i j = r.cell i j) := by
  have hX : 2 * l.os ≤ l.xr := by unfold xr; omega
  have hl := loop_map (fun (p : Nat × Nat) (s : Grid T × Grid T) =>
      exch (2*l.os-p.1-1, 2*l.os-p.2-1) (s.1.xr-1-p.1, s.1.xr-1-p.2)
        (s.1.xr-2*l.os+p.1, s.1.xr-2*l.os+p.2) (p.1, p.2)
        (s.1.yr-2*l.os+p.1, s.1.yr-2*l.os+p.2) s) (ofMem l r) (fun m p =>
      exchM (2*l.os-p.1-1, 2*l.os-p.2-1) (l.xr-1-p.1, l.xr-1-p.2)
        (l.xr-2*l.os+p.1, l.xr-2*l.os+p.2) (p.1, p.2)
        (l.xr-2*l.os+p.1, l.xr-2*l.os+p.2) m) (idx2 0 l.os 0 l.os)
    (by
      intro p hp m
      rw [mem_idx2] at hp
      have h1 : (ofMem l r m).1.xr = l.xr := rfl
      have h2 : (ofMem l r m).1.yr = l.xr := hsq.symm
      rw [h1, h2]
      apply exch_ok <;> refine ⟨?_, ?_⟩ <;> omega)
    (fun x => if x.1 then r.cell x.2.1 x.2.2 else l.cell x.2.1 x.2.2)
  have hf := foldXY l.os l.xr hX
    (fun x : Loc => if x.1 then r.cell x.2.1 x.2.2 else l.cell x.2.1 x.2.2)
  dsimp only at hf
  have h0 : overlayXY l r = .ok (ofMem l r _) := (if_pos ⟨hx, hy⟩).trans hl
  exact ⟨_, _, h0, hf.1, hf.2.1, hf.2.2⟩

end Grid

end Pico
