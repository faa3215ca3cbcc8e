import Verif.Spec.Grid
import Verif.Lemmas.Grid

/-! # Properties C01 - C04: grids and their overlay exchange -/

namespace Pico
namespace Grid

variable {T : Type _}

/-! Bridging lemmas between the API and real indices. -/

theorem get_inside (g : Grid T) (wf : g.WF) {x y : Int} (h : g.Inside x y) :
    g.get x y = .ok (g.cell (x + g.os).toNat (y + g.os).toNat) := by
  obtain ⟨hx, hy⟩ := wf
  obtain ⟨⟨h1, h2⟩, h3, h4⟩ := h
  unfold xr at hx
  unfold yr at hy
  unfold get
  rw [uidx_nonneg x g.os (by omega) (by omega), uidx_nonneg y g.os (by omega) (by omega)]
  exact rd_ok _ (by unfold xr; omega) (by unfold yr; omega)

theorem uidx_out (g : Grid T) (wf : g.WF) {x y : Int} (ix : IsInt x) (iy : IsInt y)
    (h : ¬ g.Inside x y) : ¬ (uidx x g.os < g.xr ∧ uidx y g.os < g.yr) := by
  obtain ⟨hx, hy⟩ := wf
  obtain ⟨ix1, ix2⟩ := ix
  obtain ⟨iy1, iy2⟩ := iy
  intro ⟨h1, h2⟩
  apply h
  by_cases a : x + g.os < 0
  · have := uidx_neg x g.os a ix1
    omega
  by_cases b : y + g.os < 0
  · have := uidx_neg y g.os b iy1
    omega
  have hos : (g.os : Int) < 2 ^ 31 := by unfold xr at hx; omega
  rw [uidx_nonneg x g.os (by omega) (by omega)] at h1
  rw [uidx_nonneg y g.os (by omega) (by omega)] at h2
  unfold xr at h1
  unfold yr at h2
  unfold Inside
  omega

theorem get_outside (g : Grid T) (wf : g.WF) {x y : Int} (ix : IsInt x) (iy : IsInt y)
    (h : ¬ g.Inside x y) : g.get x y = .ub := rd_ub _ (uidx_out g wf ix iy h)

theorem wr_changedAt (g : Grid T) (wf : g.WF) {x y : Int} (h : g.Inside x y) (v : T) :
    ∃ g', g.wr (uidx x g.os) (uidx y g.os) v = .ok g' ∧ ChangedAt g g' x y v := by
  obtain ⟨⟨h1, h2⟩, h3, h4⟩ := h
  obtain ⟨hx, hy⟩ := id wf
  have hx' := hx
  have hy' := hy
  unfold xr at hx'
  unfold yr at hy'
  have e1 := uidx_nonneg x g.os (by omega) (by omega)
  have e2 := uidx_nonneg y g.os (by omega) (by omega)
  have b1 : uidx x g.os < g.xr := by rw [e1]; unfold xr; omega
  have b2 : uidx y g.os < g.yr := by rw [e2]; unfold yr; omega
  refine ⟨_, wr_ok _ v b1 b2, ⟨rfl, rfl, rfl⟩, ?_, ?_⟩
  · unfold get
    simp only [withCell_os]
    rw [rd_ok _ (by simpa using b1) (by simpa using b2)]
    simp
  · intro x' y' ix iy hne
    have wf' : (g.withCell fun a b => if a = uidx x g.os ∧ b = uidx y g.os then v else g.cell a b).WF :=
      wf
    by_cases hin : g.Inside x' y'
    · rw [get_inside g wf hin, get_inside _ wf' hin]
      simp only [withCell_cell, withCell_os]
      rw [if_neg]
      rw [e1, e2]
      unfold Inside at hin
      omega
    · rw [get_outside g wf ix iy hin, get_outside _ wf' ix iy hin]

theorem upd_changedAt (g : Grid T) (wf : g.WF) {x y : Int} (h : g.Inside x y) (f : T → T)
    {old : T} (ho : g.get x y = .ok old) :
    ∃ g', g.upd (uidx x g.os) (uidx y g.os) f = .ok g' ∧ ChangedAt g g' x y (f old) := by
  unfold get at ho
  unfold upd
  rw [ho, Res.ok_bind]
  exact wr_changedAt g wf h (f old)

/-! ## C01 — element operations -/

/-- An access is defined exactly when the index lies inside the allocated cells;
otherwise it is undefined behaviour (never an abort). -/
theorem C01_access_defined (g : Grid T) (wf : g.WF) (x y : Int) (ix : IsInt x) (iy : IsInt y) :
    (g.Inside x y → ∃ v, g.get x y = .ok v) ∧ (¬ g.Inside x y → g.get x y = .ub) :=
  ⟨fun h => ⟨_, get_inside g wf h⟩, get_outside g wf ix iy⟩

/-- `set` writes exactly the addressed cell. -/
theorem C01_set (g : Grid T) (wf : g.WF) (x y : Int) (v : T) (h : g.Inside x y) :
    ∃ g', g.set x y v = .ok g' ∧ ChangedAt g g' x y v := wr_changedAt g wf h v

/-- `inc`, `dec`, `m_a`, `d_a` combine the old value with the argument and change
nothing else. -/
theorem C01_update [Add T] [Sub T] [Mul T] [Div T] (g : Grid T) (wf : g.WF) (x y : Int)
    (v old : T) (h : g.Inside x y) (ho : g.get x y = .ok old) :
    (∃ g', g.inc x y v = .ok g' ∧ ChangedAt g g' x y (old + v)) ∧
    (∃ g', g.dec x y v = .ok g' ∧ ChangedAt g g' x y (old - v)) ∧
    (∃ g', g.m_a x y v = .ok g' ∧ ChangedAt g g' x y (old * v)) ∧
    (∃ g', g.d_a x y v = .ok g' ∧ ChangedAt g g' x y (old / v)) :=
  ⟨upd_changedAt g wf h _ ho, upd_changedAt g wf h _ ho, upd_changedAt g wf h _ ho,
    upd_changedAt g wf h _ ho⟩

/-- Outside of the allocated cells every element operation is undefined behaviour. -/
theorem C01_update_outside [Add T] [Sub T] [Mul T] [Div T] (g : Grid T) (wf : g.WF) (x y : Int)
    (v : T) (ix : IsInt x) (iy : IsInt y) (h : ¬ g.Inside x y) :
    g.set x y v = .ub ∧ g.inc x y v = .ub ∧ g.dec x y v = .ub ∧ g.m_a x y v = .ub ∧
      g.d_a x y v = .ub :=
  have o := uidx_out g wf ix iy h
  ⟨wr_ub _ _ o, upd_ub _ _ o, upd_ub _ _ o, upd_ub _ _ o, upd_ub _ _ o⟩

/-- Component selection of a `Grid3D`: 0, 1, 2 give r, phi, z; larger indices
abort, negative ones are undefined behaviour. -/
theorem C01_component (a : Grid3D T) (k : Int) :
    (k = 0 → a.comp k = .ok a.r) ∧ (k = 1 → a.comp k = .ok a.phi) ∧
    (k = 2 → a.comp k = .ok a.z) ∧ (2 < k → a.comp k = .fatal) ∧ (k < 0 → a.comp k = .ub) := by
  unfold Grid3D.comp
  refine ⟨?_, ?_, ?_, ?_, ?_⟩ <;> intro h
  · subst h; rfl
  · subst h; rfl
  · subst h; rfl
  · exact if_pos h
  · rw [if_neg (by omega), if_neg (by omega), if_neg (by omega), if_neg (by omega)]

-- Non-vacuity: a 3x2 grid with overlay 2 is well formed and has inside, overlay
-- and outside indices; an overlay cell written through a negative index reads back.
example : let g := Grid.new (fun i j => (i * 100 + j : Nat)) 3 2 2
    g.WF ∧ g.Inside (-1) 3 ∧ ¬ g.Inside (-3) 0 ∧ IsInt (-3) := by
  refine ⟨?_, ?_, ?_, ?_⟩ <;> simp [WF, xr, yr, Grid.new, Inside, IsInt]
example : ((Grid.new (fun i j => (i * 100 + j : Nat)) 3 2 2).set (-1) 3 7 >>=
    fun g => g.get (-1) 3) = .ok 7 := by decide
example : ((Grid.new (fun i j => (i * 100 + j : Nat)) 3 2 2).get (-3) 0) = .ub := by decide

/-! ## C02 — clearing and scalar operators -/

theorem get_withCell_eq (g : Grid T) (wf : g.WF) (c : Nat → Nat → T) {x y : Int}
    (ix : IsInt x) (iy : IsInt y)
    (h : g.Inside x y → c (x + g.os).toNat (y + g.os).toNat
      = g.cell (x + g.os).toNat (y + g.os).toNat) :
    (g.withCell c).get x y = g.get x y := by
  have wf' : (g.withCell c).WF := wf
  by_cases hin : g.Inside x y
  · rw [get_inside g wf hin, get_inside _ wf' hin]
    simp only [withCell_cell, withCell_os]
    rw [h hin]
  · rw [get_outside g wf ix iy hin, get_outside _ wf' ix iy hin]

/-- The common statement of `C02`: the operator applies `f` to every logical cell
and changes no overlay cell. -/
theorem mapInterior_api (g : Grid T) (wf : g.WF) (f : T → T) :
    ∃ g', g.mapInterior f = .ok g' ∧ SameShape g g' ∧
      (∀ (x y : Int) (old : T), g.Interior x y → g.get x y = .ok old → g'.get x y = .ok (f old)) ∧
      (∀ x y : Int, IsInt x → IsInt y → ¬ g.Interior x y → g'.get x y = g.get x y) := by
  obtain ⟨c, hc, hv⟩ := mapInterior_eq g f
  refine ⟨_, hc, ⟨rfl, rfl, rfl⟩, ?_, ?_⟩
  · intro x y old hin ho
    have hins : g.Inside x y := by unfold Interior at hin; unfold Inside; omega
    rw [get_inside g wf hins] at ho
    rw [get_inside _ (show (g.withCell c).WF from wf) hins]
    simp only [withCell_cell, withCell_os]
    rw [hv, if_pos]
    · exact congrArg _ (congrArg f (Res.ok.inj ho))
    · unfold Interior at hin; omega
  · intro x y ix iy hno
    refine get_withCell_eq g wf c ix iy ?_
    intro hin
    rw [hv, if_neg]
    unfold Interior at hno
    unfold Inside at hin
    omega

/-- Scalar assignment sets every logical cell and leaves the overlay alone. -/
theorem C02_assign (g : Grid T) (wf : g.WF) (v : T) :
    ∃ g', g.assign v = .ok g' ∧ SameShape g g' ∧
      (∀ x y : Int, g.Interior x y → g'.get x y = .ok v) ∧
      (∀ x y : Int, IsInt x → IsInt y → ¬ g.Interior x y → g'.get x y = g.get x y) := by
  obtain ⟨g', h1, h2, h3, h4⟩ := mapInterior_api g wf (fun _ => v)
  refine ⟨g', by rw [assign_eq_map, h1], h2, ?_, h4⟩
  intro x y hin
  have hins : g.Inside x y := by unfold Interior at hin; unfold Inside; omega
  exact h3 x y _ hin (get_inside g wf hins)

/-- `+=`, `-=`, `*=`, `/=` act on each logical cell exactly once and on no overlay cell. -/
theorem C02_scalar_ops [Add T] [Sub T] [Mul T] [Div T] (g : Grid T) (wf : g.WF) (v : T) :
    ∀ p ∈ [((g.addAssign v), (fun a : T => a + v)), (g.subAssign v, fun a => a - v),
        (g.mulAssign v, fun a => a * v), (g.divAssign v, fun a => a / v)],
    ∃ g', p.1 = .ok g' ∧ SameShape g g' ∧
      (∀ (x y : Int) (old : T), g.Interior x y → g.get x y = .ok old → g'.get x y = .ok (p.2 old)) ∧
      (∀ x y : Int, IsInt x → IsInt y → ¬ g.Interior x y → g'.get x y = g.get x y) := by
  intro p hp
  simp only [List.mem_cons, List.not_mem_nil, or_false] at hp
  rcases hp with rfl | rfl | rfl | rfl <;> exact mapInterior_api g wf _

/-- `overlay_set` writes exactly the overlay frame. -/
theorem C02_overlay_set (g : Grid T) (wf : g.WF) (v : T) :
    ∃ g', g.overlaySet v = .ok g' ∧ SameShape g g' ∧
      (∀ x y : Int, g.Inside x y → ¬ g.Interior x y → g'.get x y = .ok v) ∧
      (∀ x y : Int, g.Interior x y → g'.get x y = g.get x y) := by
  obtain ⟨c, hc, hv⟩ := overlaySet_eq g v
  have wf' : (g.withCell c).WF := wf
  refine ⟨_, hc, ⟨rfl, rfl, rfl⟩, ?_, ?_⟩
  · intro x y hin hno
    rw [get_inside _ wf' hin]
    simp only [withCell_cell, withCell_os]
    rw [hv, if_pos]
    unfold Inside at hin
    unfold Interior at hno
    unfold xr yr
    omega
  · intro x y hin
    have hins : g.Inside x y := by unfold Interior at hin; unfold Inside; omega
    rw [get_inside g wf hins, get_inside _ wf' hins]
    simp only [withCell_cell, withCell_os]
    rw [hv, if_neg]
    unfold Interior at hin
    unfold xr yr
    omega

/-- Clearing a freshly allocated grid (assignment, then `overlay_set`, as in
`Domain::reset_current` and `SpecieP::calc_density`) gives `v` in every
allocated cell, whatever the memory contained. -/
theorem C02_clear (junk : Nat → Nat → T) (x y os : Nat) (v : T)
    (wf : (Grid.new junk x y os).WF) :
    ∃ g₁ g₂, (Grid.new junk x y os).assign v = .ok g₁ ∧ g₁.overlaySet v = .ok g₂ ∧
      ∀ i j : Int, (Grid.new junk x y os).Inside i j → g₂.get i j = .ok v := by
  obtain ⟨g₁, h1, hs, h2, _⟩ := C02_assign (Grid.new junk x y os) wf v
  have wf₁ : g₁.WF := by
    unfold WF xr yr at *
    rw [hs.1, hs.2.1, hs.2.2]; exact wf
  obtain ⟨g₂, h3, _, h5, h6⟩ := C02_overlay_set g₁ wf₁ v
  refine ⟨g₁, g₂, h1, h3, ?_⟩
  intro i j hin
  have hin₁ : g₁.Inside i j := by
    unfold Inside at *
    rw [hs.1, hs.2.1, hs.2.2]; exact hin
  by_cases hi : (Grid.new junk x y os).Interior i j
  · have hi₁ : g₁.Interior i j := by
      unfold Interior at *
      rw [hs.2.1, hs.2.2]; exact hi
    rw [h6 i j hi₁]
    exact h2 i j hi
  · refine h5 i j hin₁ ?_
    intro hi₁
    apply hi
    unfold Interior at *
    rw [hs.2.1, hs.2.2] at hi₁; exact hi₁

example : (Grid.new (fun i j => (i * 100 + j : Nat)) 3 2 2).WF := by
  simp [WF, xr, yr, Grid.new]
example : let g := (Grid.new (fun i j => (i * 100 + j : Nat)) 2 3 1)
    (g.assign 5 >>= fun g => g.get 1 2) = .ok 5 ∧
    (g.assign 5 >>= fun g => g.get 2 2) = .ok 303 ∧
    (g.overlaySet 5 >>= fun g => g.get 2 2) = .ok 5 := by decide

/-! ## C03 — overlay exchange between neighbours -/

/-- `lhs.overlay_x(rhs)`: logical row `x_size + x` of the left grid and row `x`
of the right grid are the same physical row.  After the exchange all rows
`-o_s ≤ x < o_s` of the logical columns hold the sum in both grids and nothing
else changed. -/
theorem C03_overlay_x [AddCommMagma T] (l r : Grid T) (wl : l.WF) (wr : r.WF)
    (hos : r.os = l.os) (hy : r.ys = l.ys) :
    ∃ l' r', overlayX l r = .ok (l', r') ∧ SameShape l l' ∧ SameShape r r' ∧
      (∀ (x y : Int) (a b : T), -(l.os : Int) ≤ x → x < l.os → 0 ≤ y → y < l.ys →
        l.get (l.xs + x) y = .ok a → r.get x y = .ok b →
        l'.get (l.xs + x) y = .ok (a + b) ∧ r'.get x y = .ok (a + b)) ∧
      (∀ x y : Int, IsInt x → IsInt y →
        ¬ ((-(l.os : Int) ≤ x - l.xs ∧ x - l.xs < l.os) ∧ 0 ≤ y ∧ y < l.ys) →
        l'.get x y = l.get x y) ∧
      (∀ x y : Int, IsInt x → IsInt y → ¬ ((-(l.os : Int) ≤ x ∧ x < l.os) ∧ 0 ≤ y ∧ y < l.ys) →
        r'.get x y = r.get x y) := by
  have hyr : l.yr = r.yr := by unfold yr; omega
  obtain ⟨c, c', h0, h1, h2, h3⟩ := overlayX_eq l r hyr (by unfold xr; omega)
  have wl' : (l.withCell c).WF := wl
  have wr' : (r.withCell c').WF := wr
  refine ⟨_, _, h0, ⟨rfl, rfl, rfl⟩, ⟨rfl, rfl, rfl⟩, ?_, ?_, ?_⟩
  · intro x y a b hx1 hx2 hy1 hy2 ha hb
    have hrin : r.Inside x y := by unfold Inside; omega
    have hlin : l.Inside (l.xs + x) y := by unfold Inside; omega
    rw [get_inside l wl hlin] at ha
    rw [get_inside r wr hrin] at hb
    rw [get_inside _ wl' hlin, get_inside _ wr' hrin]
    simp only [withCell_cell, withCell_os]
    have hk : ((l.xs : Int) + x + l.os).toNat = l.xr - 2 * l.os + (x + l.os).toNat := by
      unfold xr; omega
    have h := h1 (x + l.os).toNat (y + l.os).toNat (by omega) (by omega)
      (by unfold yr; omega)
    rw [hk] at ha ⊢
    rw [hos] at hb ⊢
    rw [h.1, h.2, Res.ok.inj ha, Res.ok.inj hb]
    exact ⟨rfl, rfl⟩
  · intro x y ix iy hno
    refine get_withCell_eq l wl c ix iy ?_
    intro hin
    apply h2
    unfold Inside at hin
    unfold xr yr
    omega
  · intro x y ix iy hno
    refine get_withCell_eq r wr c' ix iy ?_
    intro hin
    apply h3
    unfold Inside at hin
    unfold yr
    omega

/-- `lhs.overlay_y(rhs)`: the same along the second axis. -/
theorem C03_overlay_y [AddCommMagma T] (l r : Grid T) (wl : l.WF) (wr : r.WF)
    (hos : r.os = l.os) (hx : r.xs = l.xs) :
    ∃ l' r', overlayY l r = .ok (l', r') ∧ SameShape l l' ∧ SameShape r r' ∧
      (∀ (x y : Int) (a b : T), -(l.os : Int) ≤ y → y < l.os → 0 ≤ x → x < l.xs →
        l.get x (l.ys + y) = .ok a → r.get x y = .ok b →
        l'.get x (l.ys + y) = .ok (a + b) ∧ r'.get x y = .ok (a + b)) ∧
      (∀ x y : Int, IsInt x → IsInt y →
        ¬ ((-(l.os : Int) ≤ y - l.ys ∧ y - l.ys < l.os) ∧ 0 ≤ x ∧ x < l.xs) →
        l'.get x y = l.get x y) ∧
      (∀ x y : Int, IsInt x → IsInt y → ¬ ((-(l.os : Int) ≤ y ∧ y < l.os) ∧ 0 ≤ x ∧ x < l.xs) →
        r'.get x y = r.get x y) := by
  have hxr : l.xr = r.xr := by unfold xr; omega
  obtain ⟨c, c', h0, h1, h2, h3⟩ := overlayY_eq l r hxr (by unfold yr; omega)
  have wl' : (l.withCell c).WF := wl
  have wr' : (r.withCell c').WF := wr
  refine ⟨_, _, h0, ⟨rfl, rfl, rfl⟩, ⟨rfl, rfl, rfl⟩, ?_, ?_, ?_⟩
  · intro x y a b hy1 hy2 hx1 hx2 ha hb
    have hrin : r.Inside x y := by unfold Inside; omega
    have hlin : l.Inside x (l.ys + y) := by unfold Inside; omega
    rw [get_inside l wl hlin] at ha
    rw [get_inside r wr hrin] at hb
    rw [get_inside _ wl' hlin, get_inside _ wr' hrin]
    simp only [withCell_cell, withCell_os]
    have hk : ((l.ys : Int) + y + l.os).toNat = l.yr - 2 * l.os + (y + l.os).toNat := by
      unfold yr; omega
    have h := h1 (y + l.os).toNat (x + l.os).toNat (by omega) (by omega)
      (by unfold xr; omega)
    rw [hk] at ha ⊢
    rw [hos] at hb ⊢
    rw [h.1, h.2, Res.ok.inj ha, Res.ok.inj hb]
    exact ⟨rfl, rfl⟩
  · intro x y ix iy hno
    refine get_withCell_eq l wl c ix iy ?_
    intro hin
    apply h2
    unfold Inside at hin
    unfold xr yr
    omega
  · intro x y ix iy hno
    refine get_withCell_eq r wr c' ix iy ?_
    intro hin
    apply h3
    unfold Inside at hin
    unfold xr
    omega

/-- Mismatched transverse sizes abort the program. -/
theorem C03_mismatch [Add T] (l r : Grid T) :
    (l.yr ≠ r.yr → overlayX l r = .fatal) ∧ (l.xr ≠ r.xr → overlayY l r = .fatal) :=
  ⟨fun h => if_neg h, fun h => if_neg h⟩

-- Non-vacuity: two 4x3 grids with overlay 1; the shared rows hold the sum.
example : let l := Grid.new (fun i j => (i * 10 + j : Nat)) 4 3 1
    let r := Grid.new (fun i j => (1000 * (i * 10 + j) : Nat)) 4 3 1
    l.WF ∧ r.WF ∧ r.os = l.os ∧ r.ys = l.ys ∧
    (overlayX l r >>= fun p => p.1.get (4 + 0) 1) = .ok (52 + 12000) ∧
    (overlayX l r >>= fun p => p.2.get 0 1) = .ok (52 + 12000) := by
  refine ⟨?_, ?_, rfl, rfl, ?_, ?_⟩
  · simp [WF, xr, yr, Grid.new]
  · simp [WF, xr, yr, Grid.new]
  · decide
  · decide

/-! ## C04 — diagonal exchange -/

/-- Square grids: the two diagonal corner blocks hold the sum, nothing else
changes.  The full claim C04 also asks this for non-square grids, where it is
false (`C04_nonsquare_ub`, `C04_nonsquare_wrong`). -/
theorem C04_overlay_xy_partial [AddCommMagma T] (l r : Grid T) (wl : l.WF) (wr : r.WF)
    (hos : r.os = l.os) (hx : r.xs = l.xs) (hy : r.ys = l.ys) (hsq : l.xs = l.ys) :
    ∃ l' r', overlayXY l r = .ok (l', r') ∧ SameShape l l' ∧ SameShape r r' ∧
      (∀ (x y : Int) (a b : T), -(l.os : Int) ≤ x → x < l.os → -(l.os : Int) ≤ y → y < l.os →
        (x < 0 ↔ y < 0) → l.get (l.xs + x) (l.ys + y) = .ok a → r.get x y = .ok b →
        l'.get (l.xs + x) (l.ys + y) = .ok (a + b) ∧ r'.get x y = .ok (a + b)) ∧
      (∀ x y : Int, IsInt x → IsInt y →
        ¬ ((-(l.os : Int) ≤ x ∧ x < l.os) ∧ (-(l.os : Int) ≤ y ∧ y < l.os) ∧ (x < 0 ↔ y < 0)) →
        r'.get x y = r.get x y) ∧
      (∀ x y : Int, IsInt (l.xs + x) → IsInt (l.ys + y) →
        ¬ ((-(l.os : Int) ≤ x ∧ x < l.os) ∧ (-(l.os : Int) ≤ y ∧ y < l.os) ∧ (x < 0 ↔ y < 0)) →
        l'.get (l.xs + x) (l.ys + y) = l.get (l.xs + x) (l.ys + y)) := by
  have hxr : l.xr = r.xr := by unfold xr; omega
  have hyr : l.yr = r.yr := by unfold yr; omega
  have hsq' : l.xr = l.yr := by unfold xr yr; omega
  obtain ⟨c, c', h0, h1, h2, h3⟩ := overlayXY_eq l r hxr hyr hsq'
  have wl' : (l.withCell c).WF := wl
  have wr' : (r.withCell c').WF := wr
  refine ⟨_, _, h0, ⟨rfl, rfl, rfl⟩, ⟨rfl, rfl, rfl⟩, ?_, ?_, ?_⟩
  · intro x y a b hx1 hx2 hy1 hy2 hxy ha hb
    have hrin : r.Inside x y := by unfold Inside; omega
    have hlin : l.Inside (l.xs + x) (l.ys + y) := by
      unfold Inside at hrin ⊢
      omega
    rw [get_inside l wl hlin] at ha
    rw [get_inside r wr hrin] at hb
    rw [get_inside _ wl' hlin, get_inside _ wr' hrin]
    simp only [withCell_cell, withCell_os]
    have hk : ((l.xs : Int) + x + l.os).toNat = l.xr - 2 * l.os + (x + l.os).toNat := by
      unfold xr; omega
    have hk' : ((l.ys : Int) + y + l.os).toNat = l.xr - 2 * l.os + (y + l.os).toNat := by
      unfold xr; omega
    have h := h1 (x + l.os).toNat (y + l.os).toNat (by omega)
    rw [hk, hk'] at ha ⊢
    rw [hos] at hb ⊢
    rw [h.1, h.2, Res.ok.inj ha, Res.ok.inj hb]
    exact ⟨rfl, rfl⟩
  · intro x y ix iy hno
    refine get_withCell_eq r wr c' ix iy ?_
    intro hin
    apply h3
    unfold Inside at hin
    omega
  · intro x y ix iy hno
    refine get_withCell_eq l wl c ix iy ?_
    intro hin
    apply h2
    unfold Inside at hin
    unfold xr
    omega

/-- Non-square grids with more rows than columns: the very first iteration
accesses column `x_real_size - 1` — undefined behaviour for every content. -/
theorem C04_nonsquare_ub [Add T] (l r : Grid T) (hx : l.xr = r.xr) (hy : l.yr = r.yr)
    (hos : 0 < l.os) (hns : l.ys < l.xs) : overlayXY l r = .ub := by
  unfold overlayXY
  rw [if_pos ⟨hx, hy⟩]
  have : idx2 0 l.os 0 l.os = (0, 0) :: (idx2 0 l.os 0 l.os).tail := by
    obtain ⟨n, hn⟩ : ∃ n, l.os = n + 1 := ⟨l.os - 1, by omega⟩
    rw [hn]
    rfl
  dsimp only
  rw [this, loop_cons]
  have hub : l.rd (l.xr-1-0) (l.xr-1-0) = .ub := by
    apply rd_ub
    unfold xr yr
    omega
  simp only [exch, hub, Res.ub_bind]

/-- Non-square grids with more than `o_s` columns more than rows: some iteration
reads a row below the array — undefined behaviour for every content. -/
theorem C04_nonsquare_ub' [Add T] (l r : Grid T) (hx : l.xr = r.xr) (hy : l.yr = r.yr)
    (hos : 0 < l.os) (hns : l.xs + l.os < l.ys) :
    ∀ l' r', overlayXY l r ≠ .ok (l', r') := by
  intro l' r' h
  unfold overlayXY at h
  rw [if_pos ⟨hx, hy⟩] at h
  dsimp only at h
  -- every completed iteration keeps the shapes, so iteration (os-1, 0) is UB
  have key : ∀ (L : List (Nat × Nat)), (l.os - 1, 0) ∈ L → ∀ s : Grid T × Grid T,
      s.1.xr = l.xr → s.1.yr = l.yr → s.2.xr = l.xr → s.2.yr = l.yr → ∀ t,
      loop (fun (p : Nat × Nat) (s : Grid T × Grid T) =>
        exch (2*l.os-p.1-1, 2*l.os-p.2-1) (s.1.xr-1-p.1, s.1.xr-1-p.2)
          (s.1.xr-2*l.os+p.1, s.1.xr-2*l.os+p.2) (p.1, p.2)
          (s.1.yr-2*l.os+p.1, s.1.yr-2*l.os+p.2) s) L s ≠ .ok t := by
    intro L
    induction L with
    | nil => intro h; simp at h
    | cons q L ih =>
      intro hm s e1 e2 e3 e4 t
      rw [loop_cons]
      obtain ⟨sl, sr⟩ := s
      dsimp only at e1 e2 e3 e4 ⊢
      -- run the body
      cases hb : exch (2*l.os-q.1-1, 2*l.os-q.2-1) (sl.xr-1-q.1, sl.xr-1-q.2)
          (sl.xr-2*l.os+q.1, sl.xr-2*l.os+q.2) (q.1, q.2)
          (sl.yr-2*l.os+q.1, sl.yr-2*l.os+q.2) (sl, sr) with
      | fatal => simp
      | ub => simp
      | ok u =>
        -- the body completed, hence its read of row yr-2*os+d was in bounds
        unfold exch at hb
        dsimp only at hb
        have hrow : ∀ {g : Grid T} {i j v}, g.rd i j = .ok v → i < g.xr ∧ j < g.yr := by
          intro g i j v h
          unfold rd at h
          split at h
          · assumption
          · exact absurd h (by simp)
        have hwr : ∀ {g g' : Grid T} {i j v}, g.wr i j v = .ok g' → g'.xr = g.xr ∧ g'.yr = g.yr := by
          intro g g' i j v h
          unfold wr at h
          split at h
          · rw [← Res.ok.inj h]; exact ⟨rfl, rfl⟩
          · exact absurd h (by simp)
        have hupd : ∀ {g g' : Grid T} {i j f}, g.upd i j f = .ok g' → g'.xr = g.xr ∧ g'.yr = g.yr := by
          intro g g' i j f h
          unfold upd at h
          cases hr : g.rd i j with
          | ok v => rw [hr, Res.ok_bind] at h; exact hwr h
          | fatal => rw [hr] at h; exact absurd h (by simp)
          | ub => rw [hr] at h; exact absurd h (by simp)
        have hbind : ∀ {α β : Type _} {x : Res α} {f : α → Res β} {b},
            (x >>= f) = .ok b → ∃ a, x = .ok a ∧ f a = .ok b := by
          intro α β x f b h
          cases x with
          | ok a => exact ⟨a, rfl, h⟩
          | fatal => exact absurd h (by simp)
          | ub => exact absurd h (by simp)
        obtain ⟨v1, g1, hb⟩ := hbind hb
        obtain ⟨r1, g2, hb⟩ := hbind hb
        obtain ⟨v2, g3, hb⟩ := hbind hb
        obtain ⟨l1, g4, hb⟩ := hbind hb
        obtain ⟨v3, g5, hb⟩ := hbind hb
        obtain ⟨r2, g6, hb⟩ := hbind hb
        obtain ⟨v4, g7, hb⟩ := hbind hb
        obtain ⟨l2, g8, hb⟩ := hbind hb
        have hu := (Res.ok.inj hb).symm
        subst hu
        rcases List.mem_cons.mp hm with hq | hm'
        · subst hq
          exfalso
          have b5 := (hrow g5).1
          rw [(hupd g4).1] at b5
          have hxr : l.xr = l.xs + l.os * 2 := rfl
          have hyr : l.yr = l.ys + l.os * 2 := rfl
          rw [e1, e2] at b5
          dsimp only at b5
          omega
        · rw [Res.ok_bind]
          refine ih hm' _ ?_ ?_ ?_ ?_ t
          · exact ((hwr g8).1.trans (hupd g4).1).trans e1
          · exact ((hwr g8).2.trans (hupd g4).2).trans e2
          · exact ((hwr g6).1.trans (hupd g2).1).trans e3
          · exact ((hwr g6).2.trans (hupd g2).2).trans e4
  refine key _ (mem_idx2.mpr ⟨⟨Nat.zero_le _, by dsimp only; omega⟩, Nat.zero_le _, hos⟩)
    (l, r) rfl rfl hx.symm hy.symm _ h

/-- Slightly wider than high grids: no out-of-bounds access, but wrong values.
Witness (overlay 1, 2 rows x 3 columns): after the exchange the shared corner
node differs between the two grids and from the sum. -/
theorem C04_nonsquare_wrong :
    let l := Grid.new (fun i j => (10 * i + j : Nat)) 2 3 1
    let r := Grid.new (fun i j => (1000 * (10 * i + j + 1) : Nat)) 2 3 1
    l.WF ∧ r.WF ∧
    (l.get (2 + 0) (3 + 0) = .ok 34 ∧ r.get 0 0 = .ok 12000) ∧
    (overlayXY l r >>= fun p => p.2.get 0 0) ≠ .ok (34 + 12000) ∧
    (overlayXY l r >>= fun p => p.2.get 0 0) ≠ (overlayXY l r >>= fun p => p.1.get (2 + 0) (3 + 0)) := by
  refine ⟨?_, ?_, ?_, ?_, ?_⟩
  · simp [WF, xr, yr, Grid.new]
  · simp [WF, xr, yr, Grid.new]
  all_goals decide

-- Non-vacuity of the square theorem.
example : let l := Grid.new (fun i j => (10 * i + j : Nat)) 4 4 1
    let r := Grid.new (fun i j => (1000 * (10 * i + j + 1) : Nat)) 4 4 1
    l.WF ∧ r.WF ∧ (overlayXY l r >>= fun p => p.2.get 0 0) = .ok (55 + 12000) := by
  refine ⟨?_, ?_, ?_⟩
  · simp [WF, xr, yr, Grid.new]
  · simp [WF, xr, yr, Grid.new]
  · decide
-- Non-vacuity of the non-square theorems.
example : let l := Grid.new (fun _ _ => (0 : Nat)) 5 3 2
    0 < l.os ∧ l.ys < l.xs := by decide
example : let l := Grid.new (fun _ _ => (0 : Nat)) 3 6 2
    0 < l.os ∧ l.xs + l.os < l.ys := by decide

end Grid
end Pico
