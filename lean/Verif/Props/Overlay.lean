import Mathlib.Algebra.Group.Basic
import Verif.Props.Grid
import Verif.Lemmas.Corner

/-!
# C05, C06 — stitching of many domains

`overlayPass nr nz D` is the whole overlay pass (`SMB::current_overlay` and the
field variants) over `nr × nz` domains whose grids are `D i j`.  Row `x_size + x`
of domain `(i, j)` and row `x` of domain `(i+1, j)` are the same physical row,
and the same for columns of `(i, j)` and `(i, j+1)`.
-/

namespace Pico
namespace SMB

open Grid

variable {T : Type _}

theorem ofMemD_self (D : Domains T) :
    ofMemD D (fun x => (D x.1 x.2.1).cell x.2.2.1 x.2.2.2) = D := rfl

/-- Bridge: the result of the pass as a memory. -/
theorem pass_exists [AddCommMagma T] (D : Domains T) (os : Nat) (xs ys : Nat → Nat) (nr nz : Nat)
    (L : Layout D nr nz os xs ys) (G : Good nr nz xs ys) :
    overlayPass nr nz D = .ok (ofMemD D ((sweep nr nz).foldl (stAt os xs ys nr nz)
      (fun x => (D x.1 x.2.1).cell x.2.2.1 x.2.2.2))) := by
  have := overlayPass_mem D os xs ys nr nz L G (fun x => (D x.1 x.2.1).cell x.2.2.1 x.2.2.2)
  rwa [ofMemD_self] at this

/-- Rows shared by neighbours along r, in the columns of `midCol`. -/
theorem pass_rows [AddCommMagma T] (D : Domains T) (os : Nat) (xs ys : Nat → Nat) (nr nz : Nat)
    (L : Layout D nr nz os xs ys) (G : Good nr nz xs ys)
    (wf : ∀ i j, i < nr → j < nz → (D i j).WF)
    (hxs : ∀ i, i < nr → 2 * os ≤ xs i) (i j : Nat) (hi : i + 1 < nr) (hj : j < nz)
    (x y : Int) (a b : T) (h1 : -(os : Int) ≤ x) (h2 : x < os) (h3 : 0 ≤ y) (h4 : y < ys j)
    (h5 : nz ≤ 1 ∨ ((os : Int) ≤ y ∧ y < ys j - os))
    (ha : (D i j).get (xs i + x) y = .ok a) (hb : (D (i+1) j).get x y = .ok b) :
    (ofMemD D ((sweep nr nz).foldl (stAt os xs ys nr nz)
      (fun x => (D x.1 x.2.1).cell x.2.2.1 x.2.2.2)) i j).get (xs i + x) y = .ok (a + b) ∧
    (ofMemD D ((sweep nr nz).foldl (stAt os xs ys nr nz)
      (fun x => (D x.1 x.2.1).cell x.2.2.1 x.2.2.2)) (i+1) j).get x y = .ok (a + b) := by
  have w1 := wf i j (by omega) hj
  have w2 := wf (i+1) j hi hj
  have e1 := L.os_eq i j (by omega) hj
  have e2 := L.xs_eq i j (by omega) hj
  have e3 := L.ys_eq i j (by omega) hj
  have e1' := L.os_eq (i+1) j hi hj
  have e2' := L.xs_eq (i+1) j hi hj
  have e3' := L.ys_eq (i+1) j hi hj
  have := hxs (i+1) hi
  have in1 : (D i j).Inside (xs i + x) y := by unfold Inside; omega
  have in2 : (D (i+1) j).Inside x y := by unfold Inside; omega
  rw [get_inside _ w1 in1, e1] at ha
  rw [get_inside _ w2 in2, e1'] at hb
  have k : ((xs i : Int) + x + os).toNat = xs i + (x + os).toNat := by omega
  rw [k] at ha
  have key := (pass_midCol os xs ys nr nz G hxs
    (fun x => (D x.1 x.2.1).cell x.2.2.1 x.2.2.2)).1 i j (x + os).toNat (y + os).toNat hi hj
    (by unfold midCol; dsimp only; omega) (by omega) (by omega) (by omega)
  dsimp only at key
  rw [Res.ok.inj ha, Res.ok.inj hb] at key
  constructor
  · rw [get_inside _ (show Grid.WF (ofMemD D _ i j) from w1) in1]
    simp only [ofMemD, withCell_os, withCell_cell, e1]
    rw [k, key.1]
  · rw [get_inside _ (show Grid.WF (ofMemD D _ (i+1) j) from w2) in2]
    simp only [ofMemD, withCell_os, withCell_cell, e1']
    rw [key.2]

/-- Columns shared by neighbours along z, in the rows of `midRow`. -/
theorem pass_cols [AddCommMagma T] (D : Domains T) (os : Nat) (xs ys : Nat → Nat) (nr nz : Nat)
    (L : Layout D nr nz os xs ys) (G : Good nr nz xs ys)
    (wf : ∀ i j, i < nr → j < nz → (D i j).WF)
    (hys : ∀ j, j < nz → 2 * os ≤ ys j) (i j : Nat) (hi : i < nr) (hj : j + 1 < nz)
    (x y : Int) (a b : T) (h1 : -(os : Int) ≤ y) (h2 : y < os) (h3 : 0 ≤ x) (h4 : x < xs i)
    (h5 : nr ≤ 1 ∨ ((os : Int) ≤ x ∧ x < xs i - os))
    (ha : (D i j).get x (ys j + y) = .ok a) (hb : (D i (j+1)).get x y = .ok b) :
    (ofMemD D ((sweep nr nz).foldl (stAt os xs ys nr nz)
      (fun x => (D x.1 x.2.1).cell x.2.2.1 x.2.2.2)) i j).get x (ys j + y) = .ok (a + b) ∧
    (ofMemD D ((sweep nr nz).foldl (stAt os xs ys nr nz)
      (fun x => (D x.1 x.2.1).cell x.2.2.1 x.2.2.2)) i (j+1)).get x y = .ok (a + b) := by
  have w1 := wf i j hi (by omega)
  have w2 := wf i (j+1) hi hj
  have e1 := L.os_eq i j hi (by omega)
  have e2 := L.xs_eq i j hi (by omega)
  have e3 := L.ys_eq i j hi (by omega)
  have e1' := L.os_eq i (j+1) hi hj
  have e2' := L.xs_eq i (j+1) hi hj
  have e3' := L.ys_eq i (j+1) hi hj
  have := hys (j+1) hj
  have in1 : (D i j).Inside x (ys j + y) := by unfold Inside; omega
  have in2 : (D i (j+1)).Inside x y := by unfold Inside; omega
  rw [get_inside _ w1 in1, e1] at ha
  rw [get_inside _ w2 in2, e1'] at hb
  have k : ((ys j : Int) + y + os).toNat = ys j + (y + os).toNat := by omega
  rw [k] at ha
  have key := (pass_midRow os xs ys nr nz G hys
    (fun x => (D x.1 x.2.1).cell x.2.2.1 x.2.2.2)).1 i j (x + os).toNat (y + os).toNat hi hj
    (by unfold midRow; dsimp only; omega) (by omega) (by omega) (by omega)
  dsimp only at key
  rw [Res.ok.inj ha, Res.ok.inj hb] at key
  constructor
  · rw [get_inside _ (show Grid.WF (ofMemD D _ i j) from w1) in1]
    simp only [ofMemD, withCell_os, withCell_cell, e1]
    rw [k, key.1]
  · rw [get_inside _ (show Grid.WF (ofMemD D _ i (j+1)) from w2) in2]
    simp only [ofMemD, withCell_os, withCell_cell, e1']
    rw [key.2]

/-! ## C05 — chains of domains -/

/-- Any number of domains along r (one along z), of any heights `≥ 2 o_s`: after
the pass every shared node holds in both neighbours the sum of the two
contributions, and every node that is not shared is unchanged. -/
theorem C05_chain_r [AddCommMagma T] (nr os w : Nat) (D : Domains T)
    (hD : ∀ i, i < nr → (D i 0).WF ∧ (D i 0).os = os ∧ (D i 0).ys = w ∧ 2 * os ≤ (D i 0).xs) :
    ∃ D', overlayPass nr 1 D = .ok D' ∧ (∀ i, i < nr → SameShape (D i 0) (D' i 0)) ∧
      (∀ i, i + 1 < nr → ∀ (x y : Int) (a b : T),
        -(os : Int) ≤ x → x < os → 0 ≤ y → y < w →
        (D i 0).get ((D i 0).xs + x) y = .ok a → (D (i+1) 0).get x y = .ok b →
        (D' i 0).get ((D i 0).xs + x) y = .ok (a + b) ∧ (D' (i+1) 0).get x y = .ok (a + b)) ∧
      (∀ i, i < nr → ∀ x y : Int, IsInt x → IsInt y →
        (0 ≤ y ∧ y < w → (0 < i → (os : Int) ≤ x ∨ x < -os) ∧
          (i + 1 < nr → x < (D i 0).xs - os ∨ (D i 0).xs + os ≤ x)) →
        (D' i 0).get x y = (D i 0).get x y) := by
  have L : Layout D nr 1 os (fun i => (D i 0).xs) (fun _ => w) :=
    ⟨fun i j hi hj => by obtain rfl : j = 0 := by omega
                         exact (hD i hi).2.1,
     fun i j hi hj => by obtain rfl : j = 0 := by omega
                         rfl,
     fun i j hi hj => by obtain rfl : j = 0 := by omega
                         exact (hD i hi).2.2.1⟩
  have G : Good nr 1 (fun i => (D i 0).xs) (fun _ => w) := Or.inr (Or.inl (Nat.le_refl 1))
  have hxs : ∀ i, i < nr → 2 * os ≤ (fun i => (D i 0).xs) i := fun i hi => (hD i hi).2.2.2
  refine ⟨_, pass_exists D os _ _ nr 1 L G, fun i _ => ⟨rfl, rfl, rfl⟩, ?_, ?_⟩
  · intro i hi x y a b h1 h2 h3 h4 ha hb
    exact pass_rows D os _ _ nr 1 L G
      (fun i j hi hj => by obtain rfl : j = 0 := by omega
                           exact (hD i hi).1)
      hxs i 0 hi (by omega) x y a b h1 h2 h3 h4 (Or.inl (Nat.le_refl 1)) ha hb
  · intro i hi x y ix iy hno
    obtain ⟨wf, h1, h2, h3⟩ := hD i hi
    refine get_withCell_eq (D i 0) wf _ ix iy ?_
    intro hin
    refine (pass_midCol os _ _ nr 1 G hxs
      (fun x => (D x.1 x.2.1).cell x.2.2.1 x.2.2.2)).2 _ (Or.inl (Nat.le_refl 1)) ?_
    rintro ⟨a, b⟩ - hown
    unfold ownDX at hown
    unfold Inside at hin
    dsimp only at hown
    obtain ⟨o1, o2, o3⟩ := hown
    rcases o3 with ⟨rfl, o3, o4⟩ | ⟨rfl, o3⟩ <;> omega

/-- The same for any number of domains along z (one along r). -/
theorem C05_chain_z [AddCommMagma T] (nz os h : Nat) (D : Domains T)
    (hD : ∀ j, j < nz → (D 0 j).WF ∧ (D 0 j).os = os ∧ (D 0 j).xs = h ∧ 2 * os ≤ (D 0 j).ys) :
    ∃ D', overlayPass 1 nz D = .ok D' ∧ (∀ j, j < nz → SameShape (D 0 j) (D' 0 j)) ∧
      (∀ j, j + 1 < nz → ∀ (x y : Int) (a b : T),
        -(os : Int) ≤ y → y < os → 0 ≤ x → x < h →
        (D 0 j).get x ((D 0 j).ys + y) = .ok a → (D 0 (j+1)).get x y = .ok b →
        (D' 0 j).get x ((D 0 j).ys + y) = .ok (a + b) ∧ (D' 0 (j+1)).get x y = .ok (a + b)) ∧
      (∀ j, j < nz → ∀ x y : Int, IsInt x → IsInt y →
        (0 ≤ x ∧ x < h → (0 < j → (os : Int) ≤ y ∨ y < -os) ∧
          (j + 1 < nz → y < (D 0 j).ys - os ∨ (D 0 j).ys + os ≤ y)) →
        (D' 0 j).get x y = (D 0 j).get x y) := by
  have L : Layout D 1 nz os (fun _ => h) (fun j => (D 0 j).ys) :=
    ⟨fun i j hi hj => by obtain rfl : i = 0 := by omega
                         exact (hD j hj).2.1,
     fun i j hi hj => by obtain rfl : i = 0 := by omega
                         exact (hD j hj).2.2.1,
     fun i j hi hj => by obtain rfl : i = 0 := by omega
                         rfl⟩
  have G : Good 1 nz (fun _ => h) (fun j => (D 0 j).ys) := Or.inl (Nat.le_refl 1)
  have hys : ∀ j, j < nz → 2 * os ≤ (fun j => (D 0 j).ys) j := fun j hj => (hD j hj).2.2.2
  refine ⟨_, pass_exists D os _ _ 1 nz L G, fun i _ => ⟨rfl, rfl, rfl⟩, ?_, ?_⟩
  · intro j hj x y a b h1 h2 h3 h4 ha hb
    exact pass_cols D os _ _ 1 nz L G
      (fun i j hi hj => by obtain rfl : i = 0 := by omega
                           exact (hD j hj).1)
      hys 0 j (by omega) hj x y a b h1 h2 h3 h4 (Or.inl (Nat.le_refl 1)) ha hb
  · intro j hj x y ix iy hno
    obtain ⟨wf, h1, h2, h3⟩ := hD j hj
    refine get_withCell_eq (D 0 j) wf _ ix iy ?_
    intro hin
    refine (pass_midRow os _ _ 1 nz G hys
      (fun x => (D x.1 x.2.1).cell x.2.2.1 x.2.2.2)).2 _ (Or.inl (Nat.le_refl 1)) ?_
    rintro ⟨a, b⟩ - hown
    unfold ownDY at hown
    unfold Inside at hin
    dsimp only at hown
    obtain ⟨o1, o2, o3⟩ := hown
    rcases o3 with ⟨rfl, o3, o4⟩ | ⟨rfl, o3⟩ <;> omega

/-- A two-dimensional arrangement of equal square domains: away from the corners
(`o_s` nodes or more from them) the shared nodes of all interfaces hold the sum of
both contributions in both domains. -/
theorem C05_edges [AddCommMagma T] (nr nz os n : Nat) (D : Domains T) (hn : 2 * os ≤ n)
    (hD : ∀ i j, i < nr → j < nz →
      (D i j).WF ∧ (D i j).os = os ∧ (D i j).xs = n ∧ (D i j).ys = n) :
    ∃ D', overlayPass nr nz D = .ok D' ∧
      (∀ i j, i + 1 < nr → j < nz → ∀ (x y : Int) (a b : T),
        -(os : Int) ≤ x → x < os → (os : Int) ≤ y → y < n - os →
        (D i j).get (n + x) y = .ok a → (D (i+1) j).get x y = .ok b →
        (D' i j).get (n + x) y = .ok (a + b) ∧ (D' (i+1) j).get x y = .ok (a + b)) ∧
      (∀ i j, i < nr → j + 1 < nz → ∀ (x y : Int) (a b : T),
        -(os : Int) ≤ y → y < os → (os : Int) ≤ x → x < n - os →
        (D i j).get x (n + y) = .ok a → (D i (j+1)).get x y = .ok b →
        (D' i j).get x (n + y) = .ok (a + b) ∧ (D' i (j+1)).get x y = .ok (a + b)) := by
  have L : Layout D nr nz os (fun _ => n) (fun _ => n) :=
    ⟨fun i j hi hj => (hD i j hi hj).2.1, fun i j hi hj => (hD i j hi hj).2.2.1,
     fun i j hi hj => (hD i j hi hj).2.2.2⟩
  have G : Good nr nz (fun _ => n) (fun _ => n) := Or.inr (Or.inr ⟨fun _ _ => rfl, fun _ _ => rfl⟩)
  have wf : ∀ i j, i < nr → j < nz → (D i j).WF := fun i j hi hj => (hD i j hi hj).1
  refine ⟨_, pass_exists D os _ _ nr nz L G, ?_, ?_⟩
  · intro i j hi hj x y a b h1 h2 h3 h4 ha hb
    exact pass_rows D os _ _ nr nz L G wf (fun _ _ => hn) i j hi hj x y a b h1 h2 (by omega)
      (by omega) (Or.inr ⟨h3, h4⟩) ha hb
  · intro i j hi hj x y a b h1 h2 h3 h4 ha hb
    exact pass_cols D os _ _ nr nz L G wf (fun _ _ => hn) i j hi hj x y a b h1 h2 (by omega)
      (by omega) (Or.inr ⟨h3, h4⟩) ha hb

/-- Test matrix: domain `(i, j)`, all `h × w` with overlay width `os`; each cell
carries a distinguishable number. -/
def demo (os h w : Nat) : Domains Nat := fun i j =>
  ⟨os, h, w, fun r c => 1000000 * i + 10000 * j + 100 * r + c⟩

-- non-vacuity: a chain of five domains of 3 x 4 cells satisfies the hypotheses
example : ∀ i, i < 5 → (demo 1 3 4 i 0).WF ∧ (demo 1 3 4 i 0).os = 1 ∧
    (demo 1 3 4 i 0).ys = 4 ∧ 2 * 1 ≤ (demo 1 3 4 i 0).xs := by
  intro i _; simp [demo, WF, xr, yr]

example : ∀ i j, i < 4 → j < 4 → (demo 2 6 6 i j).WF ∧ (demo 2 6 6 i j).os = 2 ∧
    (demo 2 6 6 i j).xs = 6 ∧ (demo 2 6 6 i j).ys = 6 := by
  intro i j _ _; simp [demo, WF, xr, yr]

/-! The lower bound `2 o_s` on the domain height is needed: with `o_s = 1` and
three domains of one row each, the middle row takes part in two interfaces. -/

/-- Value of a cell after the pass. -/
def after (nr nz : Nat) (D : Domains Nat) (i j : Nat) (x y : Int) : Res Nat :=
  overlayPass nr nz D >>= fun D' => (D' i j).get x y

/-- Ones everywhere: contributions are counted. -/
def ones (os h w : Nat) : Domains Nat := fun _ _ => ⟨os, h, w, fun _ _ => 1⟩

theorem C05_narrow : after 3 1 (ones 1 1 1) 1 0 0 0 ≠ .ok 2 := by decide

/-! ## C06 — the corner where four domains meet

Block position `(x, y)`, `-o_s ≤ x, y < o_s`, around the corner is node
`(n + x, n + y)` of domain `(0, 0)`, `(n + x, y)` of `(0, 1)`, `(x, n + y)` of `(1, 0)` and
`(x, y)` of `(1, 1)`.  It is a logical (owned) cell of exactly one of them:
of `(0,0)` if `x < 0, y < 0`, of `(0,1)` if `x < 0, y ≥ 0`, and so on. -/

/-- The four copies of a corner node hold `(a, b, c, d)`. -/
def Corner (n : Nat) (D : Domains T) (x y : Int) (v : T × T × T × T) : Prop :=
  (D 0 0).get (n + x) (n + y) = .ok v.1 ∧ (D 0 1).get (n + x) y = .ok v.2.1 ∧
  (D 1 0).get x (n + y) = .ok v.2.2.1 ∧ (D 1 1).get x y = .ok v.2.2.2

theorem corner_iff (n os : Nat) (D : Domains T) (hn : 2 * os ≤ n)
    (hD : ∀ i j, i < 2 → j < 2 →
      (D i j).WF ∧ (D i j).os = os ∧ (D i j).xs = n ∧ (D i j).ys = n)
    (x y : Int) (hx : -(os : Int) ≤ x ∧ x < os) (hy : -(os : Int) ≤ y ∧ y < os)
    (m : DLoc → T) (v : T × T × T × T) :
    Corner n (ofMemD D m) x y v ↔ quad n (x + os).toNat (y + os).toNat m = v := by
  have key : ∀ i j, i < 2 → j < 2 → ∀ x' y' : Int,
      (-(os : Int) ≤ x' ∧ x' < n + os) → (-(os : Int) ≤ y' ∧ y' < n + os) →
      (ofMemD D m i j).get x' y' = .ok (m (i, j, (x' + os).toNat, (y' + os).toNat)) := by
    intro i j hi hj x' y' h1 h2
    obtain ⟨w, e1, e2, e3⟩ := hD i j hi hj
    have hin : (D i j).Inside x' y' := by unfold Inside; omega
    rw [get_inside _ (show Grid.WF (ofMemD D m i j) from w) hin]
    simp only [ofMemD, withCell_os, withCell_cell, e1]
  unfold Corner quad
  rw [key 0 0 (by omega) (by omega) _ _ (by omega) (by omega),
    key 0 1 (by omega) (by omega) _ _ (by omega) (by omega),
    key 1 0 (by omega) (by omega) _ _ (by omega) (by omega),
    key 1 1 (by omega) (by omega) _ _ (by omega) (by omega)]
  have k1 : ((n : Int) + x + os).toNat = n + (x + os).toNat := by omega
  have k2 : ((n : Int) + y + os).toNat = n + (y + os).toNat := by omega
  rw [k1, k2]
  obtain ⟨v1, v2, v3, v4⟩ := v
  simp only [Res.ok.injEq, Prod.mk.injEq]

/-- Exactly what the overlay pass leaves in the four copies of a corner node of a
2×2 arrangement of equal square domains, for any overlay width.  `a, b, c, d` are
the contributions of domains `(0,0)`, `(0,1)`, `(1,0)`, `(1,1)`.  The owner's copy is complete
in the quadrants of `(0,0)` and `(1,1)`; in the quadrant of `(0,1)` the contribution
`c` is missing everywhere, in that of `(1,0)` the contribution `b`.
Full statement (false, see `C06_corner_incomplete`): in all quadrants all four
copies hold `a + b + c + d`. -/
theorem C06_corner_partial [AddCommMonoid T] (n os : Nat) (D : Domains T) (hn : 2 * os ≤ n)
    (hD : ∀ i j, i < 2 → j < 2 →
      (D i j).WF ∧ (D i j).os = os ∧ (D i j).xs = n ∧ (D i j).ys = n) :
    ∃ D', overlayPass 2 2 D = .ok D' ∧
      ∀ (x y : Int) (a b c d : T), (-(os : Int) ≤ x ∧ x < os) → (-(os : Int) ≤ y ∧ y < os) →
        Corner n D x y (a, b, c, d) →
        (x < 0 → y < 0 → Corner n D' x y (a + b + c + d, a + b + c, a + c, a + b + c + d)) ∧
        (0 ≤ x → 0 ≤ y → Corner n D' x y (a + d, a + b + d, a + b + c + d, a + b + c + d)) ∧
        (x < 0 → 0 ≤ y → Corner n D' x y (a + b, a + b + d, c, a + b + d)) ∧
        (0 ≤ x → y < 0 → Corner n D' x y (a + c, b, a + c + d, a + c + d)) := by
  have L : Layout D 2 2 os (fun _ => n) (fun _ => n) :=
    ⟨fun i j hi hj => (hD i j hi hj).2.1, fun i j hi hj => (hD i j hi hj).2.2.1,
     fun i j hi hj => (hD i j hi hj).2.2.2⟩
  have G : Good 2 2 (fun _ => n) (fun _ => n) := Or.inr (Or.inr ⟨fun _ _ => rfl, fun _ _ => rfl⟩)
  refine ⟨_, pass_exists D os _ _ 2 2 L G, ?_⟩
  intro x y a b c d hx hy hc
  rw [← ofMemD_self D, corner_iff n os D hn hD x y hx hy] at hc
  simp only [corner_iff n os D hn hD x y hx hy]
  rw [corner22 os n _ _ hn (by omega) (by omega), hc]
  dsimp only
  refine ⟨?_, ?_, ?_, ?_⟩ <;> intro h1 h2
  · rw [if_pos (by omega), if_pos (by omega)]
    rw [add_right_comm a c b]
  · rw [if_neg (by omega), if_neg (by omega)]
    have e1 : b + (a + d) = a + b + d := by rw [← add_assoc, add_comm b a]
    have e2 : c + (b + (a + d)) = a + b + c + d := by
      rw [e1, add_comm c, add_right_comm (a + b) d c]
    rw [e2, e1]
  · rw [if_pos (by omega), if_neg (by omega)]
  · rw [if_neg (by omega), if_pos (by omega)]

/-- A single deposit in the overlay corner of domain `(1, 0)`. -/
def lone : Domains Nat := fun i j =>
  ⟨1, 2, 2, fun r c => if i = 1 ∧ j = 0 ∧ r = 0 ∧ c = 3 then 1 else 0⟩

/-- The full claim fails: with `o_s = 1` and 2×2 domains of 2×2 cells, a deposit
which domain `(1, 0)` made at its overlay node `(-1, 2)` belongs to node `(1, 0)` of
domain `(0, 1)`, but never arrives there; and even where the owner gets the total,
the other copies do not (all contributions 1: 4 with the owner, 3 and 2 elsewhere). -/
theorem C06_corner_incomplete :
    Corner 2 lone (-1) 0 (0, 0, 1, 0) ∧ after 2 2 lone 0 1 1 0 = .ok 0 ∧
    Corner 2 (ones 1 2 2) (-1) (-1) (1, 1, 1, 1) ∧
    after 2 2 (ones 1 2 2) 0 0 1 1 = .ok 4 ∧
    after 2 2 (ones 1 2 2) 0 1 1 (-1) = .ok 3 ∧
    after 2 2 (ones 1 2 2) 1 0 (-1) 1 = .ok 2 := by
  unfold Corner
  decide

-- non-vacuity of the hypotheses of `C06_corner_partial`, on the same data
example : ∀ i j, i < 2 → j < 2 → (lone i j).WF ∧ (lone i j).os = 1 ∧
    (lone i j).xs = 2 ∧ (lone i j).ys = 2 := by
  intro i j _ _; simp [lone, WF, xr, yr]

/-- In a two-dimensional arrangement of domains which are not square the pass
is undefined behaviour (the diagonal exchange indexes outside). -/
theorem C06_nonsquare_ub : overlayPass 2 2 (ones 1 4 2) = .ub := by rfl

end SMB
end Pico
