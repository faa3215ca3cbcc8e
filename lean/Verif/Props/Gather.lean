import Verif.Lemmas.Gather
import Verif.Props.Overlay

/-!
# C06 — every cell after an overlay pass

The whole pass over any number of domains: what the cell that owns a node holds afterwards, compared with the sum of all copies
of the node that the domains held before.
-/

set_option linter.unusedSimpArgs false
set_option linter.unusedVariables false

namespace Pico
namespace SMB

open Grid

variable {T : Type _} [AddCommMonoid T]

/-- C06 for every cell of every domain: after the pass the cell holds the sum of all copies of its node but for the copies
that the two domains at its lower right and upper left corner had.  Full statement (false, see `C06_lost`): the sum of all
copies. -/
theorem C06_cells_partial (nr nz h w os : Nat) (D : Domains T) (ho : os ≤ h) (ho' : os ≤ w) (G : nr ≤ 1 ∨ nz ≤ 1 ∨ h = w)
    (hD : ∀ i j, i < nr → j < nz → (D i j).WF ∧ (D i j).os = os ∧ (D i j).xs = h ∧ (D i j).ys = w) :
    ∃ D', overlayPass nr nz D = .ok D' ∧ ∀ i j, i < nr → j < nz → ∀ x y : Int, 0 ≤ x → x < h → 0 ≤ y → y < w →
      ∃ v, (D' i j).get x y = .ok v ∧
        v + antidiagonal D nr nz h w i j (i * h + x) (j * w + y) = allHeld D nr nz h w (i * h + x) (j * w + y) := by
  have L : Layout D nr nz os (fun _ => h) (fun _ => w) := ⟨fun i j a b => (hD i j a b).2.1, fun i j a b => (hD i j a b).2.2.1,
    fun i j a b => (hD i j a b).2.2.2⟩
  have G' : Good nr nz (fun _ => h) (fun _ => w) := by
    rcases G with g | g | g
    · exact Or.inl g
    · exact Or.inr (Or.inl g)
    · exact Or.inr (Or.inr ⟨fun _ _ => rfl, fun _ _ => g.symm⟩)
  refine ⟨_, pass_exists D os _ _ nr nz L G', ?_⟩
  intro i j hi hj x y h1 h2 h3 h4
  obtain ⟨wf, e1, e2, e3⟩ := hD i j hi hj
  have in1 : (D i j).Inside x y := by unfold Inside; omega
  refine ⟨_, get_inside _ (show Grid.WF (ofMemD D _ i j) from wf) in1, ?_⟩
  rw [allHeld_eq D nr nz h w os L G ho ho' i j hi hj x y ⟨h1, h2⟩ ⟨h3, h4⟩]
  congr 1
  show _ = _
  simp only [ofMemD, withCell_os, withCell_cell, e1]
  exact pass_cells os _ _ nr nz G' (fun _ _ => ho) (fun _ _ => ho') _ (nodup_sweep nr nz) (fun p => mem_sweep) _ i j _ _ hi hj
    (by omega) (by omega)

/-- C06 fails in general: whenever the domain at the lower right or at the upper left corner holds something for a node of
domain `(i, j)`, the node does not get the sum of all copies. -/
theorem C06_lost {T : Type _} [AddCommGroup T] (nr nz h w os : Nat) (D : Domains T) (ho : os ≤ h) (ho' : os ≤ w)
    (G : nr ≤ 1 ∨ nz ≤ 1 ∨ h = w)
    (hD : ∀ i j, i < nr → j < nz → (D i j).WF ∧ (D i j).os = os ∧ (D i j).xs = h ∧ (D i j).ys = w)
    (i j : Nat) (hi : i < nr) (hj : j < nz) (x y : Int) (h1 : 0 ≤ x) (h2 : x < h) (h3 : 0 ≤ y) (h4 : y < w)
    (hne : antidiagonal D nr nz h w i j (i * h + x) (j * w + y) ≠ 0) :
    ∃ D', overlayPass nr nz D = .ok D' ∧ (D' i j).get x y ≠ .ok (allHeld D nr nz h w (i * h + x) (j * w + y)) := by
  obtain ⟨D', e, k⟩ := C06_cells_partial nr nz h w os D ho ho' G hD
  obtain ⟨v, e2, s⟩ := k i j hi hj x y h1 h2 h3 h4
  refine ⟨D', e, ?_⟩
  rw [e2, ← s]
  intro c
  have := Res.ok.inj c
  exact hne (by simpa using this)

/-! ## Instances -/

theorem ones_shape (v : Int) (nr nz n os : Nat) (h : n + 2 * os < 2 ^ 31) (i j : Nat) (_ : i < nr) (_ : j < nz) :
    ((fun _ _ => ⟨os, n, n, fun _ _ => v⟩ : Domains Int) i j).WF ∧ ((fun _ _ => ⟨os, n, n, fun _ _ => v⟩ : Domains Int) i j).os = os ∧
    ((fun _ _ => ⟨os, n, n, fun _ _ => v⟩ : Domains Int) i j).xs = n ∧ ((fun _ _ => ⟨os, n, n, fun _ _ => v⟩ : Domains Int) i j).ys = n := by
  refine ⟨?_, rfl, rfl, rfl⟩
  unfold Grid.WF Grid.xr Grid.yr
  dsimp only
  omega

-- three by four domains of five by five cells full of ones, overlay 2
example := C06_cells_partial 3 4 5 5 2 (fun _ _ => ⟨2, 5, 5, fun _ _ => (1 : Int)⟩) (by omega) (by omega) (Or.inr (Or.inr rfl))
  (ones_shape 1 3 4 5 2 (by omega))
-- the last row and first column of domain (0, 1)
example := C06_lost 3 4 5 5 2 (fun _ _ => ⟨2, 5, 5, fun _ _ => (1 : Int)⟩) (by omega) (by omega) (Or.inr (Or.inr rfl))
  (ones_shape 1 3 4 5 2 (by omega)) 0 1 (by omega) (by omega) 4 0 (by omega) (by omega) (by omega) (by omega) (by
    unfold antidiagonal held
    simp [Grid.Inside])

end SMB
end Pico
