import Verif.Model.Weighter
import Verif.Spec.Weighting
import Verif.Lemmas.Added
import Mathlib.Tactic.Linarith
import Mathlib.Tactic.FieldSimp
import Mathlib.Tactic.Ring
import Mathlib.Tactic.Positivity

set_option linter.unusedSimpArgs false
set_option linter.unusedVariables false

namespace Pico

variable {K : Type _} [Field K] [LinearOrder K] [IsStrictOrderedRing K] [FloorRing K]

/-- Cell number of a coordinate between `a*dx` and `(a+n)*dx`. -/
theorem cellNumber_in {pos dx : K} (hdx : 0 < dx) {a n : Nat} (hn : a + n < 2 ^ 31)
    (lo : (a : K) * dx ≤ pos) (hi : pos < ((a + n : Nat) : K) * dx) :
    ∃ i : Nat, cellNumber pos dx = .ok (i : Int) ∧ a ≤ i ∧ i < a + n ∧ toU32 (i : Int) = i ∧
      (i : K) * dx ≤ pos ∧ pos < ((i : K) + 1) * dx ∧ ⌊pos / dx⌋ = (i : Int) := by
  have h1 : (a : K) ≤ pos / dx := (le_div_iff₀ hdx).mpr lo
  have h2 : pos / dx < ((a + n : Nat) : K) := (div_lt_iff₀ hdx).mpr hi
  have f1 : (a : Int) ≤ ⌊pos / dx⌋ := Int.le_floor.mpr (by push_cast; exact h1)
  have f2 : ⌊pos / dx⌋ < ((a + n : Nat) : Int) := Int.floor_lt.mpr (by push_cast at h2 ⊢; exact h2)
  obtain ⟨i, hi⟩ : ∃ i : Nat, ⌊pos / dx⌋ = (i : Int) := ⟨⌊pos / dx⌋.toNat, by omega⟩
  refine ⟨i, ?_, by omega, by omega, ?_, ?_, ?_, hi⟩
  · unfold cellNumber
    dsimp only
    rw [hi, if_pos (by omega)]
  · unfold toU32
    omega
  · have := Int.floor_le (pos / dx)
    rw [hi] at this
    push_cast at this
    exact (le_div_iff₀ hdx).mp this
  · have := Int.lt_floor_add_one (pos / dx)
    rw [hi] at this
    push_cast at this
    exact (div_lt_iff₀ hdx).mp this

/-- The contribution of one deposit with lower cell `(i, k)`. -/
def Deposit.δ (d : Deposit K) (i k : Int) : Int → Int → K := fun x y =>
  Grid.single i k d.d00 x y + Grid.single (i + 1) k d.d10 x y + Grid.single i (k + 1) d.d01 x y +
    Grid.single (i + 1) (k + 1) d.d11 x y

/-- What `weight_cylindrical` does for a particle in the domain. -/
theorem weightCyl_added (pi : K) (g : Geom K) (G : g.Good) (m : Grid K) (M : g.MapOf m) {r z : K}
    (C : g.Contains r z) (w : K) :
    ∃ i k : Nat, (g.r0 ≤ i ∧ i < g.r0 + g.nr) ∧ (g.z0 ≤ k ∧ k < g.z0 + g.nz) ∧
      ((i : K) * g.dr ≤ r ∧ r < ((i : K) + 1) * g.dr) ∧ ((k : K) * g.dz ≤ z ∧ z < ((k : K) + 1) * g.dz) ∧
      ∃ m', weightCyl pi g m r z w = .ok m' ∧
        m.Added m' ((depositOf pi g r z w i k).δ ((i : Int) - g.r0) ((k : Int) - g.z0)) := by
  obtain ⟨i, ei, i1, i2, ui, i3, i4, _⟩ := cellNumber_in G.dr G.nr C.rlo C.rhi
  obtain ⟨k, ek, k1, k2, uk, k3, k4, _⟩ := cellNumber_in G.dz G.nz C.zlo C.zhi
  refine ⟨i, k, ⟨i1, i2⟩, ⟨k1, k2⟩, ⟨i3, i4⟩, ⟨k3, k4⟩, ?_⟩
  obtain ⟨wf, hxs, hys, hos⟩ := M
  have hin : ∀ x y : Int, (x = (i : Int) - g.r0 ∨ x = (i : Int) - g.r0 + 1) →
      (y = (k : Int) - g.z0 ∨ y = (k : Int) - g.z0 + 1) → m.Inside x y := by
    intro x y hx hy
    unfold Grid.Inside
    rw [hxs, hys]
    omega
  have in1 := hin ((i : Int) - g.r0) ((k : Int) - g.z0) (Or.inl rfl) (Or.inl rfl)
  have in2 := hin ((i : Int) - g.r0 + 1) ((k : Int) - g.z0) (Or.inr rfl) (Or.inl rfl)
  have in3 := hin ((i : Int) - g.r0) ((k : Int) - g.z0 + 1) (Or.inl rfl) (Or.inr rfl)
  have in4 := hin ((i : Int) - g.r0 + 1) ((k : Int) - g.z0 + 1) (Or.inr rfl) (Or.inr rfl)
  unfold weightCyl
  rw [ei, Res.ok_bind, ek, Res.ok_bind, ui, uk]
  dsimp only
  generalize depositOf pi g r z w i k = d
  obtain ⟨m1, e1, a1⟩ := Grid.inc_added m wf in1 d.d00
  have wf1 := a1.1.wf wf
  obtain ⟨m2, e2, a2⟩ := Grid.inc_added m1 wf1 ((a1.1.inside _ _).mpr in2) d.d10
  have s2 := a1.1.trans a2.1
  obtain ⟨m3, e3, a3⟩ := Grid.inc_added m2 (s2.wf wf) ((s2.inside _ _).mpr in3) d.d01
  have s3 := s2.trans a3.1
  obtain ⟨m4, e4, a4⟩ := Grid.inc_added m3 (s3.wf wf) ((s3.inside _ _).mpr in4) d.d11
  rw [e1, Res.ok_bind, e2, Res.ok_bind, e3, Res.ok_bind, e4]
  exact ⟨m4, rfl, ((a1.trans a2).trans a3).trans a4⟩

end Pico
