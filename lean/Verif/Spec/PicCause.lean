import Verif.Spec.PicSame

/-! Specification vocabulary: two simulations that agree in some columns of the chamber. -/

namespace Pico
namespace Pic

open SMB Yee

/-- The simulation without division in a chamber of `n` columns. -/
def Env.long (E : Env) (n : Nat) : Env := { E with p := { E.p with nz := n }, domR := 1, domZ := 1 }

/-- The particle is in one of the columns `lo … hi`. -/
def Between (lo hi : Int) (a : Part ℝ) : Prop := lo ≤ a.cellZ ∧ (a.cellZ : Int) ≤ hi

/-- The simulations `S` and `T` (undivided, chambers of `n` columns) agree in the columns `lo … hi`: the same fields there (with the
overlay), the same currents and media in the cells, the same particles of every species, each with the same state. -/
structure Alike (E : Env) (ids : List Nat) (n : Nat) (lo hi : Int) (S T : State) : Prop where
  fields : ∀ (c : Yee.Comp) (x y : Int), c.isSource = false → (-2 ≤ x ∧ x < E.p.nr + 2) → (-2 ≤ y ∧ y < n + 2) → lo ≤ y → y ≤ hi → S.M 0 0 c x y = T.M 0 0 c x y
  sources : ∀ (c : Yee.Comp) (x y : Int), c.isSource = true → (0 ≤ x ∧ x < E.p.nr) → (0 ≤ y ∧ y < n) → lo ≤ y → y ≤ hi → S.M 0 0 c x y = T.M 0 0 c x y
  lists : ∀ id ∈ ids, ∀ t, (t ∈ tagsOf E.whole S.D id ∧ Between lo hi (S.heap t)) ↔ (t ∈ tagsOf E.whole T.D id ∧ Between lo hi (T.heap t))
  heap : ∀ id ∈ ids, ∀ t ∈ tagsOf E.whole S.D id, Between lo hi (S.heap t) → S.heap t = T.heap t

/-- The columns up to `hi` end before the right wall of both chambers, or the chambers have the same length. -/
def Reaches (n n' : Nat) (hi : Int) : Prop := n = n' ∨ (hi + 2 ≤ n ∧ hi + 2 ≤ n')

end Pic
end Pico
