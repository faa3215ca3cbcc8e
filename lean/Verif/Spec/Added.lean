import Verif.Spec.Grid
import Mathlib.Algebra.Group.Basic

/-! What it means to add a contribution to a grid, in terms of the API only. -/

namespace Pico
namespace Grid

variable {T : Type _}

/-- `h` is `g` with `δ x y` added in every allocated cell. -/
def Added [Add T] (g h : Grid T) (δ : Int → Int → T) : Prop :=
  SameShape g h ∧ ∀ (x y : Int) (a : T), g.Inside x y → g.get x y = .ok a →
    h.get x y = .ok (a + δ x y)

/-- The contribution `v` to the single cell `(x, y)`. -/
def single [Zero T] (x y : Int) (v : T) : Int → Int → T :=
  fun a b => if a = x ∧ b = y then v else 0

end Grid
end Pico
