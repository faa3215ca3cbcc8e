import Verif.Model.SMB
import Verif.Spec.Grid
import Mathlib.Algebra.BigOperators.Group.Finset.Basic

/-! Specification vocabulary for areas divided into equal domains: the copies of a node that the domains hold. -/

namespace Pico
namespace SMB

variable {T : Type _} [AddCommMonoid T]

open Classical in
/-- The copy of node `(X, Y)` of the whole area that domain `(a, b)` holds, in its cells or in its overlay; 0 if it holds none.
All domains are `h × w`. -/
noncomputable def held (D : Domains T) (h w a b : Nat) (X Y : Int) : T :=
  if (D a b).Inside (X - a * h) (Y - b * w) then
    (D a b).cell (X - a * h + (D a b).os).toNat (Y - b * w + (D a b).os).toNat
  else 0

/-- All copies of a node added up. -/
noncomputable def allHeld (D : Domains T) (nr nz h w : Nat) (X Y : Int) : T :=
  ∑ a ∈ Finset.range nr, ∑ b ∈ Finset.range nz, held D h w a b X Y

/-- The copies in the two domains that touch domain `(i, j)` at its lower right and at its upper left corner. -/
noncomputable def antidiagonal (D : Domains T) (nr nz h w i j : Nat) (X Y : Int) : T :=
  (if i + 1 < nr ∧ 0 < j then held D h w (i+1) (j-1) X Y else 0) +
  (if 0 < i ∧ j + 1 < nz then held D h w (i-1) (j+1) X Y else 0)

end SMB
end Pico
