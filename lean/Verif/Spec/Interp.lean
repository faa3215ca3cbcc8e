import Verif.Spec.Weighting
import Verif.Model.Yee
import Mathlib.Algebra.BigOperators.Group.Finset.Basic
import Mathlib.Order.Interval.Finset.Basic
import Mathlib.Data.Int.Interval

/-! Specification of the field seen by a particle: the particle is a ring of one cell size; a node of a
field component gets a weight according to the part of this ring in the node's cell. -/

namespace Pico
namespace Interp

variable {K : Type _} [Field K] [LinearOrder K] [IsStrictOrderedRing K] [FloorRing K]

/-- Weight of the node `(a, b)` of the whole area for a component whose nodes are at
`((a + α) dr, (b + β) dz)`: the volume shared by the particle's ring and the node's cell, divided by the
volume of the ring `[(a + α) dr, (a + α + 1) dr]` of one cell length.  No nodes beyond the axis. -/
def seenWeight (g : Geom K) (α β r z : K) (a b : Int) : K :=
  if 0 ≤ a then
    ringShare g.dr r ((a : K) + α) * lineShare g.dz z ((b : K) + β) /
      ((((((a : K) + α + 1) * g.dr) ^ 2 - (((a : K) + α) * g.dr) ^ 2)) * g.dz)
  else 0

/-- Weighted sum of a field component over all nodes of the domain. -/
def seen (g : Geom K) (α β : K) (f : Int → Int → K) (r z : K) : K :=
  ∑ a ∈ Finset.Icc (-2 : Int) (g.nr + 1), ∑ b ∈ Finset.Icc (-2 : Int) (g.nz + 1),
    seenWeight g α β r z (a + g.r0) (b + g.z0) * f a b

end Interp
end Pico
