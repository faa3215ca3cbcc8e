import Verif.Spec.Current

/-! Specification of charge continuity for linear (triangle) weighting on a grid of rectangles. -/

namespace Pico
namespace ZigZag

open Yee VB

variable {K : Type _} [Field K] [LinearOrder K] [IsStrictOrderedRing K] [FloorRing K]

/-- Share of a particle at `x` (in cells) that belongs to the node `n`: falls linearly from 1 to 0 over one cell. -/
def hat (x : K) (n : Int) : K := max 0 (1 - |x - n|)

/-- Charge at the node `(a, b)` of the whole area of a particle of charge `q` at `(r, z)`. -/
def linCharge (g : Geom K) (q r z : K) (a b : Int) : K := q * hat (r / g.dr) a * hat (z / g.dz) b

/-- Difference form of the divergence of the currents at the local node `(a, b)`; `J .jr a b` belongs to the
middle between the nodes `(a, b)` and `(a + 1, b)`, `J .jz a b` to the middle between `(a, b)` and `(a, b + 1)`. -/
def div (g : Geom K) (J : Comp → Int → Int → K) (a b : Int) : K :=
  (J .jr a b - J .jr (a - 1) b) / g.dr + (J .jz a b - J .jz a (b - 1)) / g.dz

/-- Continuity equation: the charge density (charge per volume `vol`) at every node changes by what flows in. -/
def LinContinuity (g : Geom K) (dt vol q rNew zNew rOld zOld : K) (J : Comp → Int → Int → K) : Prop :=
  ∀ a b : Int,
    linCharge g q rNew zNew (a + g.r0) (b + g.z0) / vol - linCharge g q rOld zOld (a + g.r0) (b + g.z0) / vol =
      - dt * div g J a b

end ZigZag
end Pico
