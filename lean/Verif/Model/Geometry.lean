import Verif.Model.Base
import Mathlib.Algebra.Order.Floor.Ring
import Mathlib.Algebra.Order.Field.Basic

/-!
# Geometry of a domain and the geometry macros  (`/repo/include/geometry.hpp`)

`double` is an ordered field `K` with floor; `constant::PI` is a parameter `pi`.
-/

namespace Pico

/-- The part of `Geometry` used by the particle and field code of one domain:
`cell_size`, `cell_dims[0..1]`, `cell_amount`; `/repo/include/geometry.hpp:30-46`. -/
structure Geom (K : Type _) where
  dr : K
  dz : K
  r0 : Nat
  z0 : Nat
  nr : Nat
  nz : Nat

section
variable {K : Type _} [Field K] [LinearOrder K] [IsStrictOrderedRing K] [FloorRing K]

/-- `CELL_VOLUME(i, dr, dz)` where the macro argument is the plain token `i`,
`/repo/include/geometry.hpp:186`. -/
def cellVolume (pi : K) (i : K) (dr dz : K) : K := pi * dz * dr * dr * (2 * i + 1)

/-- `CELL_VOLUME(i + 1, dr, dz)`: the macro does not parenthesise its argument, so the
text `2.0 * i + 1 + 1` results, `/repo/include/geometry.hpp:186`. -/
def cellVolumeNext (pi : K) (i : K) (dr dz : K) : K := pi * dz * dr * dr * (2 * i + 1 + 1)

/-- `CYL_RNG_VOL(z, r1, r2)`, `/repo/include/geometry.hpp:189`. -/
def cylRngVol (pi z r1 r2 : K) : K := pi * z * (r2 * r2 - r1 * r1)

/-- `CYL_VOL(z, r)`, `/repo/include/geometry.hpp:193`. -/
def cylVol (pi z r : K) : K := pi * z * r * r

/-- `CELL_NUMBER(position, dx)`, `/repo/include/geometry.hpp:198`: conversion of a
`double` outside the range of `int` is undefined. -/
def cellNumber (pos dx : K) : Res Int :=
  let n := ⌊pos / dx⌋
  if -2 ^ 31 ≤ n ∧ n < 2 ^ 31 then .ok n else .ub

/-- Conversion `int` to `unsigned int`. -/
def toU32 (n : Int) : Nat := (n % 2 ^ 32).toNat

end
end Pico
