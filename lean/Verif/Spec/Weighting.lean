import Verif.Model.Geometry
import Verif.Model.Grid

/-! Specification of weighting: a macroparticle is a ring of the size of a cell centred at the
particle; a node gets the part of it that lies in the node's cell. -/

namespace Pico

variable {K : Type _} [Field K] [LinearOrder K] [IsStrictOrderedRing K] [FloorRing K]

/-- Sane geometry: positive cell sizes, cell numbers in the range of `int`. -/
structure Geom.Good (g : Geom K) : Prop where
  dr : 0 < g.dr
  dz : 0 < g.dz
  nr : g.r0 + g.nr < 2 ^ 31
  nz : g.z0 + g.nz < 2 ^ 31

/-- The point lies in the domain. -/
structure Geom.Contains (g : Geom K) (r z : K) : Prop where
  rlo : (g.r0 : K) * g.dr ≤ r
  rhi : r < ((g.r0 + g.nr : Nat) : K) * g.dr
  zlo : (g.z0 : K) * g.dz ≤ z
  zhi : z < ((g.z0 + g.nz : Nat) : K) * g.dz

/-- `m` is a map over the domain with at least one overlay cell around. -/
structure Geom.MapOf (g : Geom K) (m : Grid K) : Prop where
  wf : m.WF
  xs : m.xs = g.nr
  ys : m.ys = g.nz
  os : 1 ≤ m.os

/-- Square-radius extent shared by the ring `[r - dr/2, r + dr/2]` and the cell
`[(j - 1/2) dr, (j + 1/2) dr]` of node `j`. -/
def ringShare (dr r : K) (j : K) : K :=
  max 0 (min (r + dr / 2) ((j + 1/2) * dr) ^ 2 - max (r - dr / 2) ((j - 1/2) * dr) ^ 2)

/-- Length shared by `[z - dz/2, z + dz/2]` and the cell of node `j`. -/
def lineShare (dz z : K) (j : K) : K :=
  max 0 (min (z + dz / 2) ((j + 1/2) * dz) - max (z - dz / 2) ((j - 1/2) * dz))

/-- Volume of the ring between `(j-1/2) dr` and `(j+1/2) dr`. -/
def nodeRing (pi dr dz : K) (j : K) : K := pi * dz * (((j + 1/2) * dr) ^ 2 - ((j - 1/2) * dr) ^ 2)

/-- Volume of the ring between `j dr` and `(j+1) dr`. -/
def cellRing (pi dr dz : K) (j : K) : K := pi * dz * (((j + 1) * dr) ^ 2 - (j * dr) ^ 2)

end Pico
