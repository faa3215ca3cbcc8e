import Verif.Model.CurrentVB
import Verif.Spec.Weighting
import Mathlib.Algebra.BigOperators.Group.Finset.Basic
import Mathlib.Order.Interval.Finset.Basic
import Mathlib.Data.Int.Interval

/-! Specification of charge conservation: charge at the nodes, current through the faces of the
cell of a node, continuity equation. -/

namespace Pico
namespace VB

open Yee

variable {K : Type _} [Field K] [LinearOrder K] [IsStrictOrderedRing K] [FloorRing K]

/-- Charge that a macroparticle of charge `q` at `(r, z)` has in the cell of the node `(a, b)` of the
whole area: the particle is a ring of one cell size centred at `(r, z)` with uniform density. -/
def nodeCharge (g : Geom K) (q r z : K) (a b : Int) : K :=
  q * (ringShare g.dr r a / (2 * r * g.dr)) * (lineShare g.dz z b / g.dz)

/-- Area of the outer radial face of the cell of node row `a`, the cylinder of radius
`(a + 1/2) dr`. -/
def faceR (pi : K) (g : Geom K) (a : Int) : K := 2 * pi * max 0 (((a : K) + 1/2) * g.dr) * g.dz

/-- Area of the axial faces of the cell of node row `a`: the ring from `(a - 1/2) dr` (or the axis)
to `(a + 1/2) dr`. -/
def faceZ (pi : K) (g : Geom K) (a : Int) : K :=
  pi * ((((a : K) + 1/2) * g.dr) ^ 2 - (max 0 (((a : K) - 1/2) * g.dr)) ^ 2)

/-- Net current out of the cell of the (domain local) node `(a, b)`. -/
def outflow (pi : K) (g : Geom K) (J : Comp → Int → Int → K) (a b : Int) : K :=
  faceR pi g (a + g.r0) * J .jr a b - faceR pi g (a + g.r0 - 1) * J .jr (a - 1) b +
    (faceZ pi g (a + g.r0) * J .jz a b - faceZ pi g (a + g.r0) * J .jz a (b - 1))

/-- Continuity equation between the currents `J` and the move of a charge. -/
def Continuity (pi dt : K) (g : Geom K) (q rNew zNew rOld zOld : K) (J : Comp → Int → Int → K) : Prop :=
  ∀ a b : Int, 0 ≤ a + g.r0 →
    nodeCharge g q rNew zNew (a + g.r0) (b + g.z0) - nodeCharge g q rOld zOld (a + g.r0) (b + g.z0) =
      - dt * outflow pi g J a b

/-- Total axial current of the domain: through every axial face of every cell of the grids. -/
def axialTotal (pi : K) (g : Geom K) (J : Comp → Int → Int → K) : K :=
  ∑ a ∈ Finset.Icc (-2 : Int) (g.nr + 1), ∑ b ∈ Finset.Icc (-2 : Int) (g.nz + 1), faceZ pi g (a + g.r0) * J .jz a b

/-- Sum of one component over all allocated nodes. -/
def gridTotal (g : Geom K) (J : Comp → Int → Int → K) (c : Comp) : K :=
  ∑ a ∈ Finset.Icc (-2 : Int) (g.nr + 1), ∑ b ∈ Finset.Icc (-2 : Int) (g.nz + 1), J c a b

/-- Sane surroundings. -/
structure Ctx.Good (x : Ctx K) : Prop where
  geo : x.g.Good
  dt : 0 < x.dt
  pi : 0 < x.pi
  mnzl : 0 < x.mnzl

/-- Radial position at the fraction `t` of the way. -/
def Part.rAt (p : Part K) (t : K) : K := p.rOld + t * (p.r - p.rOld)
/-- Axial position at the fraction `t` of the way. -/
def Part.zAt (p : Part K) (t : K) : K := p.zOld + t * (p.z - p.zOld)

/-- On a radial border between cells. -/
def OnR (g : Geom K) (r : K) : Prop := ∃ n : Int, r = (n : K) * g.dr
/-- On an axial border between cells. -/
def OnZ (g : Geom K) (z : K) : Prop := ∃ n : Int, z = (n : K) * g.dz

/-- A particle whose new position is in the domain, whose cell numbers belong to its new position,
and that comes from a place off the axis. -/
structure Part.Bound (g : Geom K) (p : Part K) : Prop where
  new : g.Contains p.r p.z
  rpos : 0 < p.r
  rOldPos : 0 < p.rOld
  cellR : p.cellR = ⌊p.r / g.dr⌋
  cellZ : p.cellZ = ⌊p.z / g.dz⌋

/-- Start and end are in the same cell. -/
def Part.SameCell (g : Geom K) (p : Part K) : Prop :=
  ⌊p.rOld / g.dr⌋ = ⌊p.r / g.dr⌋ ∧ ⌊p.zOld / g.dz⌋ = ⌊p.z / g.dz⌋

/-- Start and end are in the same or in neighbouring cells. -/
def Part.NearCell (g : Geom K) (p : Part K) : Prop :=
  (⌊p.rOld / g.dr⌋ - 1 ≤ ⌊p.r / g.dr⌋ ∧ ⌊p.r / g.dr⌋ ≤ ⌊p.rOld / g.dr⌋ + 1) ∧
  (⌊p.zOld / g.dz⌋ - 1 ≤ ⌊p.z / g.dz⌋ ∧ ⌊p.z / g.dz⌋ ≤ ⌊p.zOld / g.dz⌋ + 1)

/-- In each direction the particle stays exactly where it is or moves by at least `mnzl`. -/
def Part.Plain (mnzl : K) (p : Part K) : Prop :=
  (p.r = p.rOld ∨ mnzl ≤ |p.r - p.rOld|) ∧ (p.z = p.zOld ∨ mnzl ≤ |p.z - p.zOld|)

/-- The path of the particle is in general position: it does not start on a cell border, does not
pass through a corner of a cell, and start, end and border crossings are at least `mnzl` apart from
each other in both directions. -/
structure Part.General (g : Geom K) (mnzl : K) (p : Part K) : Prop where
  start : ¬ OnR g p.rOld ∧ ¬ OnZ g p.zOld
  corner : ∀ t, 0 ≤ t → t ≤ 1 → ¬ (OnR g (p.rAt t) ∧ OnZ g (p.zAt t))
  apart : ∀ s t, 0 ≤ s → s < t → t ≤ 1 →
    (s = 0 ∨ OnR g (p.rAt s) ∨ OnZ g (p.zAt s)) → (t = 1 ∨ OnR g (p.rAt t) ∨ OnZ g (p.zAt t)) →
    mnzl ≤ |p.rAt t - p.rAt s| ∧ mnzl ≤ |p.zAt t - p.zAt s|

end VB
end Pico
