import Verif.Model.Placement

/-! Vocabulary of property C113: a division of the place where particles are put into boxes of equal content. -/

namespace Pico
namespace Place

open _root_.Pico.Part

/-- Number of physical particles, per unit of cross section, between the left end and the distance `x` from it, of a density that grows
linearly from `d0` to `d1` over the length `L`. -/
noncomputable def content (d0 d1 L x : ℝ) : ℝ := d0 * x + (d1 - d0) / L * x ^ 2 / 2

/-- Radial and axial size of the place for particles: the size of the domain, less a cell at an outer or right wall. -/
noncomputable def placeR (g : Geom ℝ) (w : Walls) : ℝ := (if w.r1 then (g.nr : ℝ) - 1 else g.nr) * g.dr
noncomputable def placeZ (g : Geom ℝ) (w : Walls) : ℝ := (if w.z1 then (g.nz : ℝ) - 1 else g.nz) * g.dz

/-- The particle stands in slice number `s` of `A` slices of equal radial size and in slice number `t` of `B` slices of equal content
in axial direction.  The place begins half a cell from the edges of the domain. -/
def InBox (g : Geom ℝ) (w : Walls) (d0 d1 : ℝ) (A B s t : Nat) (p : Part ℝ) : Prop :=
  let x := p.posR - (g.r0 + 1 / 2) * g.dr
  let y := p.posZ - (g.z0 + 1 / 2) * g.dz
  (s * placeR g w ≤ A * x ∧ A * x < (s + 1) * placeR g w) ∧
  (t * content d0 d1 (placeZ g w) (placeZ g w) ≤ B * content d0 d1 (placeZ g w) y ∧
    B * content d0 d1 (placeZ g w) y < (t + 1) * content d0 d1 (placeZ g w) (placeZ g w))

end Place
end Pico
