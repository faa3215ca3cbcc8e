import Verif.Model.Placement

/-! Specification of initial placement: amounts of physical particles, regions. -/

namespace Pico
namespace Place

open _root_.Pico.Part

variable {K : Type _} [Field K]

/-- Volume of the domain: a cylinder ring of `nr` by `nz` cells. -/
def domainVolume (pi : K) (g : Geom K) : K :=
  pi * ((((g.r0 + g.nr : Nat) : K) * g.dr) ^ 2 - ((g.r0 : K) * g.dr) ^ 2) * ((g.nz : K) * g.dz)

/-- Amount of physical particles in a volume along which the density changes linearly from `d0` to `d1`. -/
def physAmount (d0 d1 vol : K) : K := (d0 + d1) / 2 * vol

/-- Volume a particle at the radius `r` stands for: the ring of one cell's width and length around its circle; closer
than half a cell to the axis, where there is no such ring, the cylinder inside its circle. -/
def OwnVolume (pi : K) (g : Geom K) [LinearOrder K] (r v : K) : Prop :=
  (g.dr / 2 < r → v = pi * ((r + g.dr / 2) ^ 2 - (r - g.dr / 2) ^ 2) * g.dz) ∧ (r ≤ g.dr / 2 → v = pi * r ^ 2 * g.dz)

/-- Sum of the weights of a list of macroparticles. -/
def totalWeight (ps : List (Part K)) : K := (ps.map Part.weight).sum

end Place
end Pico
