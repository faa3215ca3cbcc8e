import Verif.Model.Beam

/-! What a user configures: the times of the bunches of a beam. -/

namespace Pico
namespace Beam

variable {K : Type _} [Field K] [LinearOrder K]

/-- Bunch `k` enters the chamber at `bunchStart k` and has entered at `bunchEnd k`: bunches of the given length follow
each other at the given distance with the beam's velocity. -/
def bunchStart (b : Conf K) (k : Nat) : K := b.start + k * (b.length / b.velocity + b.distance / b.velocity)
def bunchEnd (b : Conf K) (k : Nat) : K := bunchStart b k + b.length / b.velocity

/-- At time `t` bunch `k` is entering. -/
def Entering (b : Conf K) (k : Nat) (t : K) : Prop := k < b.bunches ∧ bunchStart b k ≤ t ∧ t < bunchEnd b k

/-- A physically meaningful configuration. -/
structure Conf.Good (b : Conf K) : Prop where
  start : 0 ≤ b.start
  radius : 0 < b.radius
  length : 0 < b.length
  distance : 0 ≤ b.distance
  velocity : 0 < b.velocity
  bunches : 1 ≤ b.bunches
  amount : 1 ≤ b.amount

/-- Outer edge of the part of the beam that lies in a domain. -/
def beamEdge (b : Conf K) (g : Geom K) : K := min b.radius (((g.r0 + g.nr : Nat) : K) * g.dr)

/-- Macroparticles of one bunch that enter in the domain per step, before rounding up: the bunch's share of the
macroparticles, the domain's share of the beam's radius, the step's share of the bunch's length. -/
def macroPerStep (b : Conf K) (g : Geom K) (dt : K) : K :=
  ((b.amount / b.bunches : Nat) : K) * ((beamEdge b g - g.r0 * g.dr) / b.radius) * (dt / (b.length / b.velocity))

/-- A particle as the beam injects it. -/
structure Fresh (b : Conf K) (g : Geom K) (dt : K) (p : Part K) : Prop where
  id : p.specieId = b.id
  velR : p.velR = 0
  velPhi : p.velPhi = 0
  velZ : p.velZ = b.velocity
  phi : p.posPhi = 0
  weight : 0 < p.weight
  rlo : (g.r0 : K) * g.dr + g.dr / 2 ≤ p.posR
  rhi : p.posR < beamEdge b g + g.dr / 2
  zlo : g.dz / 2 ≤ p.posZ
  zhi : p.posZ < g.dz / 2 + b.velocity * dt

end Beam
end Pico
