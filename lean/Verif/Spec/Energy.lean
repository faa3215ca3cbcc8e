import Verif.Spec.Fields
import Mathlib.Algebra.BigOperators.Group.Finset.Basic
import Mathlib.Algebra.Field.Rat
import Mathlib.Data.Int.Cast.Basic

/-! # Energy of the electromagnetic field in a closed chamber (specification of C76 and C77)

All volumes are per radian of the azimuth. -/

namespace Pico
namespace Yee

variable {K : Type _} [Field K]

/-- A chamber: the area starts at the axis and has conducting walls on all sides (and more than one row and column, so that opposite walls are different). -/
structure Closed (p : Par K) : Prop where
  axis : p.r0 = 0
  rows : 2 ≤ p.nr
  cols : 2 ≤ p.nz
  r0 : p.walls.r0 = true
  rr : p.walls.rr = true
  z0 : p.walls.z0 = true
  zz : p.walls.zz = true

/-- Sum over all cells of the area. -/
def boxSum (p : Par K) (f : Int → Int → K) : K := ∑ i ∈ Finset.range p.nr, ∑ k ∈ Finset.range p.nz, f i k

/-- Volume of the ring between two radii, one cell long. -/
def ringVolume (p : Par K) (inner outer : K) : K := (outer ^ 2 - inner ^ 2) / 2 * p.dz

/-- Volume around the components at the radius `i dr` (`E_phi`, `E_z`, `H_r`): from half a cell below to half a cell above; a
cylinder on the axis. -/
def volNode (p : Par K) (i : Int) : K :=
  if i = 0 then ringVolume p 0 (p.dr / 2) else ringVolume p (((i : K) - 1 / 2) * p.dr) (((i : K) + 1 / 2) * p.dr)

/-- Volume around the components at the radius `(i + 1/2) dr` (`E_r`, `H_phi`, `H_z`). -/
def volHalf (p : Par K) (i : Int) : K := ringVolume p ((i : K) * p.dr) (((i : K) + 1) * p.dr)

/-- Energy of the electric field. -/
def electricEnergy (p : Par K) (eps : Int → Int → K) (m : Mem K) : K :=
  boxSum p fun i k => eps i k / 2 * (volHalf p i * m .er i k ^ 2 + volNode p i * (m .ep i k ^ 2 + m .ez i k ^ 2))

/-- Energy of the magnetic field, from its values half a step before (`a`) and half a step after (`b`). -/
def magneticEnergy (p : Par K) (a b : Mem K) : K :=
  boxSum p fun i k => p.mu / 2 *
    (volNode p i * (a .hr i k * b .hr i k) + volHalf p i * (a .hp i k * b .hp i k + a .hz i k * b .hz i k))

/-- Energy of the fields when the electric field is that of `b`; `a` is the state one step earlier. -/
def fieldEnergy (p : Par K) (eps : Int → Int → K) (a b : Mem K) : K := electricEnergy p eps b + magneticEnergy p a b

/-- Power that the fields give to the currents and lose in conducting media during the step from `a` to `b`, with the mean
electric field of the step. -/
def power (p : Par K) (a b : Mem K) : K :=
  boxSum p fun i k =>
    let er := (a .er i k + b .er i k) / 2
    let ep := (a .ep i k + b .ep i k) / 2
    let ez := (a .ez i k + b .ez i k) / 2
    volHalf p i * (b .jr i k * er + b .sig i k * er ^ 2) +
      volNode p i * (b .jp i k * ep + b .sig i k * ep ^ 2 + b .jz i k * ez + b .sig i k * ez ^ 2)

/-- Energy of the mean of the magnetic fields half a step before and after (the magnetic field that acts on particles). -/
def meanMagneticEnergy (p : Par K) (a b : Mem K) : K :=
  boxSum p fun i k => p.mu / 2 *
    (volNode p i * ((a .hr i k + b .hr i k) / 2) ^ 2 +
      volHalf p i * (((a .hp i k + b .hp i k) / 2) ^ 2 + ((a .hz i k + b .hz i k) / 2) ^ 2))

/-- Square of the Courant number: `(c dt)^2 (2 / dr^2 + 1 / dz^2)` with the speed of light `c^2 = 1 / (eps mu)`. -/
def courant (p : Par K) (eps0 : K) : K := p.dt ^ 2 / (eps0 * p.mu) * (2 / p.dr ^ 2 + 1 / p.dz ^ 2)

end Yee
end Pico
