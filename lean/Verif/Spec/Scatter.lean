import Verif.Model.Scatter

/-! Specification of density, temperature and scattering rate in a cell. -/

namespace Pico
namespace Coll

/-- Number of real particles a list of macroparticles stands for. -/
def realAmount (l : List (Part ℝ)) : ℝ := (l.map fun p => p.weight).sum

/-- Volume of the ring cell number `n` (counted from the axis). -/
noncomputable def ringVolume (k : Const) (dr dz : ℝ) (n : Nat) : ℝ := k.pi * (((n + 1) * dr) ^ 2 - (n * dr) ^ 2) * dz

/-- Mean velocity. -/
noncomputable def meanVel (l : List (Part ℝ)) : Vec3 ℝ :=
  ⟨(l.map fun p => p.weight * p.velR).sum / realAmount l, (l.map fun p => p.weight * p.velPhi).sum / realAmount l,
    (l.map fun p => p.weight * p.velZ).sum / realAmount l⟩

/-- Temperature in electronvolts: two thirds of the mean energy of the motion relative to the mean velocity. -/
noncomputable def trueTemperature (k : Const) (mass : ℝ) (l : List (Part ℝ)) : ℝ :=
  2 / 3 * ((l.map fun p => p.weight * (mass / 2 * ((p.velR - (meanVel l).x) ^ 2 + (p.velPhi - (meanVel l).y) ^ 2 +
    (p.velZ - (meanVel l).z) ^ 2))).sum / realAmount l) * k.eInv

/-- Mean square of the tangent of half the deflection angle of a pair with reduced mass `m` and relative speed `u` during
`dt` in a background of density `n` (Takizuka and Abe); `L` is the Coulomb logarithm. -/
noncomputable def coulombSpread (k : Const) (qa qb n L m u dt : ℝ) : ℝ :=
  (qa * qb) ^ 2 * n * L / (8 * k.pi * k.eps ^ 2 * m ^ 2 * u ^ 3) * dt

structure Const.Good (k : Const) : Prop where
  pi : 0 < k.pi
  eps : 0 < k.eps
  hbar : 0 < k.hbar
  eInv : 0 < k.eInv
  c : 0 < k.c
  debye1 : 0 < k.debye1

/-- The scattering parameter of Perez et al. (2012) for relativistic pairs, their eq. (21): `p` is the momentum in the centre of
mass frame, `ga`, `gb` the Lorentz factors in the laboratory, `gaCm`, `gbCm` those in the centre of mass frame, `gcm` that of
the frame; `n` is the density that enters. -/
noncomputable def perezParameter (k : Const) (dt ma mb qa qb n L ga gb gaCm gbCm gcm p : ℝ) : ℝ :=
  n * dt * L * (qa * qb) ^ 2 / (4 * k.pi * k.eps ^ 2 * k.c ^ 4 * (ma * ga) * (mb * gb)) * (gcm * p / (ma * ga + mb * gb)) *
    (ma * gaCm * (mb * gbCm) * k.c ^ 2 / p ^ 2 + 1) ^ 2

end Coll
end Pico
