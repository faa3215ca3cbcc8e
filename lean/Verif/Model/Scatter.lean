import Verif.Model.Collide
import Mathlib.Analysis.SpecialFunctions.Pow.Real

/-!
# How strongly particles are scattered  (`/repo/src/collisions.cpp`, `/repo/src/phys/plasma.cpp`, and the parts of
`/repo/src/collisions/*.cpp` that compute the strength of a collision)

Exact arithmetic in `ℝ`; the physical constants are the fields of `Const`.
-/

namespace Pico
namespace Coll

/-- `PI`, `EPSILON0`, `PLANK_BAR_CONST`, `EL_CHARGE_INV`, `LIGHT_VEL`, `REL_LIMIT_POW_2` and the number 7433.944,
`/repo/include/constant.hpp:32-64`, `/repo/src/phys/plasma.cpp:29`. -/
structure Const where
  pi : ℝ
  eps : ℝ
  hbar : ℝ
  eInv : ℝ
  c : ℝ
  relLimit2 : ℝ
  debye1 : ℝ

/-- `get_el_density`, `get_ion_density` with `geometry_cell_volume`, `/repo/src/collisions.cpp:118-142, 162-169`: `i` is the
local row, `r0` the number of rows before the domain.  `CELL_VOLUME` does not parenthesise its argument
(`/repo/include/geometry.hpp:186`), so `2.0 * i+shift + 1` is computed. -/
noncomputable def cellDensity (k : Const) (dr dz : ℝ) (r0 i : Nat) (l : List (Part ℝ)) : ℝ :=
  amountTot l / (k.pi * dz * dr * dr * (2 * (i : ℝ) + r0 + 1))

/-- `get_el_temperature`, `get_ion_temperature`, `/repo/src/collisions.cpp:145-160`; for an empty cell (zero by zero) the
caller leaves the loop before the value is used. -/
noncomputable def cellTemperature (k : Const) (mass : ℝ) (l : List (Part ℝ)) : ℝ :=
  energyTot mass l / amountTot l * k.eInv

/-- `debye_length`, `/repo/src/phys/plasma.cpp:24-34`. -/
noncomputable def debyeLength (k : Const) (ne ni te ti : ℝ) : Res ℝ :=
  if ne ≤ 0 then .fatal else if ni ≤ 0 then .fatal else .ok (k.debye1 / Real.sqrt (ne / te + ni / ti))

/-- The checks and the Debye length of one cell of `collide`: `none` is the `break`,
`/repo/src/collisions/collisionsTA77S.cpp:231-243`. -/
noncomputable def cellDebye (k : Const) (dr dz massEl massIon : ℝ) (r0 i : Nat) (els ions : List (Part ℝ)) : Res (Option ℝ) :=
  if normal massEl massIon els ions then
    debyeLength k (cellDensity k dr dz r0 i els) (cellDensity k dr dz r0 i ions) (cellTemperature k massEl els)
      (cellTemperature k massIon ions) >>= fun d => .ok (some d)
  else .ok none

/-- `coulomb_logarithm`, `/repo/src/phys/plasma.cpp:43-53`. -/
noncomputable def coulombLog (k : Const) (ma mb debye v : ℝ) : ℝ :=
  max 2 (Real.log (debye * (ma * mb / (ma + mb)) * v / k.hbar))

/-- `collision_freqency`, `/repo/src/phys/plasma.cpp:55-63`. -/
noncomputable def collFrequency (k : Const) (ea eb density L p v : ℝ) : ℝ :=
  (ea * eb) ^ 2 * density * L / (8 * k.pi * k.eps ^ 2 * p ^ 2 * v)

/-- `math::random::normal`: `n` is the underlying standard normal number.  A standard deviation that is not positive violates
the precondition of `std::normal_distribution`, `/repo/src/math/rand.cpp:50-54`. -/
noncomputable def normalDraw (sd n : ℝ) : Res ℝ := if 0 < sd then .ok (sd * n) else .ub

/-! ### TA77S -/

/-- `variance_d`, `/repo/src/collisions/collisionsTA77S.cpp:84-108`; arguments of the particle with the smaller weight first. -/
noncomputable def taVariance (k : Const) (dt ma mb qa qb na nb debye u : ℝ) : ℝ :=
  let mab := ma * mb / (ma + mb)
  qa ^ 2 * qb ^ 2 * min na nb * coulombLog k ma mb debye u / (8 * k.pi * k.eps ^ 2 * mab ^ 2 * u ^ 3) * dt

/-- Length of the difference of two velocities, `u`, `/repo/src/collisions/collisionsTA77S.cpp:88-91`. -/
noncomputable def speedBetween (va vb : Vec3 ℝ) : ℝ :=
  Real.sqrt ((va.x - vb.x) ^ 2 + (va.y - vb.y) ^ 2 + (va.z - vb.z) ^ 2)

/-- The whole `CollisionsTA77S::collide_single`, `/repo/src/collisions/collisionsTA77S.cpp:31-220`, with the random numbers
`n` (standard normal), `phi`, `dzeta`. -/
noncomputable def collideTAFull (k : Const) (dt ma mb qa qb na nb debye n phi dzeta : ℝ) (pa pb : Part ℝ) :
    Res (Part ℝ × Part ℝ) :=
  if pb.weight = 0 ∨ pa.weight = 0 ∨ ma = 0 ∨ mb = 0 ∨ ma + mb = 0 then .ub
  else
    let u := speedBetween (vel pa) (vel pb)
    if u = 0 then .ok (pa, pb)
    else
      let var := if pa.weight / pb.weight ≤ 1 then taVariance k dt ma mb qa qb na nb debye u
        else taVariance k dt mb ma qb qa nb na debye u
      normalDraw (Real.sqrt var) n >>= fun delta => collideTA k.pi ma mb delta phi dzeta pa pb

/-! ### SK98 and P12 -/

/-- `variance_d` for the relative speed `v`, `/repo/src/collisions/collisionsSK98.cpp:139-164`; `gamma` is `gamma_rel`. -/
noncomputable def skVariance (k : Const) (dt ma mb qa qb na nb debye gamma v : ℝ) : ℝ :=
  collFrequency k qa qb (min na nb) (coulombLog k ma mb debye v) (gamma * mb * v) v * dt

/-- `s12` for slow particles before the correction, `/repo/src/collisions/collisionsP12.cpp:150-186`. -/
noncomputable def p12Slow (k : Const) (dt ma mb qa qb na nb debye v : ℝ) : ℝ :=
  let nw := na * nb / min na nb
  let mab := ma * mb / (ma + mb)
  nw * dt * coulombLog k ma mb debye v * (qa * qb) ^ 2 / (4 * k.pi * (k.eps * mab) ^ 2 * v ^ 3)

/-- `s12` for fast particles before the correction, `/repo/src/collisions/collisionsP12.cpp:158-179`: `pa` is the momentum in
the laboratory, `pcm2` the squared momentum in the centre of mass frame, `ga`, `gb`, `gaCm`, `gbCm`, `gcm` the Lorentz factors
of the particles in both frames and of the frame, `L` the Coulomb logarithm. -/
noncomputable def p12Fast (k : Const) (dt ma mb qa qb na nb L ga gb gaCm gbCm gcm pcm2 : ℝ) (pa : Vec3 ℝ) : ℝ :=
  let nw := na * nb / min na nb
  nw * dt * L * (qa * qb) ^ 2 / (4 * k.pi * (k.eps * (k.c * k.c)) ^ 2 * ma * ga * mb * gb) * gcm * pa.length
    / (ma * ga + mb * gb) * (ma * gaCm * mb * gbCm * (k.c * k.c) / pcm2 + 1) ^ 2

/-- The correction for low temperatures, `/repo/src/collisions/collisionsP12.cpp:188-200`. -/
noncomputable def p12Limit (k : Const) (dt ma mb na nb v s12 : ℝ) : ℝ :=
  let nw := na * nb / min na nb
  if v < 10 ^ 6 ∧ 7 * 10 ^ 13 < nw then
    min s12 ((4 / 3 * k.pi) ^ (1 / 3 : ℝ) * nw * dt * (ma + mb) / max (ma * na ^ (2 / 3 : ℝ)) (mb * nb ^ (2 / 3 : ℝ)) * v)
  else s12

end Coll
end Pico
