import Verif.Model.Vec3
import Mathlib.Analysis.SpecialFunctions.Pow.Real

/-!
# `phys::rel`  (`/repo/src/phys/rel.cpp`)

`c` stands for `LIGHT_VEL` (`/repo/include/constant.hpp:48`), `lim` for `REL_LIMIT_POW_2`
(`/repo/include/constant.hpp:62-65`).  `algo::common::sq_rt` (`/repo/src/algo/common.cpp:44-51`) is the exact
square root.  Rounding is not modelled.
-/

namespace Pico
namespace Rel

/-- `lorenz_factor`, `/repo/src/phys/rel.cpp:24-45`.  The division gives infinity exactly when
`beta = 1`. -/
noncomputable def lorenzFactor (c v2 : ℝ) : Res ℝ :=
  let beta := v2 / (c * c)
  if beta > 1 then .fatal
  else if Real.sqrt (1 - beta) = 0 then .ok (10 ^ 100)
  else .ok (1 / Real.sqrt (1 - beta))

/-- `lorenz_factor_inv`, `/repo/src/phys/rel.cpp:47-55`. -/
noncomputable def lorenzFactorInv (c v2 : ℝ) : ℝ := (1 + v2 / (c * c)) ^ (-(1/2) : ℝ)

/-- `momentum_0`, `/repo/src/phys/rel.cpp:57-64`. -/
noncomputable def momentum0 (c mass : ℝ) (v : Vec3 ℝ) : Res ℝ :=
  if mass = 0 then .fatal else lorenzFactor c v.length2 >>= fun gamma => .ok (gamma * mass * c)

/-- `momentum`, `/repo/src/phys/rel.cpp:66-72`. -/
noncomputable def momentum (c mass : ℝ) (v : Vec3 ℝ) : Res (Vec3 ℝ) :=
  if mass = 0 then .fatal else lorenzFactor c v.length2 >>= fun gamma => .ok ((v.smul gamma).smul mass)

/-- `energy`, `/repo/src/phys/rel.cpp:74-86`. -/
noncomputable def energy (c lim mass v2 : ℝ) : Res ℝ :=
  if v2 > lim then lorenzFactor c v2 >>= fun gamma => .ok ((gamma - 1) * mass * (c * c))
  else .ok (1/2 * mass * v2)

/-- `energy_m`, `/repo/src/phys/rel.cpp:88-101`; division by zero is `ub`. -/
noncomputable def energyM (c lim mass p2 : ℝ) : Res ℝ :=
  if p2 > lim * mass * mass then
    let rest := mass * (c * c)
    .ok (Real.sqrt (p2 * (c * c) + rest ^ 2) - rest)
  else if mass = 0 then .ub
  else .ok (1/2 * p2 / mass)

end Rel
end Pico
