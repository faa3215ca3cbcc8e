import Verif.Model.Rel
import Verif.Model.JuettnerTable
import Mathlib.Analysis.SpecialFunctions.Log.Basic
import Mathlib.Analysis.Real.Pi.Bounds

/-!
# Initial velocities of the particles of a species
(`/repo/src/specieP.cpp:333-438`, `/repo/src/math/maxwellJuettner.cpp:329-400`)

`c` is `LIGHT_VEL`, `q` is `EL_CHARGE` (`/repo/include/constant.hpp`), `lim` is `REL_LIMIT`
(`/repo/configure.ac:224`), `mass` the mass of a particle; temperatures and energies are in electronvolts.  Exact
arithmetic; a `double` that may be NaN is an `Option ℝ`, `none` being NaN.  The random numbers are parameters.  Not
modelled: `eigen_directed_velocity_distribution`, which nothing calls.
-/

namespace Pico
namespace Vel

/-! ### Sampling of energies -/

/-- Entry of a table; reading past the end is undefined. -/
noncomputable def entry (t : List Int) (i : Nat) : Res ℝ :=
  match t[i]? with
  | some x => .ok ((x : ℝ) / 10 ^ 21)
  | none => .ub

/-- `exp(t[index] + remainder * (t[index + 1] - t[index]))` for the position `x`,
`/repo/src/math/maxwellJuettner.cpp:352-355` and `383-386`.  A negative position does not convert to
`unsigned int`. -/
noncomputable def lookup (t : List Int) (x : ℝ) : Res ℝ :=
  if x < 0 then .ub
  else
    let index := ⌊x⌋₊
    let remainder := x - index
    entry t index >>= fun a => entry t (index + 1) >>= fun b => .ok (Real.exp (a + remainder * (b - a)))

/-- `invF` for the random number `U` in `[0, 1)`, `/repo/src/math/maxwellJuettner.cpp:344-356`.  For `U = 0` the code
computes `log(-log(0))`, which is infinity and takes the first branch.  `THREE_OVER_4` is `4. / 3.`
(`/repo/include/constant.hpp:34`); `constant::PI` is the exact number. -/
noncomputable def invF (U : ℝ) : Res ℝ :=
  let lnlnU := Real.log (-Real.log U)
  if U = 0 ∨ 2 < lnlnU then .ok (4 / 3 * Real.sqrt Real.pi * U ^ (2 / 3 : ℝ))
  else if lnlnU < -19 then .ok 1
  else lookup tableF ((lnlnU + 19) * (999 / (2 + 19)))

/-- Loop of the classical case, `/repo/src/math/maxwellJuettner.cpp:342-359`: one random number each. -/
noncomputable def classical (T : ℝ) : List ℝ → Res (List ℝ)
  | [] => .ok []
  | U :: us => invF U >>= fun f => classical T us >>= fun es => .ok (T * f :: es)

/-- `H0`, `/repo/src/math/maxwellJuettner.cpp:367-368`. -/
noncomputable def H0 (T : ℝ) : ℝ := -(1 / T) + Real.log (1 + 1 / T + 0.5 * (1 / T) * (1 / T))

/-- `invH` for the random number `U` in `[0, 1)`, `/repo/src/math/maxwellJuettner.cpp:376-387`.  `pow` of a negative
number with a broken exponent is NaN, of zero it is zero.  The logarithm of zero is minus infinity and takes the first
branch; that of a negative number is NaN, whose conversion to `unsigned int` is undefined. -/
noncomputable def invH (T U : ℝ) : Res (Option ℝ) :=
  let arg := -Real.log (1 - U) - H0 T
  if arg < 0 then .ub
  else if arg = 0 ∨ Real.log arg < -26 then .ok (if U = 0 then some 0 else none)
  else if 12 < Real.log arg then .ok (if U = 0 then some 0 else none)
  else lookup tableH ((Real.log arg + 30) * (999 / (12 + 30))) >>= fun x => .ok (some x)

/-- Condition of the `do … while`, `/repo/src/math/maxwellJuettner.cpp:393`; a comparison with NaN is false. -/
noncomputable def again (gamma : Option ℝ) (U : ℝ) : Bool :=
  match gamma with
  | none => false
  | some g => decide (g ≠ 0 ∧ 0 ≤ 1 - 1 / (g * g) ∧ Real.sqrt (1 - 1 / (g * g)) ≤ U)

/-- The `do … while` of the relativistic case with the assignment after it,
`/repo/src/math/maxwellJuettner.cpp:372-395`: two random numbers per turn.  `none` if the given numbers are used up
before a turn is accepted. -/
noncomputable def relOne (T : ℝ) : List (ℝ × ℝ) → Option (Res (Option ℝ) × List (ℝ × ℝ))
  | [] => none
  | (U, W) :: l =>
    match invH T U with
    | .ok h =>
      let gamma := h.map (T * ·)
      if again gamma W then relOne T l else some (.ok (gamma.map (· - 1)), l)
    | .fatal => some (.fatal, l)
    | .ub => some (.ub, l)

/-- Loop of the relativistic case, `/repo/src/math/maxwellJuettner.cpp:370-396`. -/
noncomputable def relativistic (T : ℝ) : Nat → List (ℝ × ℝ) → Option (Res (List (Option ℝ)))
  | 0, _ => some (.ok [])
  | n + 1, l =>
    match relOne T l with
    | none => none
    | some (.ok e, l') => (relativistic T n l').map fun r => r >>= fun es => .ok (e :: es)
    | some (.fatal, _) => some .fatal
    | some (.ub, _) => some .ub

/-- `maxwellJuettner(npoints, temperature)`, `/repo/src/math/maxwellJuettner.cpp:330-400`, for the random numbers
`us` (classical case, one for each point) or `ws` (relativistic case). -/
noncomputable def sample (npoints : Nat) (T : ℝ) (us : Nat → ℝ) (ws : List (ℝ × ℝ)) : Option (Res (List (Option ℝ))) :=
  if T < 0.1 then some (classical T ((List.range npoints).map us) >>= fun es => .ok (es.map some))
  else relativistic T npoints ws

/-! ### Velocities -/

/-- Machine and particle constants. -/
structure Cst where
  c : ℝ
  lim : ℝ
  q : ℝ
  mass : ℝ

/-- The switch between the two formulas, `/repo/src/specieP.cpp:362-370`, `394-400` and `425-431`: `u` is compared
with the limit, `e` is the energy of the classical formula.  The square root of a negative number is NaN. -/
noncomputable def switch (k : Cst) (u e : ℝ) : Option ℝ :=
  if k.lim < u then some (u * Rel.lorenzFactorInv k.c (u ^ 2))
  else if e * (2 * k.q / k.mass) < 0 then none
  else some (Real.sqrt (e * (2 * k.q / k.mass)))

/-- `therm_vel_cmp` of `thermal_velocity_distribution` for one energy, `/repo/src/specieP.cpp:360-372`. -/
noncomputable def thermalScale (k : Cst) (e : Option ℝ) : Option ℝ :=
  match e with
  | none => none
  | some e => (switch k (e * (k.q / (k.mass * k.c))) e).map (· * 0.7071067811865475)

/-- `therm_vel_cmp` of `rectangular_velocity_distribution` and `eigen_velocity_distribution`,
`/repo/src/specieP.cpp:388-400` and `419-431`. -/
noncomputable def plainScale (k : Cst) (T : ℝ) : Option ℝ := switch k (T * (k.q / (k.mass * k.c)) * 2) T

/-- Three random numbers times a scale. -/
noncomputable def spread (s : Option ℝ) (r : ℝ × ℝ × ℝ) : Option (Vec3 ℝ) :=
  s.map fun s => ⟨r.1 * s, r.2.1 * s, r.2.2 * s⟩

/-- `thermal_velocity_distribution`, `/repo/src/specieP.cpp:346-384`: `energies` is what the sampling returned, `rs`
the random numbers, three for each particle.  Reading past the end of the energies is undefined; so is the division by
a mass of zero. -/
noncomputable def thermal (k : Cst) : List (Option ℝ) → List (ℝ × ℝ × ℝ) → Res (List (Option (Vec3 ℝ)))
  | _, [] => .ok []
  | [], _ :: _ => .ub
  | e :: es, r :: rs =>
    if k.mass = 0 then .ub else thermal k es rs >>= fun vs => .ok (spread (thermalScale k e) r :: vs)

/-- `rectangular_velocity_distribution`, `/repo/src/specieP.cpp:386-413`. -/
noncomputable def rectangular (k : Cst) (T : ℝ) (rs : List (ℝ × ℝ × ℝ)) : Res (List (Option (Vec3 ℝ))) :=
  if k.mass = 0 then .ub else .ok (rs.map (spread (plainScale k T)))

/-- `eigen_velocity_distribution`, `/repo/src/specieP.cpp:416-438`, for `n` particles. -/
noncomputable def eigen (k : Cst) (T : ℝ) (n : Nat) : Res (List (Option (Vec3 ℝ))) :=
  if k.mass = 0 then .ub else .ok (List.replicate n ((plainScale k T).map fun s => ⟨s, s, s⟩))

end Vel
end Pico
