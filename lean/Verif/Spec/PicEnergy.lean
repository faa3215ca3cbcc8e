import Verif.Spec.PicLaws
import Verif.Spec.Energy
import Verif.Model.Interp

/-! Specification vocabulary for the energy in whole runs. -/

namespace Pico
namespace Pic

open SMB Yee

/-- Energy of the fields of the chamber when the electric field is that of `T`; `S` is the state one step earlier. -/
noncomputable def fieldsEnergy (E : Env) (S T : State) : ℝ := fieldEnergy E.p (glue E S.M .eps) (glue E S.M) (glue E T.M)

/-- Power that the fields give to the currents and lose in conducting media in the step from `S` to `T`: the currents that act in a step
are those which the particles have left in the step before. -/
noncomputable def powerOf (E : Env) (S T : State) : ℝ := power E.p (glue E S.M) (setSources (glue E S.M) (glue E T.M))

/-- Nothing is divided by zero in the update of the electric field. -/
def Media (E : Env) (S : State) : Prop :=
  ∀ X Y, E.p.logical X Y → 2 * glue E S.M .eps X Y + glue E S.M .sig X Y * E.p.dt ≠ 0

/-- Lorentz factor of a particle with velocity `v`. -/
noncomputable def gammaOf (c : ℝ) (v : Vec3 ℝ) : ℝ := 1 / Real.sqrt (1 - v.length2 / c ^ 2)

/-- Kinetic energy of one particle of species `id` with velocity `v`. -/
noncomputable def kineticOf (E : Env) (id : Nat) (v : Vec3 ℝ) : ℝ := (gammaOf E.c v - 1) * E.mass id * E.c ^ 2

/-- Work of the electric field `e` on a particle of species `id` in one step, in which its velocity changes from `v` to `w`.  The mean velocity
of a relativistic particle is the sum of the momenta over the sum of the (relativistic) masses. -/
noncomputable def workOf (E : Env) (id : Nat) (e v w : Vec3 ℝ) : ℝ :=
  E.charge id * E.p.dt * e.dot (((v.smul (gammaOf E.c v)).add (w.smul (gammaOf E.c w))).smul (1 / (gammaOf E.c v + gammaOf E.c w)))

/-- `o` is the address of a particle of species `id` in domain `(i, j)`. -/
def ListedIn (E : Env) (S : State) (id o i j : Nat) : Prop :=
  i < E.domR ∧ j < E.domZ ∧ ∃ sp ∈ S.D i j, sp.id = id ∧ ∃ q ∈ sp.parts, q.tag = o

end Pic
end Pico
