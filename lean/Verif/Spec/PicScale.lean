import Verif.Model.Pic

/-! What it means that one simulation is another one with other charges, masses and weights (C124). -/

namespace Pico
namespace Pic

open SMB Yee

/-- A particle with `b` times the weight, otherwise the same. -/
def reweigh (b : ℝ) (a : Part ℝ) : Part ℝ := { a with weight := b * a.weight }

/-- The same chamber, with species that have `a` times the charge and `m` times the mass. -/
noncomputable def Env.rescaled (E : Env) (a m : ℝ) : Env := { E with charge := fun id => a * E.charge id, mass := fun id => m * E.mass id }

/-- The same particles at the same places with the same velocities in the same domains, each with `b` times the weight, in fields and
currents that are `s` times those of `S`.  The permittivity and the conductivity of the medium are the same. -/
noncomputable def State.rescaled (S : State) (s b : ℝ) : State where
  M := fun i j c x y => if c = .eps ∨ c = .sig then S.M i j c x y else s * S.M i j c x y
  heap := fun t => reweigh b (S.heap t)
  D := S.D

end Pic
end Pico
