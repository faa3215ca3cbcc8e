import Verif.Spec.PicStart
import Verif.Spec.PicLaws

/-! Specification vocabulary for neutral plasmas. -/

namespace Pico
namespace Pic

open Classical in
/-- The plasma of a configuration is neutral: the charges of the species that are configured with the same number of macroparticles and the
same densities at both ends of the chamber sum up to zero.  (Electrons and ions of equal density are the usual case.) -/
def Setup.Neutral (X : Setup) : Prop :=
  ∀ a l r : ℝ, ((X.species.filter fun s => s.amount = a ∧ s.left = l ∧ s.right = r).map fun s => X.env.charge s.id).sum = 0

/-- The charge of all particles in domain `(i, j)`. -/
noncomputable def domCharge (E : Env) (S : State) (i j : Nat) : ℝ :=
  ((S.D i j).map fun sp => (sp.parts.map fun o => E.charge sp.id * (S.heap o.tag).weight).sum).sum

end Pic
end Pico
