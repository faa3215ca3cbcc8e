import Verif.Spec.PicEnergy

/-! Specification vocabulary: the total energy of a run (C118). -/

namespace Pico
namespace Pic

open SMB Yee

/-- There are no fields and no currents in memory. -/
def Blank (E : Env) (S : State) : Prop :=
  ∀ i j, i < E.domR → j < E.domZ → ∀ c : Yee.Comp, c ≠ .eps → c ≠ .sig → ∀ x y, S.M i j c x y = 0

/-- The chamber is filled with insulators (for example, vacuum). -/
def Dielectric (E : Env) (S : State) : Prop :=
  ∀ i j x y, CellOf E.p E.domR E.domZ i j x y → 0 < S.M i j .eps x y ∧ S.M i j .sig x y = 0

/-- Kinetic energy of all real particles: a macroparticle stands for `weight` of them. -/
noncomputable def kineticAll (E : Env) (ids : List Nat) (S : State) : ℝ :=
  (ids.map fun id => ((tagsOf E S.D id).map fun t => (S.heap t).weight * kineticOf E id (vel (S.heap t))).sum).sum

/-- Total energy of fields and particles in the step from `S` to `T`: the particles before they are pushed in the step, the fields around the
electric field of the step (`fieldsEnergy` is per radian). -/
noncomputable def totalEnergy (E : Env) (ids : List Nat) (S T : State) : ℝ := kineticAll E ids S + 2 * E.e.pi * fieldsEnergy E S T

end Pic
end Pico
