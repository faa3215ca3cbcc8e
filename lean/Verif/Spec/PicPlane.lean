import Verif.Spec.Pic
import Verif.Model.PicAll

/-! Specification vocabulary: a simulation without rotation (C140). -/

namespace Pico
namespace Pic

open SMB Yee

/-- No particle of the lists moves around the axis, and there are no fields that belong to such a motion: no azimuthal electric field, no
radial and axial magnetic field (neither those of the field solver nor those that particles see), no azimuthal current. -/
structure Unrotating (R Z : Nat) (S : State) : Prop where
  parts : ∀ i j, i < R → j < Z → ∀ sp ∈ S.D i j, ∀ o ∈ sp.parts, (S.heap o.tag).posPhi = 0 ∧ (S.heap o.tag).velPhi = 0
  ephi : ∀ i j, i < R → j < Z → ∀ x y, S.M i j .ep x y = 0
  hr : ∀ i j, i < R → j < Z → ∀ x y, S.M i j .hr x y = 0 ∧ S.M i j .fr x y = 0
  hz : ∀ i j, i < R → j < Z → ∀ x y, S.M i j .hz x y = 0 ∧ S.M i j .fz x y = 0
  jphi : ∀ i j, i < R → j < Z → ∀ x y, S.M i j .jp x y = 0

/-- The external fields, if there are any, have neither an azimuthal electric nor a radial or axial magnetic component. -/
def PlaneExternal (G : GEnv) (S : GState) : Prop :=
  G.full.ext = none ∨ ∀ i j, i < G.full.env.domR → j < G.full.env.domZ → ∀ x y, S.f.X i j .ep x y = 0 ∧ S.f.X i j .fr x y = 0 ∧ S.f.X i j .fz x y = 0

end Pic
end Pico
