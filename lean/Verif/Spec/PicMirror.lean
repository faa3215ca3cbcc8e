import Verif.Model.Pic

/-! What it means that one simulation is the mirror image of another one (C141). -/

namespace Pico
namespace Pic

open SMB Yee

/-- The sign a component has in a mirror that contains the axis: the electric field and the current are vectors, their azimuthal component
is reversed; the magnetic field is an axial vector, its radial and axial components are reversed.  The media are scalars. -/
noncomputable def mirrorSign : Yee.Comp → ℝ
  | .er => 1 | .ep => -1 | .ez => 1
  | .hr => -1 | .hp => 1 | .hz => -1
  | .fr => -1 | .fp => 1 | .fz => -1
  | .jr => 1 | .jp => -1 | .jz => 1
  | .eps => 1 | .sig => 1

/-- A particle in the mirror: angles and azimuthal velocity are reversed. -/
def mirrorPart (a : Part ℝ) : Part ℝ := { a with posPhi := -a.posPhi, oldPhi := -a.oldPhi, velPhi := -a.velPhi, sin := -a.sin }

/-- A whole state in the mirror. -/
noncomputable def State.mirrored (S : State) : State where
  M := fun i j c x y => mirrorSign c * S.M i j c x y
  heap := fun t => mirrorPart (S.heap t)
  D := S.D

/-- All fields and currents in the mirror. -/
noncomputable def mirrorFields (M : Solvers ℝ) : Solvers ℝ := fun i j c x y => mirrorSign c * M i j c x y

/-- Particles will feel no azimuthal electric field in the next step. -/
def Calm (E : Env) (S : State) : Prop := ∀ M1, solveMaxwell (domPar E.p E.domR E.domZ) E.domR E.domZ S.M = .ok M1 →
  ∀ i j, i < E.domR → j < E.domZ → ∀ x y, M1 i j .ep x y = 0

/-- The pushers of Boris and of Vay. -/
def NotHC (k : Pusher.Kind) : Prop := k ≠ .hc

end Pic
end Pico
