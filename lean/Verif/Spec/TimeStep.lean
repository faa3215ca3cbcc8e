import Verif.Spec.Energy
import Verif.Model.Limits
import Verif.Model.FieldStep

/-! # The time step and the fields (specification of C135) -/

namespace Pico
namespace Yee

/-- Sources of a chamber filled with vacuum of constant `e` in which the azimuthal current `j` flows during the first step and
nothing afterwards. -/
def pulse {K : Type _} [Zero K] (e : K) (j : Int → Int → K) (t : Nat) : Comp → Int → Int → K
  | .eps, _, _ => e
  | .jp, i, k => if t = 0 then j i k else 0
  | _, _, _ => 0

/-- `LIGHT_VEL`, `/repo/include/constant.hpp:45`. -/
noncomputable def lightVel : ℝ := 3 * 10 ^ 8

/-- `EPSILON0`, `/repo/include/constant.hpp:38`. -/
noncomputable def epsilon0 : ℝ := 8.85 / 10 ^ 12

/-- `MAGN_CONST`, `/repo/include/constant.hpp:49`. -/
noncomputable def magnConst : ℝ := 1.26 / 10 ^ 6

/-- The field solver has the cells and the time step of the configuration. -/
structure Configured (c : Limits.Conf) (p : Par ℝ) : Prop where
  dr : p.dr = c.dr
  dz : p.dz = c.dz
  dt : p.dt = c.step
  mu : p.mu = magnConst

/-- The program accepts the time step without a message about it. -/
def Accepted (cp cd : ℝ) (c : Limits.Conf) : Prop :=
  ∃ m, Limits.check lightVel cp cd c = .ok m ∧ Limits.Msg.timeStep ∉ m

end Yee
end Pico
