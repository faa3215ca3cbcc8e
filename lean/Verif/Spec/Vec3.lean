import Verif.Model.Vec3
import Mathlib.LinearAlgebra.CrossProduct

/-! The mathematical vector a `vector3d` object stands for: an element of `K^3` of Mathlib. -/

namespace Pico

/-- The vector of `K^3` with these three components. -/
def Vec3.toK {K : Type _} (v : Vec3 K) : Fin 3 → K := ![v.x, v.y, v.z]

end Pico
