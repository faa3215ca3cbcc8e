import Verif.Model.Base
import Mathlib.Algebra.Field.Defs
import Mathlib.Order.Defs.LinearOrder
import Mathlib.Algebra.Order.Group.Abs
import Mathlib.Analysis.Real.Sqrt

/-!
# `vector3d<T>`  (`/repo/include/math/vector3d.hpp`)

Methods that change `*this` return the new object besides their value.
-/

namespace Pico

/-- `vec3d`, `/repo/include/math/vector3d.hpp:30`. -/
structure Vec3 (K : Type _) where
  x : K
  y : K
  z : K
  deriving DecidableEq

namespace Vec3

variable {K : Type _}

/-- `vector3d()`, `/repo/include/math/vector3d.hpp:33-38`. -/
def zero [Zero K] : Vec3 K := ⟨0, 0, 0⟩

/-- `operator[]` as rvalue, `/repo/include/math/vector3d.hpp:49-52`; `std::vector` does not check. -/
def get (v : Vec3 K) (i : Int) : Res K :=
  if i = 0 then .ok v.x else if i = 1 then .ok v.y else if i = 2 then .ok v.z else .ub

/-- `v[i] = a`, `/repo/include/math/vector3d.hpp:49-52`. -/
def put (v : Vec3 K) (i : Int) (a : K) : Res (Vec3 K) :=
  if i = 0 then .ok { v with x := a } else if i = 1 then .ok { v with y := a }
  else if i = 2 then .ok { v with z := a } else .ub

/-- `operator==` of two vectors, `/repo/include/math/vector3d.hpp:55-60`. -/
def eqv [DecidableEq K] (v w : Vec3 K) : Bool := v.x == w.x && v.y == w.y && v.z == w.z
/-- `operator!=` of two vectors, `/repo/include/math/vector3d.hpp:70-75`. -/
def nev [DecidableEq K] (v w : Vec3 K) : Bool := v.x != w.x || v.y != w.y || v.z != w.z

/-- Argument `T const& rhs`: a value, or a reference to a component of the object itself. -/
inductive Arg (K : Type _) where
  | val (a : K)
  | own (i : Int)

/-- Value the reference has now. -/
def Arg.read (v : Vec3 K) : Arg K → Res K
  | .val a => .ok a
  | .own i => v.get i

/-- The loop of the scalar compound assignments, `/repo/include/math/vector3d.hpp:104-111` (`+=`),
`123-130` (`-=`), `142-149` (`*=`), `161-168` (`/=`): the reference is read in every turn.  Executed
sequentially (the `simd` pragma allows other orders). -/
def scalarAssign (f : K → K → K) (v : Vec3 K) (a : Arg K) : Res (Vec3 K) :=
  loop (fun i v => a.read v >>= fun s => v.get i >>= fun c => v.put i (f c s)) [0, 1, 2] v

/-- The compound assignments with a vector, `/repo/include/math/vector3d.hpp:113-120`, `132-139`,
`151-158`, `170-177`, and the binary operators, which work on a copy, `179-217` ... -/
def zip (f : K → K → K) (v w : Vec3 K) : Vec3 K := ⟨f v.x w.x, f v.y w.y, f v.z w.z⟩

section
variable [Field K]

/-- `operator+` of vectors, `/repo/include/math/vector3d.hpp:179-186`. -/
def add (v w : Vec3 K) : Vec3 K := zip (· + ·) v w
/-- `operator-` of vectors, `/repo/include/math/vector3d.hpp:197-204`. -/
def sub (v w : Vec3 K) : Vec3 K := zip (· - ·) v w
/-- `operator*` of vectors (component-wise), `/repo/include/math/vector3d.hpp:215-222`. -/
def mulV (v w : Vec3 K) : Vec3 K := zip (· * ·) v w
/-- `operator*` with a number, `/repo/include/math/vector3d.hpp:224-231`; the left operand is a copy. -/
def smul (v : Vec3 K) (s : K) : Vec3 K := ⟨v.x * s, v.y * s, v.z * s⟩
/-- `operator/` with a number, `/repo/include/math/vector3d.hpp:242-249`. -/
def sdiv (v : Vec3 K) (s : K) : Vec3 K := ⟨v.x / s, v.y / s, v.z / s⟩
/-- `operator+` with a number, `/repo/include/math/vector3d.hpp:188-195`. -/
def addS (v : Vec3 K) (s : K) : Vec3 K := ⟨v.x + s, v.y + s, v.z + s⟩

/-- `dot`, `/repo/include/math/vector3d.hpp:270-278`. -/
def dot (v w : Vec3 K) : K := 0 + v.x * w.x + v.y * w.y + v.z * w.z

/-- `cross`, `/repo/include/math/vector3d.hpp:280-292`: returned value and new `*this`. -/
def cross (v w : Vec3 K) : Vec3 K × Vec3 K :=
  let t : Vec3 K := ⟨v.y * w.z - v.z * w.y, v.z * w.x - v.x * w.z, v.x * w.y - v.y * w.x⟩
  (t, t)

/-- `length2`, `/repo/include/math/vector3d.hpp:294-297`. -/
def length2 (v : Vec3 K) : K := v.x * v.x + v.y * v.y + v.z * v.z

/-- `pow` for a natural exponent, `/repo/include/math/vector3d.hpp:304-311`: value and new `*this`. -/
def powN (v : Vec3 K) (n : Nat) : Vec3 K × Vec3 K :=
  let t : Vec3 K := ⟨v.x ^ n, v.y ^ n, v.z ^ n⟩
  (t, t)

/-- `abs`, `/repo/include/math/vector3d.hpp:313-320`: value and new `*this`. -/
def abs [LinearOrder K] (v : Vec3 K) : Vec3 K × Vec3 K :=
  let t : Vec3 K := ⟨|v.x|, |v.y|, |v.z|⟩
  (t, t)
end

/-- `length`, `/repo/include/math/vector3d.hpp:299-302`. -/
noncomputable def length (v : Vec3 ℝ) : ℝ := Real.sqrt v.length2

end Vec3
end Pico
