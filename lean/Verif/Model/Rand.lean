import Verif.Model.Particle

/-!
# The reproducible number sequence  (`/repo/src/math/rand.cpp:57-76`)

The other generators of the file wrap the C++ library and are represented by arbitrary numbers of their range
where they are used.
-/

namespace Pico
namespace Rand

variable {K : Type _} [Field K] [LinearOrder K] [IsStrictOrderedRing K] [FloorRing K]

/-- Local variables `int_vel`, `r`, `order` of `random_reverse`. -/
structure Rev (K : Type _) where
  n : Int
  r : K
  order : Nat

/-- Loop body, `/repo/src/math/rand.cpp:68-74`; `%` truncates towards zero; the quotient is computed in `double`,
where it is exact, and converted back. -/
def revBody (power : Int) (s : Rev K) : Rev K :=
  let ost := s.n.tmod power
  { n := (s.n - ost).tdiv power, r := s.r + ost * (power : K) ^ (-(s.order : Int)), order := s.order + 1 }

/-- Loop condition, `/repo/src/math/rand.cpp:66`. -/
def revCond (s : Rev K) : Bool := 1 ≤ s.n

/-- `random_reverse(vel, power)` returns `out`, `/repo/src/math/rand.cpp:60-76`.  No result: `floor(vel)` does not
fit into an `int` or division by zero (both undefined), or a loop without end. -/
def RandomReverse (vel : K) (power : Int) (out : K) : Prop :=
  (-2 ^ 31 ≤ ⌊vel⌋ ∧ ⌊vel⌋ < 2 ^ 31) ∧ (power ≠ 0 ∨ ⌊vel⌋ < 1) ∧
  ∃ t, While revCond (revBody power) (⟨⌊vel⌋, 0, 1⟩ : Rev K) t ∧ out = t.r

end Rand
end Pico
