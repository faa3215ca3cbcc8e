import Mathlib.Algebra.Field.Defs

/-! Vocabulary of property C33. -/

namespace Pico
namespace Rand

variable {K : Type _} [Field K]

/-- Value of a digit sequence behind the point: `0.d₀d₁d₂…` in base `b`. -/
def behindPoint (b : Nat) : List Nat → K
  | [] => 0
  | d :: l => ((d : K) + behindPoint b l) / b

end Rand
end Pico
