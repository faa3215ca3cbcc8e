import Verif.Model.CurrentStep
import Verif.Spec.FieldStep
import Verif.Spec.Current

/-! Specification vocabulary for the currents of a divided area. -/

namespace Pico
namespace Yee

open VB

variable {K : Type _}

/-- The particles of all domains for which `keep` holds. -/
def partsOf (domR domZ : Nat) (keep : Nat → Nat → Bool) (ps : Nat → Nat → List (Part K)) : List (Part K) :=
  (List.range domR).flatMap fun a => (List.range domZ).flatMap fun b => if keep a b then ps a b else []

/-- The domains `(a, b)` that touch domain `(i, j)` at its lower right or at its upper left corner. -/
def Antidiagonal (i j a b : Nat) : Bool := (a = i + 1 ∧ b + 1 = j) ∨ (a + 1 = i ∧ b = j + 1)

variable [Field K] [LinearOrder K] [IsStrictOrderedRing K] [FloorRing K]

/-- The path of a particle that is now in domain `(a, b)` cuts its upper left corner (it comes from the rows before the domain
and touches the first column after it) or its lower right corner (it comes from the columns before the domain and touches the
first row after it), and there is a domain at that corner. -/
def CutsCorner (p : Par K) (domR domZ a b : Nat) (q : Part K) : Prop :=
  (0 < a ∧ b + 1 < domZ ∧ ⌊q.rOld / p.dr⌋ < (p.r0 : Int) + low p.nr domR a ∧
    (low p.nz domZ (b + 1) : Int) ≤ max ⌊q.z / p.dz⌋ ⌊q.zOld / p.dz⌋ + 1) ∨
  (0 < b ∧ a + 1 < domR ∧ ⌊q.zOld / p.dz⌋ < (low p.nz domZ b : Int) ∧
    (p.r0 : Int) + low p.nr domR (a + 1) ≤ max ⌊q.r / p.dr⌋ ⌊q.rOld / p.dr⌋ + 1)

/-- Every particle is in its domain, comes from its cell or a neighbouring one, and is off the axis. -/
def Housed (p : Par K) (domR domZ : Nat) (e : Consts K) (ps : Nat → Nat → List (Part K)) : Prop :=
  ∀ a b, a < domR → b < domZ → ∀ q ∈ ps a b, q.Bound (domCtx p domR domZ e a b).g ∧ q.NearCell (domCtx p domR domZ e a b).g

end Yee
end Pico
