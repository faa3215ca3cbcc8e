import Verif.Model.CurrentMpi
import Verif.Spec.CurrentStep
import Verif.Spec.FieldMpi

/-! Specification vocabulary for the currents of an area that is divided between processes. -/

namespace Pico
namespace Yee

open VB

variable {K : Type _}

/-- The particles of the domains of all processes for which `keep` holds. -/
def partsOfMpi (procs domR domZ : Nat) (keep : Nat → Nat → Nat → Bool) (ps : Nat → Nat → Nat → List (Part K)) : List (Part K) :=
  (List.range procs).flatMap fun k => partsOf domR domZ (keep k) (ps k)

/-- Domain `(a, b)` of process `l` touches domain `(i, j)` of process `k` at a corner only, and either at the lower right or
upper left corner within one process, or at any corner between two processes. -/
def CornerMpi (domZ k i j l a b : Nat) : Bool :=
  (l = k ∧ Antidiagonal i j a b) ∨
  (((l = k + 1 ∧ j + 1 = domZ ∧ b = 0) ∨ (l + 1 = k ∧ j = 0 ∧ b + 1 = domZ)) ∧ (a = i + 1 ∨ a + 1 = i))

variable [Field K] [LinearOrder K] [IsStrictOrderedRing K] [FloorRing K]

/-- Every particle is in the domain and process that lists it, comes from its cell or a neighbouring one, and is off the axis. -/
def HousedMpi (p : Par K) (procs domR domZ : Nat) (e : Consts K) (ps : Nat → Nat → Nat → List (Part K)) : Prop :=
  ∀ k a b, k < procs → a < domR → b < domZ → ∀ q ∈ ps k a b,
    q.Bound (mpiCtx p procs domR domZ e k a b).g ∧ q.NearCell (mpiCtx p procs domR domZ e k a b).g

/-- First column of domain column `b` of process `k` (the first column of the next process for `b = domZ`). -/
def colStart (p : Par K) (procs domZ k b : Nat) : Nat := k * slabLen p procs + low (slabLen p procs) domZ b

/-- The path of a particle that is now in domain `(a, b)` of process `k` touches the cells of a domain row before it or behind
it, up to the cell after the last one it visits. -/
def LeavesRow (p : Par K) (domR a : Nat) (q : Part K) : Prop :=
  (0 < a ∧ ⌊q.rOld / p.dr⌋ < (p.r0 : Int) + low p.nr domR a) ∨
  (a + 1 < domR ∧ (p.r0 : Int) + low p.nr domR (a + 1) ≤ max ⌊q.r / p.dr⌋ ⌊q.rOld / p.dr⌋ + 1)

/-- The path touches the cells of another process. -/
def LeavesSlab (p : Par K) (procs k : Nat) (q : Part K) : Prop :=
  (0 < k ∧ ⌊q.zOld / p.dz⌋ < ((k * slabLen p procs : Nat) : Int)) ∨
  (k + 1 < procs ∧ (((k + 1) * slabLen p procs : Nat) : Int) ≤ max ⌊q.z / p.dz⌋ ⌊q.zOld / p.dz⌋ + 1)

/-- The path cuts a corner whose cells get nothing: the upper left or lower right corner of the domain within the process
(compare `CutsCorner`), or any corner at the border to another process. -/
def CutsCornerMpi (p : Par K) (procs domR domZ k a b : Nat) (q : Part K) : Prop :=
  (0 < a ∧ b + 1 < domZ ∧ ⌊q.rOld / p.dr⌋ < (p.r0 : Int) + low p.nr domR a ∧
    (colStart p procs domZ k (b + 1) : Int) ≤ max ⌊q.z / p.dz⌋ ⌊q.zOld / p.dz⌋ + 1) ∨
  (0 < b ∧ a + 1 < domR ∧ ⌊q.zOld / p.dz⌋ < (colStart p procs domZ k b : Int) ∧
    (p.r0 : Int) + low p.nr domR (a + 1) ≤ max ⌊q.r / p.dr⌋ ⌊q.rOld / p.dr⌋ + 1) ∨
  (LeavesRow p domR a q ∧ LeavesSlab p procs k q)

end Yee
end Pico
