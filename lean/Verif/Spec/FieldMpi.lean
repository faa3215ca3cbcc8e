import Verif.Spec.FieldStep
import Verif.Model.FieldMpi

/-! Specification vocabulary for an area that is divided between processes. -/

namespace Pico
namespace Yee

variable {K : Type _}

/-- How an area can be divided between `procs` processes with `domR × domZ` domains each: into equal slabs, and each slab as a
single process may divide it (`Divided`, which does not depend on the number of the process). -/
structure Slabs (p : Par K) (procs domR domZ : Nat) : Prop where
  p1 : 1 ≤ procs
  pz : procs ∣ p.nz
  r3 : p.nr + 4 < 2 ^ 31
  z3 : p.nz + 4 < 2 ^ 31
  hd : Divided (slabPar p procs 0) domR domZ

/-- Columns of one process. -/
def slabLen (p : Par K) (procs : Nat) : Nat := p.nz / procs

/-- Row of the undivided area of row `x` of a domain in domain row `i`. -/
def rowOf (p : Par K) (domR i : Nat) (x : Int) : Int := low p.nr domR i + x

/-- Column of the undivided area of column `y` of a domain in domain column `j` of process `k`. -/
def colOf (p : Par K) (procs domZ k j : Nat) (y : Int) : Int := k * slabLen p procs + (low (slabLen p procs) domZ j + y)

/-- Cell `(x, y)` of domain `(i, j)` of process `k`. -/
def CellOfMpi (p : Par K) (procs domR domZ k i j : Nat) (x y : Int) : Prop :=
  k < procs ∧ i < domR ∧ j < domZ ∧ (0 ≤ x ∧ x < hgt p.nr domR i) ∧ (0 ≤ y ∧ y < hgt (slabLen p procs) domZ j)

/-- The domains of all processes have the sources of the undivided area in their cells. -/
def SameSourcesMpi (p : Par K) (procs domR domZ : Nat) (loc : Nat → Nat → Nat → Comp → Int → Int → K) (src : Comp → Int → Int → K) : Prop :=
  ∀ k i j x y c, c.isSource = true → CellOfMpi p procs domR domZ k i j x y →
    loc k i j c x y = src c (rowOf p domR i x) (colOf p procs domZ k j y)

/-- Cell `(x, y)` of domain `(i, j)` of process `k` or of its overlay of width 2 without the corners of the overlay (the field
equations do not read the corners). -/
def EdgeOfMpi (p : Par K) (procs domR domZ k i j : Nat) (x y : Int) : Prop :=
  k < procs ∧ i < domR ∧ j < domZ ∧ (-2 ≤ x ∧ x < hgt p.nr domR i + 2) ∧ (-2 ≤ y ∧ y < hgt (slabLen p procs) domZ j + 2) ∧
    ((0 ≤ x ∧ x < hgt p.nr domR i) ∨ (0 ≤ y ∧ y < hgt (slabLen p procs) domZ j))

/-- The magnetic field of the solver (`field_h`). -/
def Comp.isMag : Comp → Bool
  | .hr | .hp | .hz => true
  | _ => false

/-- The electric field. -/
def Comp.isEl : Comp → Bool
  | .er | .ep | .ez => true
  | _ => false

/-- What process `k` sees of the fields `u` of the whole area: the magnetic field is zero beyond the borders of its slab. -/
def cut [Zero K] (p : Par K) (procs k : Nat) (u : Mem K) : Mem K := fun c X Y =>
  if c.isMag = true ∧ ¬ ((k * slabLen p procs : Nat) ≤ Y ∧ Y < ((k + 1) * slabLen p procs : Nat)) then 0 else u c X Y

/-- The electric field of every column is the one computed by its process. -/
def glue (p : Par K) (procs : Nat) (f : Nat → Mem K) (u : Mem K) : Mem K := fun c X Y =>
  if c.isEl then f (Y / slabLen p procs).toNat c X Y else u c X Y

/-- A field step of an undivided area whose electric step ignores the magnetic field beyond the borders between the processes. -/
def CutStep [Field K] (p : Par K) (procs : Nat) (u u' : Mem K) : Prop :=
  ∃ f : Nat → Mem K, (∀ k, calcE p (cut p procs k u) = .ok (f k)) ∧ calcH p (glue p procs f u) = .ok u'

/-- The domains of the processes hold the fields `u`, the magnetic field of the solver only up to the borders of the slab. -/
def HoldsMpi [Zero K] (p : Par K) (procs domR domZ : Nat) (M : Nat → Solvers K) (u : Mem K) : Prop :=
  ∀ k i j x y c, c.isSource = false → EdgeOfMpi p procs domR domZ k i j x y →
    M k i j c x y = cut p procs k u c (rowOf p domR i x) (colOf p procs domZ k j y)

/-- Column `Y` is at least `n - 1` columns to the right, or at least `n` columns to the left, of the border between any two
processes. -/
def FarFromBorders (p : Par K) (procs n : Nat) (Y : Int) : Prop :=
  ∀ k, 0 < k → k < procs → (k * slabLen p procs : Nat) + ((n : Int) - 1) ≤ Y ∨ Y + n ≤ (k * slabLen p procs : Nat)

end Yee
end Pico
