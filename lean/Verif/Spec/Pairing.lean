import Verif.Model.Pairing

/-! Vocabulary for the pairing properties C36, C37, C41. -/

namespace Pico
namespace Coll

/-- In how many pairs of the list the particle `k` takes part, on either side. -/
def occ (l : List (Nat × Nat)) (k : Nat) : Nat := l.countP fun p => p.1 == k || p.2 == k
/-- ... on the left, on the right side. -/
def occL (l : List (Nat × Nat)) (k : Nat) : Nat := l.countP fun p => p.1 == k
def occR (l : List (Nat × Nat)) (k : Nat) : Nat := l.countP fun p => p.2 == k

/-- The particles of the species with ion (non-ion) names that are bound to a cell. -/
def boundTo {K : Type _} (heap : Nat → Part K) (ion : Bool) (sp : List Species) (r z : Nat) : List Nat :=
  ((sp.filter fun s => (s.name == "ions" || s.name == "Ions") == ion).flatMap Species.particles).filter
    fun p => (heap p).cellR == r && (heap p).cellZ == z

/-- The maps of a domain of `nr` by `nz` cells. -/
def Maps.Shape (nr nz : Nat) (m : Maps) : Prop :=
  (m.el.os = 2 ∧ m.el.xs = nr ∧ m.el.ys = nz) ∧ m.ion.os = 2 ∧ m.ion.xs = nr ∧ m.ion.ys = nz

/-- A particle is bound to a cell of the domain. -/
def Bound {K : Type _} (r0 z0 nr nz : Nat) (p : Part K) : Prop := (r0 ≤ p.cellR ∧ p.cellR < r0 + nr) ∧ z0 ≤ p.cellZ ∧ p.cellZ < z0 + nz

end Coll
end Pico
