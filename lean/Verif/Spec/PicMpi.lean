import Verif.Model.PicMpi
import Verif.Spec.Pic
import Verif.Spec.FieldMpi

/-! Specification vocabulary for whole runs of several processes. -/

namespace Pico
namespace Pic

open SMB Yee

/-- The lists of all processes, with the domain columns numbered through: the columns of process `0`, then those of process `1`,
and so on. -/
def joined (E : Env) (procs : Nat) (D : Nat → Doms) : Doms := fun i J => D (J / E.cols procs) i (J % E.cols procs)

/-- A chamber as in `Chamber`, divided evenly between processes. -/
structure Shared (E : Env) (procs : Nat) : Prop where
  chamber : Chamber E
  slabs : Slabs E.p procs E.domR (E.cols procs)
  cols : procs ∣ E.domZ

/-- A sane state of a run of several processes with the species `ids`: every domain has the species, no particle is listed
twice in all processes, every particle is in the place where it is listed and carries the number of its species, the fields
of the domains of all processes fit together. -/
structure AliveMpi (E : Env) (procs : Nat) (ids : List Nat) (S : StateMpi) : Prop where
  species : ∀ k i j, k < procs → (S.D k i j).map Sp.id = ids
  once : (ids.flatMap (tagsOf E (joined E procs S.D))).Nodup
  place : ∀ i J, i < E.domR → J < E.domZ → ∀ sp ∈ joined E procs S.D i J, ∀ o ∈ sp.parts, InPlace E i J (S.heap o.tag)
  number : ∀ i J, i < E.domR → J < E.domZ → ∀ sp ∈ joined E procs S.D i J, ∀ o ∈ sp.parts, (S.heap o.tag).specieId = sp.id
  fields : ∃ u, HoldsMpi E.p procs E.domR (E.cols procs) S.M u

/-- No particle will arrive exactly at a border of its domain in the next step. -/
def NoBorderMpi (E : Env) (procs cap : Nat) (S : StateMpi) : Prop :=
  ∀ M1, SolveMpi (mpiPar E.p procs E.domR (E.cols procs)) procs E.domR (E.cols procs) cap S.M M1 →
    ∀ k i j, k < procs → i < E.domR → j < E.cols procs → ∀ sp ∈ S.D k i j, ∀ o ∈ sp.parts, ∀ junk v,
      Pusher.push E.kind (E.pushPar sp.id) junk E.e.pi (E.geomMpi procs k i j) (M1 k i j) (S.heap o.tag).posR (S.heap o.tag).posZ
        (vel (S.heap o.tag)) = .ok v →
      Clear E i (k * E.cols procs + j) (S.heap o.tag) v

/-- The number of particles of all processes. -/
def amount (E : Env) (procs : Nat) (ids : List Nat) (S : StateMpi) : Nat := (ids.flatMap (tagsOf E (joined E procs S.D))).length

end Pic
end Pico
