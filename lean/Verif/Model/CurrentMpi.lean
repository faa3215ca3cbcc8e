import Verif.Model.CurrentStep
import Verif.Model.FieldMpi

/-!
# The current step of several processes  (`/repo/src/SMB.cpp` with `ENABLE_MPI`)

Every process deposits the currents of its own particles in its own domains, exchanges the overlays between its domains and then
exchanges columns with the neighbouring processes.
-/

namespace Pico
namespace Yee

open SMB VB

variable {K : Type _}

/-- Geometry of process `k` as `SMB::SMB` reads it, `/repo/src/PiCoPiC.cpp:217-233`: like `geoOf`, but the columns of the
process start at `cell_dims[1] = cells per process * k`. -/
def geoMpi (p : Par K) (procs domR domZ k : Nat) : Geo :=
  { geoOf (slabPar p procs k) domR domZ with offZ := p.nz / procs * k }

/-- Surroundings of the deposition in domain `(i, j)` of process `k`, `/repo/src/SMB.cpp:73-123`: cell size and cell rectangle
of the domain. -/
def mpiCtx [Field K] (p : Par K) (procs domR domZ : Nat) (e : Consts K) (k i j : Nat) : Ctx K :=
  ctxOf (mpiPar p procs domR domZ k i j) (domDims (geoMpi p procs domR domZ k) i j).z0 e

/-- `SMB::solve_current` of process `k` up to the exchange between its domains, `/repo/src/SMB.cpp:1266-1279,565-593` with
`Domain::reset_current` and `Domain::weight_current` (`/repo/src/domain.cpp:135-139,188-191`); compare `solveCurrent`. -/
def processCurrent [Field K] [LinearOrder K] [IsStrictOrderedRing K] [FloorRing K]
    (dist : Ctx K → List (Part K) → Mem K → Res (Mem K)) (p : Par K) (procs domR domZ : Nat) (e : Consts K) (k : Nat)
    (ps : Nat → Nat → List (Part K)) (M : Solvers K) : Res (Solvers K) :=
  each domR domZ (fun i j m => dist (mpiCtx p procs domR domZ e k i j) (ps i j) (resetCurrent (mpiCtx p procs domR domZ e k i j).g m)) M >>=
    loop (overlayComp (mpiPar p procs domR domZ k) domR domZ) [.jr, .jp, .jz]

/-- `SMB::solve_current` of all processes: the exchange between the domains of each process, then the exchange of columns
between the processes, `/repo/src/SMB.cpp:596-780`.  The columns, messages and additions are those of the field exchange
(`Exchange`); the code packs the columns for the next process by positions in memory (lines 621-644) and all others by logical
rows, which are the same rows. -/
def CurrentMpi [Field K] [LinearOrder K] [IsStrictOrderedRing K] [FloorRing K]
    (dist : Ctx K → List (Part K) → Mem K → Res (Mem K)) (p : Par K) (procs domR domZ cap : Nat) (e : Consts K)
    (ps : Nat → Nat → Nat → List (Part K)) (M M' : Nat → Solvers K) : Prop :=
  ∃ M1 : Nat → Solvers K, (∀ k, k < procs → processCurrent dist p procs domR domZ e k (ps k) (M k) = .ok (M1 k)) ∧
    Exchange (mpiPar p procs domR domZ) procs domR domZ cap [.jr, .jp, .jz] M1 M'

end Yee
end Pico
