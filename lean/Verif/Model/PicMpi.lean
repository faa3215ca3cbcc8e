import Verif.Model.Pic
import Verif.Model.CurrentMpi
import Verif.Model.HandMpi

/-!
# The whole simulation step of several processes  (`/repo/src/PiCoPiC.cpp:318-349`, `/repo/src/SMB.cpp` with `ENABLE_MPI`)

As `Model/Pic.lean`, with the area divided between processes.  `Env.domZ` is the number of domain columns of the configuration,
which is the number for all processes together (`/repo/src/PiCoPiC.cpp:224`).

A particle that is sent to another process is copied member by member into a new object (`/repo/src/SMB.cpp:365-373,441-466`)
and the original is deleted (`/repo/src/SMB.cpp:553-560`); the model keeps one object with one tag for it.  The barriers between the
phases (`/repo/src/SMB.cpp:355,551`) are the reason why the phases of all processes can be put one after the other.
-/

namespace Pico
namespace Pic

open SMB Yee

/-- Domain columns of one process, `/repo/src/PiCoPiC.cpp:224`. -/
def Env.cols (E : Env) (procs : Nat) : Nat := E.domZ / procs

/-- The solvers, particles and lists of all processes. -/
structure StateMpi where
  M : Nat → Solvers ℝ
  heap : Nat → Part ℝ
  D : Nat → Doms

/-- Geometry of domain `(i, j)` of process `k`, `/repo/src/SMB.cpp:73-123`. -/
noncomputable def Env.geomMpi (E : Env) (procs k i j : Nat) : Geom ℝ := (mpiCtx E.p procs E.domR (E.cols procs) E.e k i j).g

/-- Walls of domain `(i, j)` of process `k`, `/repo/src/SMB.cpp:53-70`, `/repo/src/PiCoPiC.cpp:230-234`. -/
def Env.wallsMpi (E : Env) (procs k i j : Nat) : Part.Walls :=
  let w := domWalls (geoMpi E.p procs E.domR (E.cols procs) k) i j
  ⟨w.r0, w.z0, w.rr, w.zz⟩

/-- What `advance_particles` does to one particle of domain `(i, j)` of process `k` before the hand-over, `/repo/src/SMB.cpp:1287-1303`;
compare `Moves`. -/
def MovesMpi (E : Env) (procs k i j : Nat) (m : Mem ℝ) (id : Nat) (a b : Part ℝ) : Prop :=
  ∃ junk v, Pusher.push E.kind (E.pushPar id) junk E.e.pi (E.geomMpi procs k i j) m a.posR a.posZ (vel a) = .ok v ∧
    Part.Advance E.p.dt (E.geomMpi procs k i j) (E.wallsMpi procs k i j) (setVel a v) b

/-- One pass of the main loop of all processes, `/repo/src/PiCoPiC.cpp:326-335`, with some schedule of the messages and `cap`
messages buffered per ordered pair of processes. -/
def StepMpi (E : Env) (procs cap : Nat) (S S' : StateMpi) : Prop :=
  ∃ M1, SolveMpi (mpiPar E.p procs E.domR (E.cols procs)) procs E.domR (E.cols procs) cap S.M M1 ∧
    (∀ k i j, k < procs → i < E.domR → j < E.cols procs → ∀ sp ∈ S.D k i j, ∀ o ∈ sp.parts,
      MovesMpi E procs k i j (M1 k i j) sp.id (S.heap o.tag) (S'.heap o.tag)) ∧
    (∀ a, (∀ k i j, k < procs → i < E.domR → j < E.cols procs → ∀ sp ∈ S.D k i j, ∀ o ∈ sp.parts, o.tag ≠ a) → S'.heap a = S.heap a) ∧
    HandOver (geoOf E.p E.domR E.domZ) procs cap (fun o => (S'.heap o.tag).specieId) (fun k => cellsOf S'.heap (S.D k)) S'.D ∧
    CurrentMpi E.dist E.p procs E.domR (E.cols procs) cap E.e (fun k => depositsOf E S'.heap (S'.D k)) M1 S'.M

/-- `n` passes. -/
inductive RunMpi (E : Env) (procs cap : Nat) (S : StateMpi) : Nat → StateMpi → Prop
  | start : RunMpi E procs cap S 0 S
  | step {n : Nat} {S' S'' : StateMpi} : RunMpi E procs cap S n S' → StepMpi E procs cap S' S'' → RunMpi E procs cap S (n + 1) S''

end Pic
end Pico
