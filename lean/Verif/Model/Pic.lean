import Verif.Model.CurrentStep
import Verif.Model.Collector
import Verif.Model.Particle
import Verif.Model.Pusher

/-!
# The whole simulation step  (`/repo/src/PiCoPiC.cpp:318-349`, `/repo/src/SMB.cpp:1231-1308`)

One process, several domains.  Not included: beams, collisions between particles and external fields (all three are switched
off unless the build or the configuration asks for them), and the output, which changes nothing.

Particles are objects on the heap and the lists of the species hold pointers to them (`/repo/include/specieP.hpp:163`), so the
state has a heap; in the lists of `SMB.Doms` only the `tag` (the address) matters here.
-/

namespace Pico
namespace Pic

open SMB Yee

/-- What the build and the configuration fix: the area, its division, the constants, the speed of light, the limit of the
relativistic range, the pusher, the deposition scheme, charge and mass of the species with a given identifier. -/
structure Env where
  p : Yee.Par ℝ
  domR : Nat
  domZ : Nat
  e : Consts ℝ
  c : ℝ
  lim : ℝ
  kind : Pusher.Kind
  dist : VB.Ctx ℝ → List (VB.Part ℝ) → Mem ℝ → Res (Mem ℝ)
  charge : Nat → ℝ
  mass : Nat → ℝ

/-- The solvers of the domains, the particles on the heap, the lists of the species of the domains. -/
structure State where
  M : Solvers ℝ
  heap : Nat → Part ℝ
  D : Doms

/-- Geometry of domain `(i, j)`, `/repo/src/SMB.cpp:73-123`. -/
noncomputable def Env.geom (E : Env) (i j : Nat) : Geom ℝ := (domCtx E.p E.domR E.domZ E.e i j).g

/-- Walls of domain `(i, j)`, `/repo/src/SMB.cpp:53-70`. -/
def Env.walls (E : Env) (i j : Nat) : Part.Walls :=
  let w := domWalls (geoOf E.p E.domR E.domZ) i j
  ⟨w.r0, w.z0, w.rr, w.zz⟩

/-- Constants of a push of a particle of a species. -/
noncomputable def Env.pushPar (E : Env) (id : Nat) : Pusher.Par := ⟨E.c, E.p.mu, E.lim, E.p.dt, E.charge id, E.mass id⟩

/-- The velocity of a particle. -/
def vel (a : Part ℝ) : Vec3 ℝ := ⟨a.velR, a.velPhi, a.velZ⟩

/-- A particle with another velocity. -/
def setVel (a : Part ℝ) (v : Vec3 ℝ) : Part ℝ := { a with velR := v.x, velPhi := v.y, velZ := v.z }

/-- What `advance_particles` does to one particle of domain `(i, j)` with fields `m` before the hand-over,
`/repo/src/SMB.cpp:1287-1303`: push and move.  The code does each stage for all particles of the domain before the next stage;
no stage looks at other particles.  `junk` is the flag the default pusher does not initialise (C27). -/
def Moves (E : Env) (i j : Nat) (m : Mem ℝ) (id : Nat) (a b : Part ℝ) : Prop :=
  ∃ junk v, Pusher.push E.kind (E.pushPar id) junk E.e.pi (E.geom i j) m a.posR a.posZ (vel a) = .ok v ∧
    Part.Advance E.p.dt (E.geom i j) (E.walls i j) (setVel a v) b

/-- Conversion of `size_t` to `int` (the value modulo `2 ^ 32`, as all compilers do it), `/repo/src/SMB.cpp:239-241`. -/
def asInt (n : Nat) : Int := ((n : Int) + 2 ^ 31) % 2 ^ 32 - 2 ^ 31

/-- The lists with the cell numbers that the hand-over reads. -/
def cellsOf (heap : Nat → Part ℝ) (D : Doms) : Doms := fun i j =>
  (D i j).map fun sp => { sp with parts := sp.parts.map fun o => ⟨asInt (heap o.tag).cellR, asInt (heap o.tag).cellZ, o.tag⟩ }

/-- A particle as the deposition reads it, `/repo/src/current/currentZigZag.cpp:30-64`. -/
def depositOf (charge : ℝ) (a : Part ℝ) : VB.Part ℝ := ⟨a.posR, a.posZ, a.oldR, a.oldZ, a.velPhi, a.cellR, a.cellZ, charge * a.weight⟩

/-- The particles of domain `(i, j)` in the order of the deposition: species by species. -/
def depositsOf (E : Env) (heap : Nat → Part ℝ) (D : Doms) (i j : Nat) : List (VB.Part ℝ) :=
  (D i j).flatMap fun sp => sp.parts.map fun o => depositOf (E.charge sp.id) (heap o.tag)

/-- One pass of the main loop, `/repo/src/PiCoPiC.cpp:326-335`: fields, particles, hand-over, currents.  A loop that does not
terminate and undefined behaviour relate the state to nothing. -/
def Step (E : Env) (S S' : State) : Prop :=
  ∃ M1, solveMaxwell (domPar E.p E.domR E.domZ) E.domR E.domZ S.M = .ok M1 ∧
    (∀ i j, i < E.domR → j < E.domZ → ∀ sp ∈ S.D i j, ∀ o ∈ sp.parts, Moves E i j (M1 i j) sp.id (S.heap o.tag) (S'.heap o.tag)) ∧
    (∀ a, (∀ i j, i < E.domR → j < E.domZ → ∀ sp ∈ S.D i j, ∀ o ∈ sp.parts, o.tag ≠ a) → S'.heap a = S.heap a) ∧
    collect (geoOf E.p E.domR E.domZ) (cellsOf S'.heap S.D) = .ok S'.D ∧
    solveCurrent E.dist E.p E.domR E.domZ E.e (depositsOf E S'.heap S'.D) M1 = .ok S'.M

/-- `n` passes of the main loop. -/
inductive Run (E : Env) (S : State) : Nat → State → Prop
  | start : Run E S 0 S
  | step {n : Nat} {S' S'' : State} : Run E S n S' → Step E S' S'' → Run E S (n + 1) S''

end Pic
end Pico
