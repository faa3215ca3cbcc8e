import Verif.Model.Pic
import Verif.Model.Beam

/-!
# The whole simulation step with beams  (`/repo/src/PiCoPiC.cpp:299-349`, `/repo/src/SMB.cpp:1231-1322`)

As `Model/Pic.lean`, with the injection at the beginning of a step and with the beams' own `reflect`.
-/

namespace Pico
namespace Pic

open SMB Yee

/-- A configuration with beams.  A beam is a further species of every domain, `/repo/src/SMB.cpp:146-164`. -/
structure BEnv where
  env : Env
  beams : List (Beam.Conf ℝ)

/-- The species `id` is a beam. -/
def BEnv.isBeam (B : BEnv) (id : Nat) : Prop := ∃ b ∈ B.beams, b.id = id

/-- The state of a run: besides that of `Pic` the counters `current_bunch_number` of the beams in all domains. -/
structure BState where
  s : State
  bunch : Nat → Nat → Nat → Nat

/-- `inject_beam` at time `t`, `/repo/src/SMB.cpp:1308-1322`: `rnd i j id` are the random numbers that beam `id` draws in domain
`(i, j)`, `new i j id` the addresses of the particles it creates (`new Particle()`, `/repo/src/beamP.cpp:104`): addresses at which
there is no particle of the simulation.  The new particles are appended to the list of the beam. -/
def Injects (B : BEnv) (t : ℝ) (rnd : Nat → Nat → Nat → Nat → ℝ × ℝ) (new : Nat → Nat → Nat → List Nat) (S S' : BState) : Prop :=
  (∀ i j, i < B.env.domR → j < B.env.domZ → ∀ b ∈ B.beams,
    Beam.manage B.env.e.pi B.env.p.dt b (B.env.geom i j) t (rnd i j b.id) ⟨S.bunch i j b.id, []⟩ =
      .ok ⟨S'.bunch i j b.id, (new i j b.id).map S'.s.heap⟩) ∧
  (∀ i j id, ¬ B.isBeam id → new i j id = []) ∧
  (∀ i j id, i < B.env.domR → j < B.env.domZ → (new i j id).Nodup) ∧
  (∀ i j id i' j' id' a, i < B.env.domR → j < B.env.domZ → i' < B.env.domR → j' < B.env.domZ → a ∈ new i j id → a ∈ new i' j' id' →
    i = i' ∧ j = j' ∧ id = id') ∧
  (∀ i j, i < B.env.domR → j < B.env.domZ → ∀ id, ∀ a ∈ new i j id, ∀ i' j', i' < B.env.domR → j' < B.env.domZ → ∀ sp ∈ S.s.D i' j',
    ∀ o ∈ sp.parts, o.tag ≠ a) ∧
  (∀ a, (∀ i j id, i < B.env.domR → j < B.env.domZ → a ∉ new i j id) → S'.s.heap a = S.s.heap a) ∧
  S'.s.D = (fun i j => (S.s.D i j).map fun sp => { sp with parts := sp.parts ++ (new i j sp.id).map fun a => ⟨0, 0, a⟩ }) ∧
  S'.s.M = S.s.M

/-- `advance_particles` for a particle of a beam, without the push and the hand-over, `/repo/src/SMB.cpp:1295-1303`. -/
def BeamAdvance (dt : ℝ) (g : Geom ℝ) (w : Part.Walls) (p q : Part ℝ) : Prop :=
  ∃ a, Part.backPos ((p.dumpOld).move dt) = .ok a ∧ Part.bindCell g (Part.backVel (Part.beamReflect g w a)) = .ok q

/-- What `advance_particles` does to one particle of species `id` before the hand-over, `/repo/src/SMB.cpp:1287-1303`. -/
def BMoves (B : BEnv) (i j : Nat) (m : Mem ℝ) (id : Nat) (a b : Part ℝ) : Prop :=
  ∃ junk v, Pusher.push B.env.kind (B.env.pushPar id) junk B.env.e.pi (B.env.geom i j) m a.posR a.posZ (vel a) = .ok v ∧
    ((B.isBeam id → BeamAdvance B.env.p.dt (B.env.geom i j) (B.env.walls i j) (setVel a v) b) ∧
     (¬ B.isBeam id → Part.Advance B.env.p.dt (B.env.geom i j) (B.env.walls i j) (setVel a v) b))

/-- The rest of a pass after the injection: fields, particles, hand-over, currents. -/
def Flies (B : BEnv) (S S' : State) : Prop :=
  ∃ M1, solveMaxwell (domPar B.env.p B.env.domR B.env.domZ) B.env.domR B.env.domZ S.M = .ok M1 ∧
    (∀ i j, i < B.env.domR → j < B.env.domZ → ∀ sp ∈ S.D i j, ∀ o ∈ sp.parts, BMoves B i j (M1 i j) sp.id (S.heap o.tag) (S'.heap o.tag)) ∧
    (∀ a, (∀ i j, i < B.env.domR → j < B.env.domZ → ∀ sp ∈ S.D i j, ∀ o ∈ sp.parts, o.tag ≠ a) → S'.heap a = S.heap a) ∧
    collect (geoOf B.env.p B.env.domR B.env.domZ) (cellsOf S'.heap S.D) = .ok S'.D ∧
    solveCurrent B.env.dist B.env.p B.env.domR B.env.domZ B.env.e (depositsOf B.env S'.heap S'.D) M1 = .ok S'.M

/-- Random numbers as `math::random::uniform` gives them. -/
def Uniform01 (rnd : Nat → Nat → Nat → Nat → ℝ × ℝ) : Prop :=
  ∀ i j id n, 0 ≤ (rnd i j id n).1 ∧ (rnd i j id n).1 < 1 ∧ 0 ≤ (rnd i j id n).2 ∧ (rnd i j id n).2 < 1

/-- One pass of the main loop at time `t`, `/repo/src/PiCoPiC.cpp:326-335`, with any random numbers. -/
def BStep (B : BEnv) (t : ℝ) (S S' : BState) : Prop :=
  ∃ rnd new S1, Uniform01 rnd ∧ Injects B t rnd new S S1 ∧ Flies B S1.s S'.s ∧ S'.bunch = S1.bunch

/-- `n` passes of the main loop; pass `k` is at time `k * dt`, `/repo/src/PiCoPiC.cpp:299,349`, `/repo/src/cfg.cpp:438`. -/
inductive BRun (B : BEnv) (S : BState) : Nat → BState → Prop
  | start : BRun B S 0 S
  | step {n : Nat} {S' S'' : BState} : BRun B S n S' → BStep B (n * B.env.p.dt) S' S'' → BRun B S (n + 1) S''

end Pic
end Pico
