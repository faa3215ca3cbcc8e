import Verif.Model.PicFull
import Verif.Model.PicBeam

/-!
# The whole simulation step: beams, external fields and collisions together  (`/repo/src/PiCoPiC.cpp:299-349`, `/repo/src/SMB.cpp:1231-1330`)

`Model/PicFull.lean` has the step with external fields and collisions but without beams, `Model/PicBeam.lean` that with beams but without
the two others.  This is the step of a build and a configuration with all of them.
-/

namespace Pico
namespace Pic

open SMB Yee

/-- A build with its options and a configuration with beams. -/
structure GEnv where
  full : Full
  beams : List (Beam.Conf ℝ)

/-- The same configuration without the options of the build. -/
def GEnv.b (G : GEnv) : BEnv := ⟨G.full.env, G.beams⟩

/-- The state of a run. -/
structure GState where
  f : FState
  bunch : Nat → Nat → Nat → Nat

/-- The state without external fields and lists of the collisions. -/
def GState.b (S : GState) : BState := ⟨S.f.s, S.bunch⟩

/-- The state after the injection, which concerns neither external fields nor lists. -/
def GState.after (S : GState) (S1 : BState) : FState := ⟨S1.s, S.f.X, S.f.maps⟩

/-- Move, hand-over and currents, `/repo/src/SMB.cpp:1295-1330`: beams have their own `reflect` (`/repo/src/beamP.cpp:160-186`). -/
def Lands (G : GEnv) (S : FState) (M1 : Solvers ℝ) (H : Nat → Nat → Nat → Part ℝ) (S' : State) : Prop :=
  (∀ i j, i < G.full.env.domR → j < G.full.env.domZ → ∀ sp ∈ S.s.D i j, ∀ o ∈ sp.parts,
      (G.b.isBeam sp.id → BeamAdvance G.full.env.p.dt (G.full.env.geom i j) (G.full.env.walls i j) (H i j o.tag) (S'.heap o.tag)) ∧
      (¬ G.b.isBeam sp.id → Part.Advance G.full.env.p.dt (G.full.env.geom i j) (G.full.env.walls i j) (H i j o.tag) (S'.heap o.tag))) ∧
    (∀ a, (∀ i j, i < G.full.env.domR → j < G.full.env.domZ → ∀ sp ∈ S.s.D i j, ∀ o ∈ sp.parts, o.tag ≠ a) → S'.heap a = S.s.heap a) ∧
    collect (geoOf G.full.env.p G.full.env.domR G.full.env.domZ) (cellsOf S'.heap S.s.D) = .ok S'.D ∧
    solveCurrent G.full.env.dist G.full.env.p G.full.env.domR G.full.env.domZ G.full.env.e (depositsOf G.full.env S'.heap S'.D) M1 = .ok S'.M

/-- One pass of the main loop at time `t`, `/repo/src/PiCoPiC.cpp:326-335`: injection, fields, push, collisions, move, hand-over,
currents. -/
def GStep (G : GEnv) (t : ℝ) (S S' : GState) : Prop :=
  ∃ rnd new S1 M1 H, Uniform01 rnd ∧ Injects G.b t rnd new S.b S1 ∧ Speeds G.full (S.after S1) M1 S'.f.X S'.f.maps H ∧
    Lands G (S.after S1) M1 H S'.f.s ∧ S'.bunch = S1.bunch

/-- `n` passes of the main loop; pass `k` is at time `k * dt`, `/repo/src/PiCoPiC.cpp:299,349`, `/repo/src/cfg.cpp:438`. -/
inductive GRun (G : GEnv) (S : GState) : Nat → GState → Prop
  | start : GRun G S 0 S
  | step {n : Nat} {S' S'' : GState} : GRun G S n S' → GStep G (n * G.full.env.p.dt) S' S'' → GRun G S (n + 1) S''

end Pic
end Pico
