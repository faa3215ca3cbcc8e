import Verif.Model.PicBeam
import Verif.Spec.Pic
import Verif.Spec.Beam

/-! Specification vocabulary for whole runs with beams. -/

namespace Pico
namespace Pic

open SMB Yee

/-- A closed chamber with beams: physically meaningful beams that are slower than light, with different identifiers, and radii that
are not more than `2^31` axial cells (the axial cell number of an injected particle is computed from its radius). -/
structure BeamChamber (B : BEnv) : Prop where
  chamber : Chamber B.env
  beams : ∀ b ∈ B.beams, b.Good ∧ 0 < b.density ∧ b.velocity < B.env.c
  ids : (B.beams.map (·.id)).Nodup
  big : B.env.p.nr + 2 ≤ 2 ^ 31
  cells : ((B.env.p.nr : ℝ) + 1) * B.env.p.dr ≤ 2 ^ 31 * B.env.p.dz

/-- The position is inside the chamber. -/
def Inside (E : Env) (a : Part ℝ) : Prop := (0 ≤ a.posR ∧ a.posR < E.p.nr * E.p.dr) ∧ 0 ≤ a.posZ ∧ a.posZ < E.p.nz * E.p.dz

/-- The particle `a` of a beam is in domain `(i, j)`, in the plane, not closer to the axis than half a cell, slower than light, and its
cell numbers are those of its position. -/
structure BeamPlace (E : Env) (i j : Nat) (a : Part ℝ) : Prop where
  phi : a.posPhi = 0
  dom : (E.geom i j).Contains a.posR a.posZ
  r1 : E.p.dr / 2 ≤ a.posR
  slow : (vel a).length2 < E.c ^ 2
  cellR : (a.cellR : Int) = ⌊a.posR / E.p.dr⌋
  cellZ : (a.cellZ : Int) = ⌊a.posZ / E.p.dz⌋

/-- A sane state of a run with the species `ids`, some of which are beams. -/
structure BAlive (B : BEnv) (ids : List Nat) (S : BState) : Prop where
  beams : ∀ b ∈ B.beams, b.id ∈ ids
  species : ∀ i j, (S.s.D i j).map Sp.id = ids
  once : (ids.flatMap (tagsOf B.env S.s.D)).Nodup
  place : ∀ i j, i < B.env.domR → j < B.env.domZ → ∀ sp ∈ S.s.D i j, ¬ B.isBeam sp.id → ∀ o ∈ sp.parts, InPlace B.env i j (S.s.heap o.tag)
  flying : ∀ i j, i < B.env.domR → j < B.env.domZ → ∀ sp ∈ S.s.D i j, B.isBeam sp.id → ∀ o ∈ sp.parts, BeamPlace B.env i j (S.s.heap o.tag)
  fields : ∃ m, ∀ c, c.isSource = false → Windows B.env.p B.env.domR B.env.domZ c S.s.M m

/-- In the flight that follows, no particle of the plasma will arrive exactly at a border of its domain and no particle of a beam exactly
on the axis. -/
def NoBorderB (B : BEnv) (S : State) : Prop :=
  ∀ M1, solveMaxwell (domPar B.env.p B.env.domR B.env.domZ) B.env.domR B.env.domZ S.M = .ok M1 →
    ∀ i j, i < B.env.domR → j < B.env.domZ → ∀ sp ∈ S.D i j, ∀ o ∈ sp.parts, ∀ junk v,
      Pusher.push B.env.kind (B.env.pushPar sp.id) junk B.env.e.pi (B.env.geom i j) (M1 i j) (S.heap o.tag).posR (S.heap o.tag).posZ (vel (S.heap o.tag)) = .ok v →
      (¬ B.isBeam sp.id → Clear B.env i j (S.heap o.tag) v) ∧ (B.isBeam sp.id → landR B.env (S.heap o.tag) v ≠ 0)

/-- The addresses of the particles that beam `id` injects in a step. -/
def injected (B : BEnv) (new : Nat → Nat → Nat → List Nat) (id : Nat) : List Nat :=
  (allDoms (geoOf B.env.p B.env.domR B.env.domZ)).flatMap fun q => new q.1 q.2 id

end Pic
end Pico
