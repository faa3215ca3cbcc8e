import Verif.Model.Pic
import Verif.Spec.CurrentStep
import Verif.Props.Collector

/-! Specification vocabulary for whole runs: the chamber, particles in their places, particles that avoid exact borders. -/

namespace Pico
namespace Pic

open SMB Yee

/-- A closed chamber that includes the axis, simulated by one process, divided in an admissible way; the light travels at most
one cell per step (which the Courant condition implies); sane constants. -/
structure Chamber (E : Env) : Prop where
  r0 : E.p.r0 = 0
  walls : E.p.walls = ⟨true, true, true, true⟩
  div : Divided E.p E.domR E.domZ
  good : (ctxOf E.p 0 E.e).Good
  c : 0 < E.c
  cr : E.c * E.p.dt ≤ E.p.dr
  cz : E.c * E.p.dt ≤ E.p.dz
  mass : ∀ id, 0 < E.mass id

/-- The particle `a` is in domain `(i, j)`, in the plane, between the walls (which are half a cell inside the chamber), slower
than light, and its cell numbers are those of its position. -/
structure InPlace (E : Env) (i j : Nat) (a : Part ℝ) : Prop where
  phi : a.posPhi = 0
  dom : (E.geom i j).Contains a.posR a.posZ
  r1 : E.p.dr / 2 ≤ a.posR
  r2 : a.posR ≤ E.p.nr * E.p.dr - E.p.dr / 2
  z1 : E.p.dz / 2 ≤ a.posZ
  z2 : a.posZ ≤ E.p.nz * E.p.dz - E.p.dz / 2
  slow : (vel a).length2 < E.c ^ 2
  cellR : (a.cellR : Int) = ⌊a.posR / E.p.dr⌋
  cellZ : (a.cellZ : Int) = ⌊a.posZ / E.p.dz⌋

/-- Radius at which a particle arrives that flies in a straight line with velocity `v`. -/
noncomputable def landR (E : Env) (a : Part ℝ) (v : Vec3 ℝ) : ℝ :=
  Real.sqrt ((a.posR + v.x * E.p.dt) ^ 2 + (a.posPhi + v.y * E.p.dt) ^ 2)

/-- Axial position at which it arrives. -/
noncomputable def landZ (E : Env) (a : Part ℝ) (v : Vec3 ℝ) : ℝ := a.posZ + v.z * E.p.dt

/-- A particle of domain `(i, j)` that gets the velocity `v` does not arrive exactly at the lower or the left border of the
domain (for the first row: on the axis). -/
def Clear (E : Env) (i j : Nat) (a : Part ℝ) (v : Vec3 ℝ) : Prop :=
  landR E a v ≠ low E.p.nr E.domR i * E.p.dr ∧ landZ E a v ≠ low E.p.nz E.domZ j * E.p.dz

/-- The addresses of the particles of species `id` in all domains. -/
def tagsOf (E : Env) (D : Doms) (id : Nat) : List Nat :=
  (allDoms (geoOf E.p E.domR E.domZ)).flatMap fun q => (SMB.parts D q.1 q.2 id).map (·.tag)

/-- A sane state of a run with the species `ids`: every domain has the species, no particle is listed twice, all particles are
in their places, the fields of the domains fit together. -/
structure Alive (E : Env) (ids : List Nat) (S : State) : Prop where
  species : ∀ i j, (S.D i j).map Sp.id = ids
  once : (ids.flatMap (tagsOf E S.D)).Nodup
  place : ∀ i j, i < E.domR → j < E.domZ → ∀ sp ∈ S.D i j, ∀ o ∈ sp.parts, InPlace E i j (S.heap o.tag)
  fields : ∃ m, ∀ c, c.isSource = false → Windows E.p E.domR E.domZ c S.M m

/-- No particle will arrive exactly at a border of its domain in the next step. -/
def NoBorder (E : Env) (S : State) : Prop :=
  ∀ M1, solveMaxwell (domPar E.p E.domR E.domZ) E.domR E.domZ S.M = .ok M1 →
    ∀ i j, i < E.domR → j < E.domZ → ∀ sp ∈ S.D i j, ∀ o ∈ sp.parts, ∀ junk v,
      Pusher.push E.kind (E.pushPar sp.id) junk E.e.pi (E.geom i j) (M1 i j) (S.heap o.tag).posR (S.heap o.tag).posZ (vel (S.heap o.tag)) = .ok v →
      Clear E i j (S.heap o.tag) v

end Pic
end Pico
