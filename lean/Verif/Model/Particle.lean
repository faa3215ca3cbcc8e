import Verif.Model.Geometry
import Verif.Model.Rel

/-!
# Particles: moving, walls, cells  (`/repo/include/specieP.hpp`, `/repo/src/specieP.cpp`, `/repo/src/beamP.cpp`)

Each function is the body of a loop over the particles of a species.
-/

namespace Pico

/-- `while (cond) body` as a relation between the state before and the state after; a loop that does not
terminate relates its start to nothing. -/
inductive While {σ : Type _} (cond : σ → Bool) (body : σ → σ) : σ → σ → Prop where
  | done {s : σ} : cond s = false → While cond body s s
  | step {s t : σ} : cond s = true → While cond body (body s) t → While cond body s t

/-- `Particle`, `/repo/include/specieP.hpp:74-119`. -/
structure Part (K : Type _) where
  posR : K
  posPhi : K
  posZ : K
  oldR : K
  oldPhi : K
  oldZ : K
  velR : K
  velPhi : K
  velZ : K
  weight : K
  sin : K
  cellR : Nat
  cellZ : Nat
  mark : Nat
  specieId : Nat

namespace Part

variable {K : Type _} [Field K] [LinearOrder K] [IsStrictOrderedRing K] [FloorRing K]

/-- Body of `mover_cylindrical`, `/repo/src/specieP.cpp:482-491`. -/
def move (dt : K) (p : Part K) : Part K :=
  { p with posR := p.posR + p.velR * dt, posPhi := p.posPhi + p.velPhi * dt, posZ := p.posZ + p.velZ * dt }

/-- Body of `dump_position_to_old`, `/repo/src/specieP.cpp:642-650`. -/
def dumpOld (p : Part K) : Part K := { p with oldR := p.posR, oldPhi := p.posPhi, oldZ := p.posZ }

/-- Conversion of `int` to `size_t` (64 bit). -/
def toSizeT (n : Int) : Nat := (n % 2 ^ 64).toNat

/-- Body of `bind_cell_numbers`, `/repo/src/specieP.cpp:652-663`; the cell numbers are stored in members of
type `size_t`, `/repo/include/specieP.hpp:92-93`. -/
def bindCell (g : Geom K) (p : Part K) : Res (Part K) :=
  cellNumber p.posR g.dr >>= fun rCell =>
  cellNumber p.posZ g.dz >>= fun zCell =>
  .ok { p with cellR := toSizeT rCell, cellZ := toSizeT zCell }

/-- `geometry->walls`: r=0, z=0, outer r, outer z; `/repo/include/geometry.hpp:41`. -/
structure Walls where
  r0 : Bool
  z0 : Bool
  r1 : Bool
  z1 : Bool

/-- What the loop of `reflect` works on: the local position and the two velocity components. -/
structure Refl (K : Type _) where
  r : K
  z : K
  vr : K
  vz : K

/-- Condition of the loop, `/repo/src/specieP.cpp:521-529`.  `isnormal` of an exact number means that it is
not zero.  `geometry->size` is `cell_amount` times `cell_size` (`/repo/include/geometry.hpp:67-68`). -/
def reflCond (g : Geom K) (w : Walls) (s : Refl K) : Bool :=
  s.r ≠ 0 && s.z ≠ 0 &&
    ((g.nr * g.dr - g.dr / 2 < s.r && w.r1) || (g.nz * g.dz - g.dz / 2 < s.z && w.z1) ||
     (s.r < g.dr / 2 && w.r0) || (s.z < g.dz / 2 && w.z0))

/-- Lines 531-545: outer radial wall. -/
def reflR1 (g : Geom K) (w : Walls) (s : Refl K) : Refl K :=
  if g.nr * g.dr - g.dr / 2 < s.r && w.r1 then { s with vr := -s.vr, r := (g.nr * g.dr - g.dr / 2) * 2 - s.r } else s
/-- Lines 547-562: right wall. -/
def reflZ1 (g : Geom K) (w : Walls) (s : Refl K) : Refl K :=
  if g.nz * g.dz - g.dz / 2 < s.z && w.z1 then { s with vz := -s.vz, z := (g.nz * g.dz - g.dz / 2) * 2 - s.z } else s
/-- Lines 564-582: axis. -/
def reflR0 (g : Geom K) (w : Walls) (s : Refl K) : Refl K :=
  if s.r < g.dr / 2 && w.r0 then
    let r := g.dr - s.r
    { s with vr := -s.vr, r := if r < g.dr / 2 then g.dr / 2 else r }
  else s
/-- Lines 584-602: left wall. -/
def reflZ0 (g : Geom K) (w : Walls) (s : Refl K) : Refl K :=
  if s.z < g.dz / 2 && w.z0 then
    let z := g.dz - s.z
    { s with vz := -s.vz, z := if z < g.dz / 2 then g.dz / 2 else z }
  else s

/-- Body of the loop, `/repo/src/specieP.cpp:531-602`.  The updates of `pos_old_*` and `pos_delta_*` are left
out: they only feed each other (the old position of the particle itself is not changed); their divisions may
give infinity or NaN, which does not reach the result. -/
def reflBody (g : Geom K) (w : Walls) (s : Refl K) : Refl K :=
  reflZ0 g w (reflR0 g w (reflZ1 g w (reflR1 g w s)))

/-- `SpecieP::reflect` for one particle, `/repo/src/specieP.cpp:493-607`, as a relation. -/
def Reflect (g : Geom K) (w : Walls) (p q : Part K) : Prop :=
  ∃ s, While (reflCond g w) (reflBody g w) ⟨p.posR - g.r0 * g.dr, p.posZ - g.z0 * g.dz, p.velR, p.velZ⟩ s ∧
    q = { p with posR := s.r + g.r0 * g.dr, posZ := s.z + g.z0 * g.dz, velR := s.vr, velZ := s.vz }

/-- `BeamP::reflect` for one particle, `/repo/src/beamP.cpp:159-177`. -/
def beamReflect (g : Geom K) (w : Walls) (p : Part K) : Part K :=
  if p.posR - g.r0 * g.dr < g.dr / 2 && w.r0 then
    { p with posR := g.dr - (p.posR - g.r0 * g.dr) + g.r0 * g.dr, velR := -p.velR }
  else p

/-- Body of `back_position_to_rz`, `/repo/src/specieP.cpp:609-622`; the division by zero on the axis (NaN) is
`ub`. -/
noncomputable def backPos (p : Part ℝ) : Res (Part ℝ) :=
  let r := Real.sqrt (p.posR * p.posR + p.posPhi * p.posPhi)
  if r = 0 then .ub else .ok { p with sin := p.posPhi / r, posR := r, posPhi := 0 }

/-- Body of `back_velocity_to_rz`, `/repo/src/specieP.cpp:624-640`, with `P_COS` of
`/repo/include/specieP.hpp:66`. -/
noncomputable def backVel (p : Part ℝ) : Part ℝ :=
  let cos := Real.sqrt (1 - p.sin * p.sin)
  { p with velR := cos * p.velR - p.sin * p.velPhi, velPhi := p.sin * p.velR + cos * p.velPhi }

/-- What `advance_particles` does to a particle of a domain after the push and the collisions, without its last
statement (the hand-over), `/repo/src/SMB.cpp:1295-1303`, for a species that is not a beam. -/
def Advance (dt : ℝ) (g : Geom ℝ) (w : Walls) (p q : Part ℝ) : Prop :=
  ∃ a b, backPos ((p.dumpOld).move dt) = .ok a ∧ Reflect g w a b ∧ bindCell g (backVel b) = .ok q

end Part
end Pico
