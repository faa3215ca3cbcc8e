import Verif.Model.Limits
import Verif.Model.Placement
import Verif.Model.Collector
import Verif.Model.Dump

/-!
# Species and beams of the configuration  (`/repo/src/cfg.cpp:160-199`, `326-377`, `/repo/src/SMB.cpp:120-168`)

The values of the JSON file are arguments; a missing or mistyped value is an exception of the library and not modelled.
-/

namespace Pico
namespace Species

variable {K : Type _} [Field K] [LinearOrder K] [IsStrictOrderedRing K] [FloorRing K]

/-- Rounding towards zero. -/
def trunc (x : K) : Int := if 0 ≤ x then ⌊x⌋ else ⌈x⌉

/-- `(int)x` of a `double`; undefined if the integral part does not fit. -/
def toInt (x : K) : Res Int := if -2 ^ 31 ≤ trunc x ∧ trunc x < 2 ^ 31 then .ok (trunc x) else .ub

/-- An entry of `"particles"`, `/repo/src/cfg.cpp:174-193`. -/
structure SpecieEntry (K : Type _) where
  name : List Char
  mass : K
  charge : K
  density : K
  temperature : K

/-- An entry of `"beams"`, as far as it is stored with the species; the bunch data other than the amount are those of
`Beam.Conf`, `/repo/src/cfg.cpp:339-367`. -/
structure BeamEntry (K : Type _) where
  name : List Char
  mass : K
  charge : K
  bunches : K

/-- `particle_specie`, `/repo/include/cfg.hpp:92-102`: `mass` is `unsigned int`, `charge` is `int`. -/
structure Specie (K : Type _) where
  id : Nat
  name : List Char
  mass : Nat
  charge : Int
  left : K
  right : K
  temperature : K

/-- The same part of `particle_beam`; `bunches_amount` is `int`, `/repo/include/cfg.hpp:104-120`. -/
structure BeamRec where
  id : Nat
  name : List Char
  mass : Nat
  charge : Int
  bunches : Int

/-- `Cfg::init_particles`, `/repo/src/cfg.cpp:162-199`: one entry, given the species read so far. -/
def addSpecie (o : SpecieEntry K) (acc : List (Specie K)) : Res (List (Specie K)) :=
  if acc.any (fun s => s.name = o.name) then .fatal
  else
    toInt o.mass >>= fun m => toInt o.charge >>= fun c =>
      .ok (acc ++ [⟨SMB.hashStr 1394 (o.name.map Char.toNat), o.name, toU32 m, c, o.density, o.density, o.temperature⟩])

/-- The loop of `init_particles`. -/
def initParticles (l : List (SpecieEntry K)) : Res (List (Specie K)) := loop addSpecie l []

/-- `"beam_"`, `/repo/src/cfg.cpp:342`. -/
def beamPrefix : List Char := ['b', 'e', 'a', 'm', '_']

/-- `Cfg::init_beam`, `/repo/src/cfg.cpp:326-377`: one entry. -/
def addBeam (o : BeamEntry K) (acc : List BeamRec) : Res (List BeamRec) :=
  if acc.any (fun s => s.name = beamPrefix ++ o.name) then .fatal
  else
    toInt o.mass >>= fun m => toInt o.charge >>= fun c => toInt o.bunches >>= fun b =>
      .ok (acc ++ [⟨SMB.hashStr 18132 ((beamPrefix ++ o.name).map Char.toNat), beamPrefix ++ o.name, toU32 m, c, b⟩])

/-- The loop of `init_beam`. -/
def initBeams (l : List (BeamEntry K)) : Res (List BeamRec) := loop addBeam l []

/-- What the constructors of a species or beam of a domain are given, with charge and mass in SI units
(`/repo/src/specieP.cpp:36-41`); `left`, `right` are the densities at the borders of the domain. -/
structure Made (K : Type _) where
  name : List Char
  charge : K
  mass : K
  left : K
  right : K
  temperature : K

/-- The species of a domain of axial cells `z0` to `z1`, `/repo/src/SMB.cpp:130-145`. -/
def makeSpecie (ec em size dz : K) (z0 z1 : Nat) (s : Specie K) : Made K :=
  ⟨s.name, (s.charge : K) * ec, (s.mass : K) * em, Place.localDensity s.left s.right size dz z0,
    Place.localDensity s.left s.right size dz z1, s.temperature⟩

/-- The names of the species and beams of a domain in order, `/repo/src/SMB.cpp:130-168`: beams without bunches are not
made. -/
def domainNames (ss : List (Specie K)) (bs : List BeamRec) : List (List Char) :=
  ss.map (·.name) ++ (bs.filter fun b => 0 < b.bunches).map (·.name)

end Species
end Pico
