import Verif.Model.MetaReader
import Verif.Spec.Config

/-!
# What the Python reader is to show of a configuration
-/

namespace Pico
namespace MetaReader

open Config

variable {K : Type}

/-- The entries the reader needs besides those every build of the program needs; any value will do. -/
structure Complete (j : Json K) : Prop where
  domains : (∃ v, j.at ["geometry", "domains_amount", "radius"] = some v) ∧ ∃ v, j.at ["geometry", "domains_amount", "longitude"] = some v
  layers : ∀ k ∈ ["left_wall", "right_wall", "outer_wall", "sigma_1", "sigma_2"], ∃ v, j.at ["geometry", "pml", k] = some v
  plot : ∀ p ∈ plotPaths, ∃ v, j.at ("data" :: "plot" :: p) = some v

variable [Field K] [LinearOrder K] [IsStrictOrderedRing K]

/-- A number shown, of which the program uses the part before the point. -/
def ShowsInt (v : Json K) (n : Int) : Prop := ∃ x, v = .num x ∧ Cut x n

/-- A species of the program as the reader shows it. -/
structure ShowsSpecie (s : Species.Specie K) (t : MSpecie K) : Prop where
  name : t.name = .str s.name
  left : t.left = .num s.left
  right : t.right = .num s.right
  temperature : t.temperature = .num s.temperature
  charge : ShowsInt t.charge s.charge
  mass : ∃ n : Int, ShowsInt t.mass n ∧ s.mass = toU32 n

/-- A beam of the program as the reader shows it. -/
structure ShowsBeam (p : BeamData K) (t : MBeam K) : Prop where
  name : ∃ n, t.name = .str n ∧ p.name = ['b', 'e', 'a', 'm', '_'] ++ n
  velocity : t.velocity = .num p.velocity
  charge : ShowsInt t.charge p.charge
  mass : ∃ n : Int, ShowsInt t.mass n ∧ p.mass = toU32 n
  start : t.start = .num p.start
  density : t.density = .num p.density
  bunches : ShowsInt t.bunches p.bunches
  length : t.length = .num p.length
  radius : t.radius = .num p.radius
  distance : t.distance = .num p.distance

/-- A probe of the program as the reader shows it. -/
structure ShowsProbe (p : ProbeData) (t : MProbe K) : Prop where
  shape : t.shape = ['r', 'e', 'c']
  component : t.component = .str p.component
  specie : t.specie = .str p.specie ∨ p.specie = "unknown".toList
  size : ∃ a b c d, t.size = [a, b, c, d] ∧ ShowsInt a p.dims.r0 ∧ ShowsInt b p.dims.z0 ∧ ShowsInt c p.dims.r1 ∧ ShowsInt d p.dims.z1
  schedule : ∃ n : Int, ShowsInt t.schedule n ∧ p.schedule = toU32 n

/-- The reader shows the configuration `c`. -/
structure Shows (c : Conf K) (m : Meta K) : Prop where
  sizeR : m.sizeR = .num c.geo.sizeR
  sizeZ : m.sizeZ = .num c.geo.sizeZ
  gridR : ShowsInt m.gridR c.geo.nr
  gridZ : ShowsInt m.gridZ c.geo.nz
  start : m.start = .num c.time.start
  stop : m.stop = .num c.time.stop
  step : m.step = .num c.time.step
  species : List.Forall₂ ShowsSpecie c.species m.species
  beams : List.Forall₂ ShowsBeam c.beams m.beams
  root : m.root = c.root
  compress : m.compress = .bool c.compress
  level : ShowsInt m.level c.level
  probes : List.Forall₂ ShowsProbe c.probes m.probes

end MetaReader
end Pico
