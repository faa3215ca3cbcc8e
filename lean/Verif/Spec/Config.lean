import Verif.Model.Config

/-!
# What the configuration file says

`Says b j c`: the program, built as `b`, is to work with `c` if the file is `j`.  Every value is found in the file by its path.
-/

namespace Pico
namespace Config

open Species Probe GeoCfg

variable {K : Type}

/-- The value at a path of keys. -/
def Json.at : Json K → List String → Option (Json K)
  | v, [] => some v
  | .obj l, k :: p => (look l k).bind fun v => v.at p
  | _, _ :: _ => none

variable [Field K] [LinearOrder K] [IsStrictOrderedRing K]

/-- `n` is `x` without its fraction. -/
def Cut (x : K) (n : Int) : Prop := if 0 ≤ x then (n : K) ≤ x ∧ x < n + 1 else (n : K) - 1 < x ∧ x ≤ n

/-- A number of the file, its fraction dropped, that fits into `int`. -/
def IntAt (v : Json K) (p : List String) (n : Int) : Prop :=
  ∃ x : K, v.at p = some (.num x) ∧ Cut x n ∧ -2 ^ 31 ≤ n ∧ n < 2 ^ 31

/-- A number of the file, its fraction dropped, that fits into an unsigned number of `w` bits. -/
def NatAt (w : Nat) (v : Json K) (p : List String) (n : Nat) : Prop :=
  ∃ x : K, v.at p = some (.num x) ∧ Cut x n ∧ n < 2 ^ w

/-- An entry of `"particles"` and the species made of it. -/
structure SpecieSays (v : Json K) (s : Specie K) : Prop where
  name : v.at ["name"] = some (.str s.name)
  mass : ∃ n : Int, IntAt v ["mass"] n ∧ s.mass = toU32 n
  charge : IntAt v ["charge"] s.charge
  left : v.at ["density"] = some (.num s.left)
  right : s.right = s.left
  temperature : v.at ["temperature"] = some (.num s.temperature)
  id : s.id = SMB.hashStr 1394 (s.name.map Char.toNat)

/-- An entry of `"beams"` and the beam made of it. -/
structure BeamSays (v : Json K) (p : BeamData K) : Prop where
  name : ∃ n : List Char, v.at ["name"] = some (.str n) ∧ p.name = ['b', 'e', 'a', 'm', '_'] ++ n
  mass : ∃ n : Int, IntAt v ["mass"] n ∧ p.mass = toU32 n
  charge : IntAt v ["charge"] p.charge
  start : v.at ["start_time"] = some (.num p.start)
  velocity : v.at ["velocity"] = some (.num p.velocity)
  bunches : IntAt v ["bunch", "amount"] p.bunches
  distance : v.at ["bunch", "distance"] = some (.num p.distance)
  length : v.at ["bunch", "length"] = some (.num p.length)
  radius : v.at ["bunch", "radius"] = some (.num p.radius)
  density : v.at ["bunch", "density"] = some (.num p.density)
  radial : v.at ["bunch", "profile", "radial"] = some (.str p.radial)
  longitudinal : v.at ["bunch", "profile", "longitudinal"] = some (.str p.longitudinal)
  id : p.id = SMB.hashStr 18132 (p.name.map Char.toNat)

/-- An entry of `"probes"` and the probe made of it, in a volume of `nr` times `nz` cells. -/
structure ProbeSays (nr nz : Nat) (v : Json K) (p : ProbeData) : Prop where
  component : v.at ["component"] = some (.str p.component)
  specie : v.at ["specie"] = some (.str p.specie) ∨
    (∀ s, v.at ["specie"] ≠ some (.str s)) ∧ p.specie = "unknown".toList
  shape : v.at ["shape"] = some (.str ['r', 'e', 'c'])
  r0 : NatAt 64 v ["start", "r"] p.dims.r0
  z0 : NatAt 64 v ["start", "z"] p.dims.z0
  r1 : NatAt 64 v ["end", "r"] p.dims.r1
  z1 : NatAt 64 v ["end", "z"] p.dims.z1
  inside : p.dims.r0 ≤ p.dims.r1 ∧ p.dims.r1 ≤ nr ∧ p.dims.z0 ≤ p.dims.z1 ∧ p.dims.z1 ≤ nz
  schedule : ∃ n : Int, IntAt v ["schedule"] n ∧ p.schedule = toU32 n
  path : p.path = Probe.path p.component p.specie (.rect p.dims)

/-- An external field. -/
def FieldSays (v : Json K) (p : List String) (f : FieldData K) : Prop :=
  v.at (p ++ ["formfactor"]) = some (.str f.formfactor) ∧ v.at (p ++ ["params"]) = some (.arr (f.params.map .num))

/-- Thickness of a layer: the fraction of the cells, rounded down. -/
def LayerAt (v : Json K) (p : List String) (cells : Nat) (n : Nat) : Prop :=
  ∃ x : K, v.at p = some (.num x) ∧ (n : K) ≤ x * cells ∧ x * cells < n + 1 ∧ n < 2 ^ 64

/-- Cells of a beam, all bunches in a row. -/
def beamCellsOf (c : Conf K) (p : BeamData K) : K := p.radius / c.geo.cellR * (p.length * p.bunches / c.geo.cellZ)

/-- The sum the macroparticles are shared by: the cells of all species and, times the ratio, of all beams. -/
def shareSum (c : Conf K) : K :=
  ((c.geo.nr * c.geo.nz * c.species.length : Nat) : K) + (c.beams.map fun p => beamCellsOf c p * c.ratio).sum

/-- The shares of the macroparticles. -/
structure AmountsSay (c : Conf K) : Prop where
  sum : shareSum c ≠ 0
  species : c.amounts.1.length = c.species.length ∧
    ∀ n ∈ c.amounts.1, Cut (((c.geo.nr * c.geo.nz : Nat) : K) * (c.total / shareSum c)) n ∧ n < 2 ^ 32
  beams : List.Forall₂ (fun p (n : Nat) => Cut (beamCellsOf c p * (c.total / shareSum c) * c.ratio) n ∧ n < 2 ^ 32) c.beams c.amounts.2

/-- The file `j` says that a program built as `b` works with `c`. -/
structure Says (b : Build) (j : Json K) (c : Conf K) : Prop where
  pusher : b.pusher ≠ none
  log : j.at ["log_file"] = some (.str c.log)
  total : j.at ["macro_amount"] = some (.num c.total)
  ratio : NatAt 32 j ["beam_plasma_macro_size_ratio"] c.ratio
  sizeR : j.at ["geometry", "size", "radius"] = some (.num c.geo.sizeR) ∧ c.geo.sizeR ≠ 0
  sizeZ : j.at ["geometry", "size", "longitude"] = some (.num c.geo.sizeZ) ∧ c.geo.sizeZ ≠ 0
  gridR : NatAt 64 j ["geometry", "grid", "radius"] c.geo.nr ∧ c.geo.nr ≠ 0
  gridZ : NatAt 64 j ["geometry", "grid", "longitude"] c.geo.nz ∧ c.geo.nz ≠ 0
  cellR : c.geo.cellR * c.geo.nr = c.geo.sizeR
  cellZ : c.geo.cellZ * c.geo.nz = c.geo.sizeZ
  all : c.geo.allR = c.geo.nr ∧ c.geo.allZ = c.geo.nz
  layers : if b.pml then
      LayerAt j ["geometry", "pml", "left_wall"] c.geo.nz c.geo.pmlLeft ∧
      LayerAt j ["geometry", "pml", "outer_wall"] c.geo.nr c.geo.pmlOuter ∧
      LayerAt j ["geometry", "pml", "right_wall"] c.geo.nz c.geo.pmlRight ∧
      j.at ["geometry", "pml", "sigma_1"] = some (.num c.sigma1) ∧ j.at ["geometry", "pml", "sigma_2"] = some (.num c.sigma2)
    else c.geo.pmlLeft = 0 ∧ c.geo.pmlOuter = 0 ∧ c.geo.pmlRight = 0 ∧ c.sigma1 = 0 ∧ c.sigma2 = 0
  domains : if b.single then c.geo.domR = 1 ∧ c.geo.domZ = 1
    else (∃ n : Int, IntAt j ["geometry", "domains_amount", "radius"] n ∧ c.geo.domR = toU64 n) ∧
      ∃ n : Int, IntAt j ["geometry", "domains_amount", "longitude"] n ∧ c.geo.domZ = toU64 n
  begins : j.at ["time", "start"] = some (.num c.time.start)
  stops : j.at ["time", "end"] = some (.num c.time.stop)
  step : j.at ["time", "step"] = some (.num c.time.step)
  current : c.time.current = 0
  species : ∃ l, j.at ["particles"] = some (.arr l) ∧ List.Forall₂ SpecieSays l c.species
  speciesNames : (c.species.map (·.name)).Nodup
  beams : ∃ l, j.at ["beams"] = some (.arr l) ∧ List.Forall₂ BeamSays l c.beams
  beamNames : (c.beams.map (·.name)).Nodup
  amounts : if c.species = [] ∧ c.beams = [] then c.amounts = ([], []) else AmountsSay c
  root : j.at ["data", "data_root"] = some (.str c.root)
  compress : j.at ["data", "compression", "use"] = some (.bool c.compress)
  level : IntAt j ["data", "compression", "level"] c.level
  probes : ∃ l, j.at ["data", "probes"] = some (.arr l) ∧ List.Forall₂ (ProbeSays c.geo.nr c.geo.nz) l c.probes
  fields : if b.external then
      ∃ e m, c.electric = some e ∧ c.magnetic = some m ∧ FieldSays j ["external_fields", "electric"] e ∧
        FieldSays j ["external_fields", "magnetic"] m
    else c.electric = none ∧ c.magnetic = none

end Config
end Pico
