import Verif.Model.GeoCfg
import Verif.Model.Output
import Verif.Model.PicStart
import Verif.Model.Pusher
import Verif.Model.CollidePass

/-!
# Reading the configuration file and recording it in the output file

`/repo/src/cfg.cpp:23-487`, `706-723`, `/repo/src/outController.cpp:20-45`, `/repo/src/outEngine/outEngineHDF5.cpp:268-389`.

The text of the file and its parsing (`picojson`) are not modelled: a file is the value it denotes.  Strings are without zero
characters (`c_str()` would cut them).
-/

namespace Pico
namespace Config

open Species Probe GeoCfg



/-- `picojson::value`; an object is a `std::map`. -/
inductive Json (K : Type) where
  | null
  | bool (b : Bool)
  | num (x : K)
  | str (s : List Char)
  | arr (l : List (Json K))
  | obj (l : List (String × Json K))

variable {K : Type}

/-- Search in a `std::map`. -/
def look (l : List (String × Json K)) (k : String) : Option (Json K) :=
  match l with
  | [] => none
  | (k', v) :: l => if k' = k then some v else look l k

/-- `o[k]` read: a missing key gets the value null.  (It is also inserted with it; this is kept in the model where the program goes on, see
`noteProbe`.) -/
def key (l : List (String × Json K)) (k : String) : Json K := (look l k).getD .null

/-- `o[k] = v`. -/
def put (l : List (String × Json K)) (k : String) (v : Json K) : List (String × Json K) :=
  match l with
  | [] => [(k, v)]
  | (k', w) :: l => if k' = k then (k', v) :: l else (k', w) :: put l k v

/-- `get<T>()`: a value of another type throws `std::runtime_error`.  Nothing but the one handler of `init_probes` catches it, so the
program ends. -/
def Json.toObj : Json K → Res (List (String × Json K))
  | .obj l => .ok l
  | _ => .fatal
def Json.toArr : Json K → Res (List (Json K))
  | .arr l => .ok l
  | _ => .fatal
def Json.toNum : Json K → Res K
  | .num x => .ok x
  | _ => .fatal
def Json.toStr : Json K → Res (List Char)
  | .str s => .ok s
  | _ => .fatal
def Json.toBool : Json K → Res Bool
  | .bool b => .ok b
  | _ => .fatal

/-- `o[k].get<T>()`. -/
def objAt (l : List (String × Json K)) (k : String) : Res (List (String × Json K)) := (key l k).toObj
def arrAt (l : List (String × Json K)) (k : String) : Res (List (Json K)) := (key l k).toArr
def numAt (l : List (String × Json K)) (k : String) : Res K := (key l k).toNum
def strAt (l : List (String × Json K)) (k : String) : Res (List Char) := (key l k).toStr
def boolAt (l : List (String × Json K)) (k : String) : Res Bool := (key l k).toBool

/-- A list of steps, one after the other. -/
def each {α β : Type _} (f : α → Res β) : List α → Res (List β)
  | [] => .ok []
  | a :: l => f a >>= fun b => each f l >>= fun bs => .ok (b :: bs)

/-- Current deposition of a build, `/repo/configure.ac:269-273`. -/
inductive Deposition
  | zigzag
  | vb

/-- What is fixed when the program is built, `/repo/configure.ac:125-300`.  The `configure` script selects one of each kind; `none` is a
build without. -/
structure Build where
  package : List Char
  version : List Char
  flags : List Char
  deps : List Char
  debug : Bool
  ieee : Bool
  spatial : Option Pic.Spatial
  speedy : Option Pic.Speedy
  pusher : Option Pusher.Kind
  deposition : Option Deposition
  yee : Bool
  pml : Bool
  single : Bool
  external : Bool
  mpi : Bool
  collisions : Option Coll.Method

/-- The texts of `/repo/src/cfg.cpp:77-115`. -/
def spatialText : Pic.Spatial → List Char
  | .centered => "centered".toList
  | .flat => "flat".toList
  | .random => "random".toList
  | .regular => "regular".toList
def speedyText : Pic.Speedy → List Char
  | .thermal => "thermal".toList
  | .eigen => "eigen".toList
  | .rectangular => "rectangular".toList
def pusherText : Pusher.Kind → List Char
  | .borisAdaptive => "boris adaptive".toList
  | .boris => "boris classic".toList
  | .borisRelativistic => "boris relativistic".toList
  | .hc => "higuera-cary".toList
  | .vay => "vay".toList
def depositionText : Deposition → List Char
  | .zigzag => "zigzag".toList
  | .vb => "villasenor-buneman".toList

/-- An entry that is only there in some builds. -/
def entry (k : String) : Option (List Char) → List (String × Json K)
  | none => []
  | some s => [(k, .str s)]

/-- The object `o` of the constructor, `/repo/src/cfg.cpp:60-121`. -/
def options (b : Build) : List (String × Json K) :=
  [("package_version", .str b.version), ("debug", .bool b.debug), ("ieee", .bool b.ieee)] ++
  entry "plasma_spatial_distribution" (b.spatial.map spatialText) ++
  entry "plasma_velocity_distribution" (b.speedy.map speedyText) ++
  entry "particles_pusher" (b.pusher.map pusherText) ++
  entry "current_deposition" (b.deposition.map depositionText) ++
  entry "maxwell_solver" (if b.yee then some "yee".toList else none) ++
  [("build_flags", .str b.flags)]

/-- `particle_beam`, `/repo/include/cfg.hpp:104-120`, without the amount. -/
structure BeamData (K : Type) where
  id : Nat
  name : List Char
  mass : Nat
  charge : Int
  start : K
  velocity : K
  bunches : Int
  distance : K
  length : K
  radius : K
  density : K
  radial : List Char
  longitudinal : List Char

/-- `probe`, `/repo/include/cfg.hpp:74-82`. -/
structure ProbeData where
  component : List Char
  specie : List Char
  path : List Char
  dims : Rect
  schedule : Nat

/-- `external_field`, `/repo/include/cfg.hpp:84-89`, without its name. -/
structure FieldData (K : Type) where
  formfactor : List Char
  params : List K

/-- Absorbing layers in cells and their conductivities. -/
structure LayerData (K : Type) where
  left : Nat
  outer : Nat
  right : Nat
  sigma1 : K
  sigma2 : K

/-- `Cfg`, `/repo/include/cfg.hpp:130-240`.  `amounts` are the numbers of macroparticles of the species and of the beams. -/
structure Conf (K : Type) where
  log : List Char
  total : K
  ratio : Nat
  geo : Whole K
  sigma1 : K
  sigma2 : K
  time : Out.Time K
  species : List (Specie K)
  beams : List (BeamData K)
  amounts : List Nat × List Nat
  root : List Char
  compress : Bool
  level : Int
  probes : List ProbeData
  electric : Option (FieldData K)
  magnetic : Option (FieldData K)

section
variable [Field K] [LinearOrder K] [IsStrictOrderedRing K] [FloorRing K]

/-- The `#ifdef ENABLE_PML` part of `init_geometry`, `/repo/src/cfg.cpp:398-416`. -/
def readLayers (b : Build) (g : List (String × Json K)) (nr nz : Nat) : Res (LayerData K) :=
  if b.pml then
    objAt g "pml" >>= fun p =>
    numAt p "left_wall" >>= fun left => numAt p "right_wall" >>= fun right => numAt p "outer_wall" >>= fun outer =>
    numAt p "sigma_1" >>= fun s1 => numAt p "sigma_2" >>= fun s2 =>
    toSize (⌊left * nz⌋ : K) >>= fun pl => toSize (⌊outer * nr⌋ : K) >>= fun po => toSize (⌊right * nz⌋ : K) >>= fun pr =>
      .ok ⟨pl, po, pr, s1, s2⟩
  else .ok ⟨0, 0, 0, 0, 0⟩

/-- The amounts of domains, `/repo/src/cfg.cpp:417-427`. -/
def readDomains (b : Build) (g : List (String × Json K)) : Res (Nat × Nat) :=
  if b.single then .ok (1, 1)
  else
    objAt g "domains_amount" >>= fun d =>
    numAt d "radius" >>= fun r => toInt r >>= fun dr => numAt d "longitude" >>= fun z => toInt z >>= fun dz =>
      .ok (toU64 dr, toU64 dz)

/-- `Cfg::init_geometry`, `/repo/src/cfg.cpp:379-428`, with the constructor it calls, `/repo/include/geometry.hpp:49-75`.  Without cells or
without size the constructor divides by zero and the conversion of the quotient to `size_t` is undefined. -/
def readGeometry (b : Build) (root : List (String × Json K)) : Res (Whole K × K × K) :=
  objAt root "geometry" >>= fun g => objAt g "size" >>= fun size => objAt g "grid" >>= fun grid =>
  numAt size "radius" >>= fun radius => numAt size "longitude" >>= fun longitude =>
  numAt grid "radius" >>= fun xr => toSize xr >>= fun nr => numAt grid "longitude" >>= fun xz => toSize xz >>= fun nz =>
  readLayers b g nr nz >>= fun p =>
  if nr = 0 ∨ nz = 0 ∨ radius = 0 ∨ longitude = 0 then .ub
  else
    toSize (radius / (radius / nr)) >>= fun ar => toSize (longitude / (longitude / nz)) >>= fun az =>
    readDomains b g >>= fun d =>
      .ok (⟨radius, longitude, nr, nz, radius / nr, longitude / nz, ar, az, p.left, p.outer, p.right, d.1, d.2⟩,
        p.sigma1, p.sigma2)

/-- `Cfg::init_time`, `/repo/src/cfg.cpp:430-439`. -/
def readTime (root : List (String × Json K)) : Res (Out.Time K) :=
  objAt root "time" >>= fun t =>
  numAt t "start" >>= fun a => numAt t "end" >>= fun e => numAt t "step" >>= fun s => .ok (Out.initTime a e s)

/-- The loop body of `init_particles`, `/repo/src/cfg.cpp:170-198`. -/
def readSpecie (v : Json K) (acc : List (Specie K)) : Res (List (Specie K)) :=
  v.toObj >>= fun o => strAt o "name" >>= fun name =>
  if acc.any (fun s => s.name = name) then .fatal
  else
    numAt o "mass" >>= fun xm => toInt xm >>= fun m => numAt o "charge" >>= fun xc => toInt xc >>= fun c =>
    numAt o "density" >>= fun d => numAt o "temperature" >>= fun t =>
      .ok (acc ++ [⟨SMB.hashStr 1394 (name.map Char.toNat), name, toU32 m, c, d, d, t⟩])

/-- `Cfg::init_particles`, `/repo/src/cfg.cpp:160-199`. -/
def readSpecies (root : List (String × Json K)) : Res (List (Specie K)) :=
  arrAt root "particles" >>= fun l => loop readSpecie l []

/-- The loop body of `init_beam`, `/repo/src/cfg.cpp:335-373`. -/
def readBeam (v : Json K) (acc : List (BeamData K)) : Res (List (BeamData K)) :=
  v.toObj >>= fun o => objAt o "bunch" >>= fun bo => strAt o "name" >>= fun name =>
  if acc.any (fun s => s.name = beamPrefix ++ name) then .fatal
  else
    numAt o "mass" >>= fun xm => toInt xm >>= fun m => numAt o "charge" >>= fun xc => toInt xc >>= fun c =>
    numAt o "start_time" >>= fun start => numAt o "velocity" >>= fun vel =>
    numAt bo "amount" >>= fun xa => toInt xa >>= fun a => numAt bo "distance" >>= fun dist => numAt bo "length" >>= fun len =>
    numAt bo "radius" >>= fun rad => numAt bo "density" >>= fun den =>
    objAt bo "profile" >>= fun pro => strAt pro "radial" >>= fun pr => strAt pro "longitudinal" >>= fun pz =>
      .ok (acc ++ [⟨SMB.hashStr 18132 ((beamPrefix ++ name).map Char.toNat), beamPrefix ++ name, toU32 m, c, start, vel, a, dist,
        len, rad, den, pr, pz⟩])

/-- `Cfg::init_beam`, `/repo/src/cfg.cpp:326-377`. -/
def readBeams (root : List (String × Json K)) : Res (List (BeamData K)) :=
  arrAt root "beams" >>= fun l => loop readBeam l []

/-- What `weight_macro_amount` uses of a beam; the product of length and number of bunches is taken first (`/repo/src/cfg.cpp:502`), so the
number, which may be negative, is put into the length. -/
def weightBeam (p : BeamData K) : Limits.Beam K := ⟨p.radius, p.length * p.bunches, 1⟩

/-- `Cfg::weight_macro_amount`, `/repo/src/cfg.cpp:489-571`: a build without pusher ends here.  Without species and beams no quotient is
converted. -/
def readAmounts (b : Build) (total : K) (ratio : Nat) (g : Whole K) (ss : List (Specie K)) (bs : List (BeamData K)) :
    Res (List Nat × List Nat) :=
  match b.pusher with
  | none => .fatal
  | some _ =>
    if ss = [] ∧ bs = [] then .ok ([], [])
    else Limits.weightMacro total g.nr g.nz ss.length g.cellR g.cellZ ratio (bs.map weightBeam)

/-- `specie` of a probe, `/repo/src/cfg.cpp:217-218`: the exception is caught. -/
def probeSpecie (o : List (String × Json K)) : List Char :=
  match key o "specie" with
  | .str s => s
  | _ => "unknown".toList

/-- The loop body of `init_probes`, `/repo/src/cfg.cpp:209-323`.  The shapes other than rectangles index the empty `dims`. -/
def readProbe (nr nz : Nat) (v : Json K) : Res ProbeData :=
  v.toObj >>= fun o => strAt o "component" >>= fun comp => strAt o "shape" >>= fun shape =>
  if shape = ['r', 'e', 'c'] then
    objAt o "start" >>= fun s => numAt s "r" >>= fun a => toSize a >>= fun r0 => numAt s "z" >>= fun b => toSize b >>= fun z0 =>
    objAt o "end" >>= fun e => numAt e "r" >>= fun c => toSize c >>= fun r1 => numAt e "z" >>= fun d => toSize d >>= fun z1 =>
    numAt o "schedule" >>= fun x => toInt x >>= fun n =>
    checkRect nr nz ⟨r0, z0, r1, z1⟩ >>= fun p =>
      .ok ⟨comp, probeSpecie o, path comp (probeSpecie o) (.rect p), p, toU32 n⟩
  else if shape = ['c', 'o', 'l'] ∨ shape = ['r', 'o', 'w'] ∨ shape = ['d', 'o', 't'] then .ub
  else .fatal

/-- `Cfg::init_probes`, `/repo/src/cfg.cpp:201-324`. -/
def readProbes (nr nz : Nat) (root : List (String × Json K)) : Res (List ProbeData) :=
  objAt root "data" >>= fun d => arrAt d "probes" >>= fun l => each (readProbe nr nz) l

/-- `Cfg::init_output_data`, `/repo/src/cfg.cpp:441-451`. -/
def readOutput (root : List (String × Json K)) : Res (List Char × Bool × Int) :=
  objAt root "data" >>= fun d => strAt d "data_root" >>= fun r =>
  objAt d "compression" >>= fun c => boolAt c "use" >>= fun use => numAt c "level" >>= fun x => toInt x >>= fun level =>
    .ok (r, use, level)

omit [Field K] [LinearOrder K] [IsStrictOrderedRing K] [FloorRing K] in
/-- One of the two fields of `init_external_fields`, `/repo/src/cfg.cpp:459-475`. -/
def readField (root : List (String × Json K)) (name : String) : Res (FieldData K) :=
  objAt root name >>= fun f => strAt f "formfactor" >>= fun form => arrAt f "params" >>= fun l =>
  each Json.toNum l >>= fun ps => .ok ⟨form, ps⟩

omit [Field K] [LinearOrder K] [IsStrictOrderedRing K] [FloorRing K] in
/-- `Cfg::init_external_fields`, `/repo/src/cfg.cpp:453-487`. -/
def readFields (b : Build) (root : List (String × Json K)) : Res (Option (FieldData K) × Option (FieldData K)) :=
  if b.external then
    objAt root "external_fields" >>= fun f => readField f "electric" >>= fun e => readField f "magnetic" >>= fun m =>
      .ok (some e, some m)
  else .ok (none, none)

/-- `Cfg::Cfg`, `/repo/src/cfg.cpp:23-142`, without opening and parsing the file and without the checks at its end. -/
def read (b : Build) (j : Json K) : Res (Conf K) :=
  j.toObj >>= fun root0 => strAt root0 "log_file" >>= fun log =>
  let root := put root0 "build_options" (.obj (options b))
  numAt root "macro_amount" >>= fun total =>
  numAt root "beam_plasma_macro_size_ratio" >>= fun x => Limits.toUInt x >>= fun ratio =>
  readGeometry b root >>= fun g => readTime root >>= fun time => readSpecies root >>= fun ss => readBeams root >>= fun bs =>
  readAmounts b total ratio g.1 ss bs >>= fun amounts =>
  readOutput root >>= fun out => readProbes g.1.nr g.1.nz root >>= fun probes => readFields b root >>= fun ext =>
    .ok ⟨log, total, ratio, g.1, g.2.1, g.2.2, time, ss, bs, amounts, out.1, out.2.1, out.2.2, probes, ext.1, ext.2⟩

end

/-! ### The configuration kept by the program -/

/-- What reading a probe leaves of it: the key read by the handled statement is there, `/repo/src/cfg.cpp:217`. -/
def noteProbe : Json K → Json K
  | .obj l => .obj (match look l "specie" with
      | none => put l "specie" .null
      | some _ => l)
  | v => v

/-- `"data"` after `init_probes`. -/
def noteData : Json K → Json K
  | .obj d => .obj (match look d "probes" with
      | some (.arr l) => put d "probes" (.arr (l.map noteProbe))
      | _ => d)
  | v => v

/-- `json_data` after the constructor, returned by `cfg2value`, `/repo/src/cfg.cpp:118`, `720-723`. -/
def kept (b : Build) : Json K → Json K
  | .obj root =>
    let root := put root "build_options" (.obj (options b))
    .obj (match look root "data" with
      | some d => put root "data" (noteData d)
      | none => root)
  | v => v

/-! ### Attributes of the output file -/

/-- The value of an attribute; `config` is the text of a JSON value. -/
inductive Attr (K : Type) where
  | flag (b : Bool)
  | text (s : List Char)
  | config (j : Json K)

/-- `createAttribute` and `write`.  The library refuses to create an attribute twice; the exception (`AttributeException`) is not among
those caught. -/
def attach (k : String) (v : Attr K) (l : List (String × Attr K)) : Res (List (String × Attr K)) :=
  if k ∈ l.map (·.1) then .fatal else .ok (l ++ [(k, v)])

/-- `_metadata.get<object>()["build_options"].get<object>()[k]`. -/
def optionAt (j : Json K) (k : String) : Res (Json K) :=
  j.toObj >>= fun o => objAt o "build_options" >>= fun p => .ok (key p k)

/-- An attribute with the text of a build option. -/
def attachOption (j : Json K) (k a : String) (l : List (String × Attr K)) : Res (List (String × Attr K)) :=
  optionAt j k >>= fun v => v.toStr >>= fun s => attach a (.text s) l

/-- An attribute with a flag of the build. -/
def attachFlag (j : Json K) (k a : String) (l : List (String × Attr K)) : Res (List (String × Attr K)) :=
  optionAt j k >>= fun v => v.toBool >>= fun s => attach a (.flag s) l

/-- `OutEngineHDF5::write_metadata`, `/repo/src/outEngine/outEngineHDF5.cpp:268-389`: the attributes of the root group. -/
def writeMeta (b : Build) (j : Json K) (l : List (String × Attr K)) : Res (List (String × Attr K)) :=
  attach "metadata" (.config j) l >>= attach "software" (.text b.package) >>= attach "softwareVersion" (.text b.version) >>=
  attach "softwareBuildFlags" (.text b.flags) >>= attach "softwareDependencies" (.text b.deps) >>=
  attachFlag j "debug" "softwareConfigDebug" >>= attachFlag j "ieee" "softwareConfigIEEE" >>=
  attachOption j "current_deposition" "softwareConfigCurrentDeposition" >>=
  attachOption j "maxwell_solver" "softwareConfigFieldSolver" >>=
  attachOption j "particles_pusher" "softwareConfigParticlesPusher" >>=
  attachOption j "plasma_velocity_distribution" "softwareConfigPlasmaVelocityDistribution" >>=
  attachOption j "plasma_spatial_distribution" "softwareConfigPlasmaSpatialDistribution" >>= fun l =>
  j.toObj >>= fun o => strAt o "comment" >>= fun s => attach "comment" (.text s) l

section
variable [Field K] [LinearOrder K] [IsStrictOrderedRing K] [FloorRing K]

/-- `main` up to the attributes of the new output file, `/repo/src/PiCoPiC.cpp:179-290`, `/repo/src/outController.cpp:36-41`.  `check` are the checks
at the end of the constructor.  The constructor of the output controller uses the first probe, which is undefined if there is none.  (What is
in between, the blocks of memory and the creation of the file, is modelled elsewhere.) -/
def start (check : Conf K → Res Unit) (b : Build) (j : Json K) : Res (Conf K × List (String × Attr K)) :=
  read b j >>= fun c => check c >>= fun _ =>
  if c.probes = [] then .ub else writeMeta b (kept b j) [] >>= fun a => .ok (c, a)

end

/-- What `method_limitations_check` uses of the configuration, `/repo/src/cfg.cpp:573-704`: the amount of macroparticles is that of the species
without the beams. -/
noncomputable def limitsOf (c : Conf ℝ) : Limits.Conf :=
  ⟨c.geo.domR, c.geo.domZ, c.geo.nr, c.geo.cellR, c.geo.cellZ, c.geo.sizeR, c.geo.sizeZ, c.time.step,
    c.species.map fun s => ⟨s.name, s.mass, s.left, s.right, s.temperature⟩, c.amounts.1⟩

/-- The checks of the program; `cl`, `cp`, `cd` are its constants. -/
noncomputable def checks (cl cp cd : ℝ) (c : Conf ℝ) : Res Unit := Limits.check cl cp cd (limitsOf c) >>= fun _ => .ok ()

end Config
end Pico
