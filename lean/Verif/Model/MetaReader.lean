import Verif.Model.Config

/-!
# The Python reader of the configuration stored with the results

`/repo/lib/python/picopic/meta_reader.py`, `/repo/lib/python/picopic/reader.py:40-49`, `/repo/lib/python/picopic/h5_reader.py:39-51`.

`none` is a Python exception.  A `dict` is an object, a `list` an array; `json.loads` gives the value the text denotes.
-/

namespace Pico
namespace MetaReader

open Config

variable {K : Type}

/-- `v[k]` with a text as key: `KeyError` or `TypeError` otherwise. -/
def idx (v : Json K) (k : String) : Option (Json K) :=
  match v with
  | .obj l => look l k
  | _ => none

/-- `v[k1][k2]…`. -/
def idxs (v : Json K) : List String → Option (Json K)
  | [] => some v
  | k :: ks => (idx v k).bind fun w => idxs w ks

/-- `for i in v`: the elements of a list, the keys of a dictionary, the letters of a text. -/
def items : Json K → Option (List (Json K))
  | .arr l => some l
  | .obj l => some (l.map fun p => .str p.1.toList)
  | .str s => some (s.map fun c => .str [c])
  | _ => none

/-- A list comprehension that may raise. -/
def collect {α β : Type _} (f : α → Option β) : List α → Option (List β)
  | [] => some []
  | a :: l => (f a).bind fun b => (collect f l).bind fun bs => some (b :: bs)

/-- `SpecieP`, `/repo/lib/python/picopic/meta_reader.py:37-46`; `density` holds the same value twice. -/
structure MSpecie (K : Type) where
  name : Json K
  amount : K
  left : Json K
  right : Json K
  temperature : Json K
  charge : Json K
  mass : Json K

/-- `BeamP`, `/repo/lib/python/picopic/meta_reader.py:49-59`. -/
structure MBeam (K : Type) where
  name : Json K
  amount : K
  velocity : Json K
  charge : Json K
  mass : Json K
  start : Json K
  density : Json K
  bunches : Json K
  length : Json K
  radius : Json K
  distance : Json K

/-- `Probe`, `/repo/lib/python/picopic/meta_reader.py:24-34`. -/
structure MProbe (K : Type) where
  shape : List Char
  component : Json K
  schedule : Json K
  specie : Json K
  size : List (Json K)

/-- `MetaReader`, `/repo/lib/python/picopic/meta_reader.py:62-145`.  `plot` are the values for plotting, in the order of the code. -/
structure Meta (K : Type) where
  sizeR : Json K
  sizeZ : Json K
  gridR : Json K
  gridZ : Json K
  domR : Json K
  domZ : Json K
  pml : List (Json K)
  start : Json K
  stop : Json K
  step : Json K
  species : List (MSpecie K)
  beams : List (MBeam K)
  base : Json K
  root : List Char
  compress : Json K
  level : Json K
  probes : List (MProbe K)
  plot : List (Json K)

section
variable [Field K]

/-- An entry of `"particles"`, lines 79-83. -/
def specie (i : Json K) : Option (MSpecie K) :=
  (idx i "name").bind fun n => (idx i "density").bind fun d => (idx i "temperature").bind fun t =>
  (idx i "charge").bind fun c => (idx i "mass").bind fun m => some ⟨n, 1000000, d, d, t, c, m⟩

/-- An entry of `"beams"`, lines 86-90. -/
def beam (i : Json K) : Option (MBeam K) :=
  (idx i "name").bind fun n => (idx i "velocity").bind fun v => (idx i "charge").bind fun c => (idx i "mass").bind fun m =>
  (idx i "start_time").bind fun s => (idxs i ["bunch", "density"]).bind fun d => (idxs i ["bunch", "amount"]).bind fun a =>
  (idxs i ["bunch", "length"]).bind fun l => (idxs i ["bunch", "radius"]).bind fun r => (idxs i ["bunch", "distance"]).bind fun x =>
    some ⟨n, 1000000, v, c, m, s, d, a, l, r, x⟩

/-- An entry of `"probes"`, lines 110-127; the missing sizes are `-1`.  An unknown shape raises `ValueError` in the constructor of the probe
(lines 25-29); everything else needed has been looked up before. -/
def probe (i : Json K) : Option (MProbe K) :=
  let sp := (idx i "specie").getD .null
  (idx i "shape").bind fun shape =>
  match shape with
  | .str s =>
    (if s = ['r', 'e', 'c'] then
      (idxs i ["start", "r"]).bind fun a => (idxs i ["start", "z"]).bind fun b => (idxs i ["end", "r"]).bind fun c =>
        (idxs i ["end", "z"]).bind fun d => some [a, b, c, d]
    else if s = ['r', 'o', 'w'] then (idx i "r").bind fun a => some [a, .num 0, .num (-1), .num (-1)]
    else if s = ['c', 'o', 'l'] then (idx i "z").bind fun a => some [.num 0, a, .num (-1), .num (-1)]
    else if s = ['d', 'o', 't'] then (idx i "r").bind fun a => (idx i "z").bind fun b => some [a, b, .num (-1), .num (-1)]
    else none).bind fun size =>
    (idx i "component").bind fun c => (idx i "schedule").bind fun n => some ⟨s, c, n, sp, size⟩
  | _ => none

/-- Where the values for plotting are, lines 129-145. -/
def plotPaths : List (List String) :=
  [["subplot", "cmap"], ["subplot", "ticks", "x_amount"], ["subplot", "ticks", "y_amount"], ["subplot", "ticks", "z_amount"],
    ["subplot", "ticks", "cbar_amount"], ["figure", "color"], ["figure", "width"], ["figure", "height"], ["figure", "dpi"],
    ["figure", "font", "family"], ["figure", "font", "size"], ["figure", "font", "name"], ["video", "codec"], ["video", "fps"],
    ["video", "bitrate"]]

/-- `MetaReader.__init__` of a dictionary, `/repo/lib/python/picopic/meta_reader.py:63-145`.  The path of the data is not put together. -/
def metaRead (cfg : Json K) : Option (Meta K) :=
  (idxs cfg ["geometry", "size", "radius"]).bind fun sr => (idxs cfg ["geometry", "size", "longitude"]).bind fun sz =>
  (idxs cfg ["geometry", "grid", "radius"]).bind fun gr => (idxs cfg ["geometry", "grid", "longitude"]).bind fun gz =>
  (idxs cfg ["geometry", "domains_amount", "radius"]).bind fun dr => (idxs cfg ["geometry", "domains_amount", "longitude"]).bind fun dz =>
  (collect (fun k => idxs cfg ["geometry", "pml", k]) ["left_wall", "right_wall", "outer_wall", "sigma_1", "sigma_2"]).bind fun pml =>
  (idxs cfg ["time", "start"]).bind fun t0 => (idxs cfg ["time", "end"]).bind fun t1 => (idxs cfg ["time", "step"]).bind fun dt =>
  (idx cfg "particles").bind fun ps => (items ps).bind fun l => (collect specie l).bind fun species =>
  (idx cfg "beams").bind fun bs => (items bs).bind fun m => (collect beam m).bind fun beams =>
  (idx cfg "base_path").bind fun base => (idxs cfg ["data", "data_root"]).bind fun root =>
  match root with
  | .str r =>
    (idxs cfg ["data", "compression", "use"]).bind fun use => (idxs cfg ["data", "compression", "level"]).bind fun level =>
    (idxs cfg ["data", "probes"]).bind fun pr => (items pr).bind fun k => (collect probe k).bind fun probes =>
    (collect (fun p => idxs cfg ("data" :: "plot" :: p)) plotPaths).bind fun plot =>
      some ⟨sr, sz, gr, gz, dr, dz, pml, t0, t1, dt, species, beams, base, r, use, level, probes, plot⟩
  | _ => none

/-- `H5Reader.__init__` and `Reader.__init__`: the metadata of the file, with the path it is in. -/
def openFile (attrs : List (String × Attr K)) (path : List Char) : Option (Meta K) :=
  match attrs.find? (fun p => p.1 = "metadata") with
  | some (_, .config (.obj l)) => metaRead (.obj (put l "base_path" (.str path)))
  | _ => none

variable [LinearOrder K] [IsStrictOrderedRing K] [FloorRing K]

/-- Python's `round`: to the nearest number, a half to the even one. -/
def pyRound (x : K) : Int :=
  let n := ⌊x⌋
  if x - n < 1 / 2 then n else if x - n > 1 / 2 then n + 1 else if n % 2 = 0 then n else n + 1

/-- `x / y`: `ZeroDivisionError`. -/
def pyDiv (x y : K) : Option K := if y = 0 then none else some (x / y)

/-- A number as operand. -/
def asNum : Json K → Option K
  | .num x => some x
  | _ => none

/-- `get_frame_number_by_timestamp`, `/repo/lib/python/picopic/meta_reader.py:148-150`. -/
def frameNumber (m : Meta K) (timestamp interval : K) : Option Int :=
  (asNum m.step).bind fun dt => (pyDiv timestamp dt).bind fun x => (pyDiv x interval).bind fun y => some (pyRound y)

/-- `get_timestamp_by_frame_number`, lines 153-155. -/
def timestamp (m : Meta K) (frame : Int) (interval : K) : Option K := (asNum m.step).bind fun dt => some (frame * dt * interval)

/-- `get_row_by_radius`, lines 176-177, and `get_col_by_longitude`, 180-181. -/
def rowByRadius (m : Meta K) (radius : K) : Option Int :=
  (asNum m.gridR).bind fun g => (asNum m.sizeR).bind fun s => (pyDiv (radius * g) s).bind fun x => some (pyRound x)
def colByLongitude (m : Meta K) (longitude : K) : Option Int :=
  (asNum m.gridZ).bind fun g => (asNum m.sizeZ).bind fun s => (pyDiv (longitude * g) s).bind fun x => some (pyRound x)

/-- `get_radius_by_row`, lines 184-185, and `get_longitude_by_col`, 188-189. -/
def radiusByRow (m : Meta K) (row : Int) : Option K :=
  (asNum m.gridR).bind fun g => (asNum m.sizeR).bind fun s => pyDiv (row * s) g
def longitudeByCol (m : Meta K) (col : Int) : Option K :=
  (asNum m.gridZ).bind fun g => (asNum m.sizeZ).bind fun s => pyDiv (col * s) g

end

end MetaReader
end Pico
