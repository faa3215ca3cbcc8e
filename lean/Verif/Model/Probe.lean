import Verif.Model.SMB
import Verif.Model.Geometry
import Verif.Model.Grid
import Mathlib.Data.Nat.Digits.Defs
import Mathlib.Data.Rat.Floor

/-!
# Probes: configuration, paths in the output file, distribution over the domains, assembly of a frame

`/repo/src/cfg.cpp:201-324`, `/repo/src/outController.cpp:50-310`, `/repo/src/outWriter.cpp:49-100`,
`/repo/src/outEngine/outEngineHDF5.cpp:51-172`, `/repo/lib/python/picopic/reader.py:51-63`,
`/repo/lib/python/picopic/h5_reader.py:79-147`.
-/

namespace Pico
namespace Probe

open SMB

/-- `probe.dims` of a rectangle: `{start r, start z, end r, end z}`. -/
structure Rect where
  r0 : Nat
  z0 : Nat
  r1 : Nat
  z1 : Nat
  deriving DecidableEq, Repr

/-! ### Configuration -/

/-- Shape of a probe in the configuration file, the numbers as read from JSON. -/
inductive Desc (K : Type _) where
  | rect (r0 z0 r1 z1 : K)
  | col (z : K)
  | row (r : K)
  | dot (r z : K)
  | other

section
variable {K : Type _} [Field K] [LinearOrder K] [IsStrictOrderedRing K] [FloorRing K]

/-- Conversion `double` to `size_t`: truncation, undefined outside of the range. -/
def toSize (x : K) : Res Nat := if x ≤ -1 ∨ 2 ^ 64 ≤ x then .ub else .ok ⌊x⌋₊

/-- The checks at the end of the loop body, `/repo/src/cfg.cpp:300-322`. -/
def checkRect (nr nz : Nat) (p : Rect) : Res Rect :=
  if p.r0 > p.r1 ∨ p.z0 > p.z1 then .fatal
  else if p.r1 > nr then .fatal
  else if p.z1 > nz then .fatal
  else .ok p

/-- Loop body of `Cfg::init_probes` for a probe, `/repo/src/cfg.cpp:234-322`.  A rectangle pushes its four numbers to
`dims`; the other shapes index `dims` while it is empty, which is undefined. -/
def initProbe (nr nz : Nat) : Desc K → Res Rect
  | .rect r0 z0 r1 z1 =>
    toSize r0 >>= fun a => toSize z0 >>= fun b => toSize r1 >>= fun c => toSize z1 >>= fun d =>
      checkRect nr nz ⟨a, b, c, d⟩
  | .col _ => .ub
  | .row _ => .ub
  | .dot _ _ => .ub
  | .other => .fatal
end

/-! ### Paths -/

/-- Shape with its final numbers, as used in the paths. -/
inductive Shape where
  | rect (p : Rect)
  | col (z : Nat)
  | row (r : Nat)
  | dot (r z : Nat)
  deriving DecidableEq, Repr

/-- `std::to_string` of an unsigned number (and the same conversion in Python). -/
def dec (n : Nat) : List Char := if n = 0 then ['0'] else (Nat.digits 10 n).reverse.map Nat.digitChar

/-- The components whose path gets the name of the species, `/repo/src/cfg.cpp:226-232`. -/
def specieBased : List (List Char) :=
  ["temperature".toList, "energy".toList, "momentum/r".toList, "momentum/phi".toList, "momentum/z".toList,
    "density".toList]

/-- The other components a grid exists for, `/repo/src/outController.cpp:151-168`. -/
def fieldBased : List (List Char) :=
  ["E/r".toList, "E/phi".toList, "E/z".toList, "H/r".toList, "H/phi".toList, "H/z".toList, "J/r".toList,
    "J/phi".toList, "J/z".toList]

/-- `component + "/"` and for some components `specie + "/"`, `/repo/src/cfg.cpp:223-232`. -/
def pathHead (component specie : List Char) : List Char :=
  component ++ ['/'] ++ (if component ∈ specieBased then specie ++ ['/'] else [])

/-- Shape part of the path, `/repo/src/cfg.cpp:246-293`. -/
def pathTail : Shape → List Char
  | .rect p => ['r', 'e', 'c'] ++ ['/'] ++ dec p.r0 ++ ['-'] ++ dec p.r1 ++ ['_'] ++ dec p.z0 ++ ['-'] ++ dec p.z1
  | .col z => ['c', 'o', 'l'] ++ ['/'] ++ dec z
  | .row r => ['r', 'o', 'w'] ++ ['/'] ++ dec r
  | .dot r z => ['d', 'o', 't'] ++ ['/'] ++ dec r ++ ['_'] ++ dec z

/-- `probe.path`. -/
def path (component specie : List Char) (s : Shape) : List Char := pathHead component specie ++ pathTail s

/-- `__path__` of the Python reader, `/repo/lib/python/picopic/reader.py:51-63`: `ty` is the type, `sh` the four
numbers of `shape`. -/
def readerPath (component ty : List Char) (sh : Rect) : List Char :=
  let s0 := sh.r0
  let s1 := sh.z0
  let s2 := sh.r1
  let s3 := sh.z1
  let h := ['/'] ++ component ++ ['/'] ++ ty ++ ['/']
  if ty = ['r', 'e', 'c'] then h ++ dec s0 ++ ['-'] ++ dec s2 ++ ['_'] ++ dec s1 ++ ['-'] ++ dec s3
  else if ty = ['c', 'o', 'l'] then h ++ dec s3
  else if ty = ['r', 'o', 'w'] then h ++ dec s2
  else h ++ dec s3 ++ ['_'] ++ dec s2

/-- `H5Reader.rec`, `.col`, `.row`, `.dot`: the path each of them opens,
`/repo/lib/python/picopic/h5_reader.py:79-147`. -/
def readerRec (component : List Char) (p : Rect) : List Char := readerPath component ['r', 'e', 'c'] p
def readerCol (component : List Char) (z : Nat) : List Char := readerPath component ['c', 'o', 'l'] ⟨0, 0, z, 0⟩
def readerRow (component : List Char) (r : Nat) : List Char := readerPath component ['r', 'o', 'w'] ⟨0, 0, 0, r⟩
def readerDot (component : List Char) (r z : Nat) : List Char := readerPath component ['d', 'o', 't'] ⟨0, 0, z, r⟩

/-- `path.substr(0, path.find_last_of("\\/"))`, `/repo/src/outEngine/outEngineHDF5.cpp:119`. -/
def groupOf (path : List Char) : List Char :=
  ((path.reverse.dropWhile fun c => c ≠ '/' && c ≠ '\\').drop 1).reverse

/-- `create_dataset`, `/repo/src/outEngine/outEngineHDF5.cpp:117-172`: the group is created first.  The HDF5 library
refuses to create a group that exists, and the handler of that exception aborts (159-163).  The state is the list of
groups created by the probes so far. -/
def createDataset (groups : List (List Char)) (path : List Char) : Res (List (List Char)) :=
  if groupOf path ∈ groups then .fatal else .ok (groupOf path :: groups)

/-- Creation of the datasets of all probes, `/repo/src/outController.cpp:50-79`. -/
def createAll (paths : List (List Char)) : Res (List (List Char)) :=
  loop (fun p g => createDataset g p) paths []

/-- Choice of the grid a writer takes its values from, `/repo/src/outController.cpp:148-296`: `some k` for the `k`-th
known component, `none` if the probe is skipped because the species does not exist.  For an unknown component only a
message is printed and an uninitialised pointer is used. -/
def source (component : List Char) (specieExists : Bool) : Res (Option Nat) :=
  if component ∈ fieldBased then .ok (some (fieldBased.idxOf component))
  else if component ∈ specieBased then
    .ok (if specieExists then some (fieldBased.length + specieBased.idxOf component) else none)
  else .ub

/-! ### Pieces of a rectangle in the domains -/

/-- Conversion to `short`. -/
def i16 (x : Int) : Int := (x + 2 ^ 15) % 2 ^ 16 - 2 ^ 15

/-- The condition for rectangles, `/repo/src/outController.cpp:92-96`. -/
def touches (p : Rect) (d : CellDims) : Bool :=
  decide (p.r0 ≤ d.r1 ∧ p.z0 ≤ d.z1 ∧ d.r0 ≤ p.r1 ∧ d.z0 ≤ p.z1)

/-- `eff_prb_size`, `/repo/src/outController.cpp:112-138`. -/
structure Eff where
  a0 : Int
  b0 : Int
  a1 : Int
  b1 : Int
  deriving DecidableEq, Repr

/-- The part of the rectangle inside the domain, relative to the domain, `/repo/src/outController.cpp:112-138`; the
numbers are stored in `short`s before and after the subtraction. -/
def effective (p : Rect) (d : CellDims) : Eff :=
  ⟨i16 (i16 (if p.r0 < d.r0 then (d.r0 : Int) else p.r0) - d.r0),
   i16 (i16 (if p.z0 < d.z0 then d.z0 else p.z0) - d.z0),
   i16 (i16 (if p.r1 > d.r1 then d.r1 else p.r1) - d.r0),
   i16 (i16 (if p.z1 > d.z1 then d.z1 else p.z1) - d.z0)⟩

/-- `eff_engine_offset`, `/repo/src/outController.cpp:141-147` (`size_t` arithmetic). -/
def engineOffset (p : Rect) (d : CellDims) : Nat × Nat :=
  let e := effective p d
  (((e.a0 + d.r0 - p.r0) % 2 ^ 64).toNat, ((e.b0 + d.z0 - p.z0) % 2 ^ 64).toNat)

/-- One frame of a dataset: extent, and the values written so far. -/
structure Frame (T : Type _) where
  h : Nat
  w : Nat
  cell : Nat → Nat → Option T

section
variable {T : Type _}

/-- The two loops that copy the values, `/repo/src/outWriter.cpp:63-69`; here as the matrix `val`. -/
def readVal [Zero T] (g : Grid T) (e : Eff) : Res (Nat → Nat → T) :=
  loop (fun (q : Nat × Nat) (v : Nat → Nat → T) => g.get (e.a0 + q.1) (e.b0 + q.2) >>= fun x =>
      .ok fun a b => if a = q.1 ∧ b = q.2 then x else v a b)
    (idx2 0 (e.a1 - e.a0).toNat 0 (e.b1 - e.b0).toNat) fun _ _ => 0

/-- `write_rec`, `/repo/src/outEngine/outEngineHDF5.cpp:51-75`: `data[0]` of a matrix without rows is undefined, a
selection outside of the dataset aborts. -/
def writeRec (off : Nat × Nat) (rows cols : Nat) (v : Nat → Nat → T) (f : Frame T) : Res (Frame T) :=
  if rows = 0 then .ub
  else if off.1 + rows ≤ f.h ∧ off.2 + cols ≤ f.w then
    .ok { f with cell := fun a b =>
      if (off.1 ≤ a ∧ a < off.1 + rows) ∧ (off.2 ≤ b ∧ b < off.2 + cols) then some (v (a - off.1) (b - off.2))
      else f.cell a b }
  else .fatal

/-- The writer of a domain, for a rectangle: `/repo/src/outWriter.cpp:59-73`.  A negative extent makes the constructor
of the matrix throw, which ends the process. -/
def piece [Zero T] (p : Rect) (d : CellDims) (g : Grid T) (f : Frame T) : Res (Frame T) :=
  if touches p d then
    let e := effective p d
    if e.a1 < e.a0 ∨ e.b1 < e.b0 then .fatal
    else readVal g e >>= fun v => writeRec (engineOffset p d) (e.a1 - e.a0).toNat (e.b1 - e.b0).toNat v f
  else .ok f

/-- A frame of a rectangular probe: created with the extent of the probe (`/repo/src/outController.cpp:59-61`), then
filled by all domains (`/repo/src/outController.cpp:502-509`); `vals` are the grids of the domains. -/
def assemble [Zero T] (p : Rect) (g : Geo) (vals : Nat → Nat → Grid T) : Res (Frame T) :=
  loop (fun (q : Nat × Nat) f => piece p (domDims g q.1 q.2) (vals q.1 q.2) f) (idx2 0 g.domR 0 g.domZ)
    ⟨p.r1 - p.r0, p.z1 - p.z0, fun _ _ => none⟩

end
end Probe
end Pico
