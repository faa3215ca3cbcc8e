import Verif.Model.PicOut
import Verif.Model.MetaReader

/-!
# The Python reader of the results  (`/repo/lib/python/picopic/h5_reader.py:72-177`, `/repo/lib/python/picopic/reader.py:51-305`)

`none` is a Python exception.  Numbers in `shape` are whole and not negative.  A path is a text: other ways to write the same path (`//`, `/./`)
are not modelled.  Messages and the cache are left out.
-/

namespace Pico
namespace DataReader

open Pic MetaReader

/-- What `h5py` finds at a path: a dataset of frames of rows of numbers, or a group. -/
inductive Node where
  | set (frames rows cols : Nat) (cell : Nat → Nat → Nat → ℝ)
  | group (members : Nat)

/-- The file as `h5py` shows it. -/
abbrev File := List Char → Option Node

/-- Path of the dataset of a probe, `/repo/src/cfg.cpp:223-293`, `/repo/src/outController.cpp:62-78`. -/
def setPath (O : OEnv) (k : Nat) : List Char := Probe.path (O.probes k).component (O.probes k).specie (.rect (O.probes k).rect)

/-- Names in a group: what follows the path of the group in the paths of the datasets, up to the next slash. -/
def members (O : OEnv) (p : List Char) : List (List Char) :=
  ((List.range O.count).filterMap fun k => (setPath O k).dropPrefix? (p ++ ['/'])).map (·.takeWhile (· ≠ '/'))

/-- The output file after a run.  The sizes of a frame are those the dataset was created with
(`/repo/src/outController.cpp:59-79`); numbers never written are zero, the fill value of HDF5. -/
noncomputable def fileOf (O : OEnv) (F : Files) : File
  | '/' :: p =>
    match (List.range O.count).find? fun k => setPath O k = p with
    | some k => some (.set (F.sets k).rows ((O.probes k).rect.r1 - (O.probes k).rect.r0) ((O.probes k).rect.z1 - (O.probes k).rect.z0)
        fun f a b => (((F.sets k).frame f).cell a b).getD 0)
    | none => if members O p = [] then none else some (.group (members O p).dedup.length)
  | _ => none

/-- Index `i` of an axis of length `n` (in `h5py` and `numpy`): negative numbers count from the end, `IndexError` otherwise. -/
def axis (n : Nat) (i : Int) : Option Nat :=
  if 0 ≤ i then (if i < n then some i.toNat else none) else if 0 ≤ n + i then some (n + i).toNat else none

/-- Arrays of two and of one dimension. -/
structure Mat where
  h : Nat
  w : Nat
  cell : Nat → Nat → ℝ
structure Vec where
  len : Nat
  cell : Nat → ℝ

/-- `self.file[path][number]`; a group has no members with a number as name (`TypeError`). -/
def opened (f : File) (path : List Char) (number : Int) : Option Mat :=
  match f path with
  | some (.set n h w c) => (axis n number).map fun k => ⟨h, w, c k⟩
  | _ => none

/-- `rec`, `/repo/lib/python/picopic/h5_reader.py:79-96`; the validation does nothing, `/repo/lib/python/picopic/reader.py:90-100`. -/
def rec (f : File) (component : List Char) (shape : Probe.Rect) (number : Int) : Option Mat :=
  opened f (Probe.readerRec component shape) number

/-- `col`, `row`, `dot`, `/repo/lib/python/picopic/h5_reader.py:99-147`, with `/repo/lib/python/picopic/reader.py:103-126`. -/
def col (f : File) (component : List Char) (z : Nat) (number : Int) : Option Mat :=
  if number < 0 then none else opened f (Probe.readerCol component z) number
def row (f : File) (component : List Char) (r : Nat) (number : Int) : Option Mat :=
  if number < 0 then none else opened f (Probe.readerRow component r) number
def dot (f : File) (component : List Char) (r z : Nat) (number : Int) : Option Mat :=
  if number < 0 then none else opened f (Probe.readerDot component r z) number

/-- `col_rec`, `row_rec`, `dot_rec`, `/repo/lib/python/picopic/h5_reader.py:150-162`. -/
def colRec (f : File) (component : List Char) (z : Int) (shape : Probe.Rect) (number : Int) : Option Vec :=
  (rec f component shape number).bind fun m => (axis m.w z).map fun b => ⟨m.h, fun a => m.cell a b⟩
def rowRec (f : File) (component : List Char) (r : Int) (shape : Probe.Rect) (number : Int) : Option Vec :=
  (rec f component shape number).bind fun m => (axis m.h r).map fun a => ⟨m.w, m.cell a⟩
def dotRec (f : File) (component : List Char) (r z : Int) (shape : Probe.Rect) (number : Int) : Option ℝ :=
  (rec f component shape number).bind fun m => (axis m.h r).bind fun a => (axis m.w z).map fun b => m.cell a b

/-- `__ds_range__`, `/repo/lib/python/picopic/h5_reader.py:72-76`: only groups have `keys`. -/
def dsRange (f : File) (path : List Char) : Option Int :=
  match f path with
  | some (.group n) => some n
  | _ => none

/-- A size for `np.zeros`: negative sizes raise `ValueError`. -/
def size (n : Int) : Option Nat := if 0 ≤ n then some n.toNat else none

/-- A number of the metadata as a size: `TypeError` if it is not a whole number. -/
noncomputable def whole (v : Config.Json ℝ) : Option Nat := (asNum v).bind fun x => if (⌊x⌋ : ℝ) = x then size ⌊x⌋ else none

/-- `range(start, stop)`. -/
def ints (start stop : Int) : List Int := (List.range (stop - start).toNat).map fun (k : Nat) => start + k

/-- Assignment of an array to a part of another of given sizes: a size of one is stretched, otherwise `ValueError`. -/
def fit (R C : Nat) (m : Mat) : Option Mat :=
  if (m.h = R ∨ m.h = 1) ∧ (m.w = C ∨ m.w = 1) then
    some ⟨R, C, fun a b => m.cell (if m.h = 1 then 0 else a) (if m.w = 1 then 0 else b)⟩
  else none
def fitVec (L : Nat) (v : Vec) : Option Vec :=
  if v.len = L ∨ v.len = 1 then some ⟨L, fun a => v.cell (if v.len = 1 then 0 else a)⟩ else none

/-- `rec_range`, `/repo/lib/python/picopic/h5_reader.py:165-177`. -/
def recRange (f : File) (component : List Char) (shape : Probe.Rect) (start : Int) (stop : Option Int) : Option (List Mat) :=
  (stop.elim (dsRange f (Probe.readerPath component ['r', 'e', 'c'] shape)) some).bind fun stop =>
  (size (stop - start)).bind fun _ =>
  (size ((shape.r1 : Int) - shape.r0)).bind fun R => (size ((shape.z1 : Int) - shape.z0)).bind fun C =>
  collect (fun i => (rec f component shape i).bind (fit R C)) (ints start stop)

/-- `col_range`, `/repo/lib/python/picopic/reader.py:225-236`; the array has `start - stop` rows of zeros, the loop runs from `start` to
`stop`, and `col` gets a list as column (its path is then not a number; modelled as `none`). -/
noncomputable def colRange (f : File) (m : Meta ℝ) (component : List Char) (z : Nat) (start : Int) (stop : Option Int) : Option (List Vec) :=
  (stop.elim (dsRange f (Probe.readerPath component ['c', 'o', 'l'] ⟨0, 0, 0, z⟩)) some).bind fun stop =>
  (whole m.gridR).bind fun L => (size (start - stop)).bind fun n =>
  if ints start stop = [] then some (List.replicate n ⟨L, fun _ => 0⟩) else none

/-- `row_range`, `/repo/lib/python/picopic/reader.py:239-250`. -/
noncomputable def rowRange (f : File) (m : Meta ℝ) (component : List Char) (r : Nat) (start : Int) (stop : Option Int) : Option (List Vec) :=
  (stop.elim (dsRange f (Probe.readerPath component ['r', 'o', 'w'] ⟨0, 0, r, 0⟩)) some).bind fun stop =>
  (whole m.gridZ).bind fun L => (size (stop - start)).bind fun _ =>
  collect (fun i => (row f component r i).bind fun a => if a.h = 1 then fitVec L ⟨a.w, a.cell 0⟩ else none) (ints start stop)

/-- `dot_range`, `/repo/lib/python/picopic/reader.py:253-263`. -/
def dotRange (f : File) (component : List Char) (r z : Nat) (start : Int) (stop : Option Int) : Option (List ℝ) :=
  (stop.elim (dsRange f (Probe.readerPath component ['d', 'o', 't'] ⟨0, 0, r, z⟩)) some).bind fun stop =>
  (size (stop - start)).bind fun _ =>
  collect (fun i => (dot f component r z i).bind fun a => if a.h = 1 ∧ a.w = 1 then some (a.cell 0 0) else none) (ints start stop)

/-- `col_rec_range`, `/repo/lib/python/picopic/reader.py:266-277`: without an end the name `shape` is not defined (`NameError`). -/
noncomputable def colRecRange (f : File) (m : Meta ℝ) (component : List Char) (z : Int) (shape : Probe.Rect) (start : Int) (stop : Option Int) :
    Option (List Vec) :=
  stop.bind fun stop => (whole m.gridR).bind fun L => (size (stop - start)).bind fun _ =>
  collect (fun i => (colRec f component z shape i).bind (fitVec L)) (ints start stop)

/-- `row_rec_range`, `/repo/lib/python/picopic/reader.py:280-291`. -/
noncomputable def rowRecRange (f : File) (m : Meta ℝ) (component : List Char) (r : Int) (shape : Probe.Rect) (start : Int) (stop : Option Int) :
    Option (List Vec) :=
  stop.bind fun stop => (whole m.gridZ).bind fun L => (size (stop - start)).bind fun _ =>
  collect (fun i => (rowRec f component r shape i).bind (fitVec L)) (ints start stop)

/-- `dot_rec_range`, `/repo/lib/python/picopic/reader.py:294-305`. -/
def dotRecRange (f : File) (component : List Char) (r z : Int) (shape : Probe.Rect) (start : Int) (stop : Option Int) : Option (List ℝ) :=
  stop.bind fun stop => (size (stop - start)).bind fun _ =>
  collect (fun i => dotRec f component r z shape i) (ints start stop)

end DataReader
end Pico
