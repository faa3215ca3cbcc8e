import Verif.Model.Grid
import Mathlib.Algebra.Order.Field.Basic
import Mathlib.Data.Int.Basic

/-!
# Helpers  (`/repo/include/algo/common.hpp`, `/repo/src/algo/common.cpp`)

Interpolation of maps, splitting of strings, command line options, the report of the run time and the creation of
directories.
-/

namespace Pico
namespace Help

/-! ### Interpolation of maps -/

section Interp
variable {K : Type _} [Field K]

/-- Cells inside of the map, `/repo/include/algo/common.hpp:75`. -/
def bilCell (a : Grid K) (p : Nat × Nat) (b : Grid K) : Res (Grid K) :=
  a.get (p.1 - 1 : Int) (p.2 - 1 : Int) >>= fun v1 =>
  a.get (p.1 : Int) (p.2 - 1 : Int) >>= fun v2 =>
  a.get (p.1 - 1 : Int) (p.2 : Int) >>= fun v3 =>
  a.get (p.1 : Int) (p.2 : Int) >>= fun v4 =>
  b.set p.1 p.2 ((v1 + v2 + v3 + v4) / 4)

/-- Cells of the first column, `/repo/include/algo/common.hpp:80`. -/
def bilX (a : Grid K) (i : Nat) (b : Grid K) : Res (Grid K) :=
  a.get (i - 1 : Int) 0 >>= fun v1 => a.get (i : Int) 0 >>= fun v2 => b.set i 0 ((v1 + v2) / 2)

/-- Cells of the first row, `/repo/include/algo/common.hpp:84`. -/
def bilY (a : Grid K) (j : Nat) (b : Grid K) : Res (Grid K) :=
  a.get 0 (j - 1 : Int) >>= fun v1 => a.get 0 (j : Int) >>= fun v2 => b.set 0 j ((v1 + v2) / 2)

/-- `bilinear_interpolation`, `/repo/include/algo/common.hpp:66-86`.  The arguments are passed by value, but a copy of a
grid shares its cells, so the caller sees the result in `b`.  `a` and `b` are different grids here; the threads of the
parallel loops write different cells. -/
def bilinear (a b : Grid K) : Res (Grid K) :=
  loop (bilCell a) (idx2 1 a.xs 1 a.ys) b >>= fun b =>
  loop (bilX a) (List.range' 1 (a.xs - 1)) b >>= fun b =>
  loop (bilY a) (List.range' 1 (a.ys - 1)) b

/-- The sixteen coefficients in the order of `/repo/include/algo/common.hpp:100-115`, in `int` arithmetic as `x` and `y`
are `int`, with the offset of the cell each one belongs to (`117-132`). -/
def coefs (x y : Int) : List (Int × Int × Int) :=
  [(((x-1) * (x-2) * (x+1) * (y-1) * (y-2) * (y+1)).tdiv 4, 0, 0),
   ((- x * (x+1) * (x-2) * (y-1) * (y-2) * (y+1)).tdiv 4, 0, 1),
   ((- (x-1) * (x-2) * (x+1) * y * (y-2) * (y+1)).tdiv 4, 1, 0),
   ((x * (x-2) * (x+1) * y * (y-2) * (y+1)).tdiv 4, 1, 1),
   ((- x * (x-1) * (x-2) * (y-1) * (y-2) * (y+1)).tdiv 12, 0, -1),
   ((- (x-1) * (x-2) * (x+1) * y * (y-2) * (y-1)).tdiv 12, -1, 0),
   ((x * (x-2) * (x-1) * y * (y-2) * (y+1)).tdiv 12, 1, -1),
   ((x * (x-2) * (x+1) * y * (y-2) * (y-1)).tdiv 12, -1, 1),
   ((x * (x-1) * (x+1) * (y-1) * (y-2) * (y+1)).tdiv 12, 0, 2),
   (((x-1) * (x-2) * (x+1) * y * (y-1) * (y+1)).tdiv 12, 2, 0),
   ((x * (x-2) * (x-1) * y * (y-2) * (y-1)).tdiv 36, -1, -1),
   ((- x * (x-1) * (x+1) * y * (y-2) * (y+1)).tdiv 12, 1, 2),
   ((- x * (x-2) * (x+1) * y * (y-1) * (y+1)).tdiv 12, 2, 1),
   ((- x * (x-1) * (x+1) * y * (y-2) * (y-1)).tdiv 36, -1, 2),
   ((- x * (x-2) * (x-1) * y * (y-1) * (y+1)).tdiv 36, 2, -1),
   ((x * (x-1) * (x+1) * y * (y-1) * (y+1)).tdiv 36, 2, 2)]

/-- The `int` variables `x` and `y` get the value of `0.5`, `/repo/include/algo/common.hpp:93-94`: it is truncated. -/
def half : Int := 0

/-- One cell of the result, `/repo/include/algo/common.hpp:117-133`: sum over the coefficients, from the left. -/
def cubCell (a : Grid K) (p : Nat × Nat) (b : Grid K) : Res (Grid K) :=
  loop (fun c s => a.get (p.1 + c.2.1) (p.2 + c.2.2) >>= fun v => .ok (s + (c.1 : K) * v)) (coefs half half) 0 >>=
    fun s => b.set p.1 p.2 s

/-- The rows that are set to zero, `/repo/include/algo/common.hpp:136-142`. -/
def cubX (a : Grid K) (j : Nat) (b : Grid K) : Res (Grid K) :=
  b.set 0 j 0 >>= fun b => b.set 1 j 0 >>= fun b => b.set a.xs j 0 >>= fun b => b.set a.xs j 0

/-- The columns that are set to zero, `/repo/include/algo/common.hpp:144-150`. -/
def cubY (a : Grid K) (i : Nat) (b : Grid K) : Res (Grid K) :=
  b.set i 0 0 >>= fun b => b.set i 1 0 >>= fun b => b.set i a.ys 0 >>= fun b => b.set i a.ys 0

/-- `bicubic_interpolation`, `/repo/include/algo/common.hpp:88-151`.  The upper limits `x_size - 2`, `y_size - 2` are
`unsigned int`.  (The coefficients are shared between the threads of the parallel loop; as all threads write the same
values this is not modelled.) -/
def bicubic (a b : Grid K) (xSize ySize : Nat) : Res (Grid K) :=
  loop (cubCell a) (idx2 2 ((xSize + (2 ^ 32 - 2)) % 2 ^ 32) 2 ((ySize + (2 ^ 32 - 2)) % 2 ^ 32)) b >>= fun b =>
  loop (cubX a) (List.range a.ys) b >>= fun b =>
  loop (cubY a) (List.range a.xs) b

end Interp

/-! ### Strings and the command line -/

/-- The loop of `splitstr`, `/repo/src/algo/common.cpp:203-207`, on the rest of the string from `end` on: skip to the
first character that is not the delimiter; stop if there is none; the part ends before the next delimiter (or at the
end of the string). -/
def splitRest (d : Char) (s : List Char) : List (List Char) :=
  match h : s.dropWhile (· == d) with
  | [] => []
  | c :: t => (c :: t).takeWhile (· != d) :: splitRest d ((c :: t).dropWhile (· != d))
termination_by s.length
decreasing_by
  have h1 : (s.dropWhile (· == d)).length ≤ s.length := (List.dropWhile_suffix _).length_le
  have h2 : c ≠ d := by
    have := List.head?_dropWhile_not (· == d) s
    rw [h] at this
    simpa using this
  rw [h] at h1
  have h3 : (c :: t).dropWhile (· != d) = t.dropWhile (· != d) := by rw [List.dropWhile_cons_of_pos (by simpa using h2)]
  rw [h3]
  have h4 : (t.dropWhile (· != d)).length ≤ t.length := (List.dropWhile_suffix _).length_le
  simp only [List.length_cons] at h1
  omega

/-- `splitstr`, `/repo/src/algo/common.cpp:197-208`: the parts are appended to `out`. -/
def splitstr (s : List Char) (d : Char) (out : List (List Char)) : List (List Char) := out ++ splitRest d s

variable {A : Type _} [DecidableEq A]

/-- `get_cmd_option`, `/repo/src/algo/common.cpp:162-168`; `none` is the null pointer. -/
def getCmdOption (args : List A) (opt : A) : Option A :=
  match args.dropWhile (· ≠ opt) with
  | [] => none
  | _ :: [] => none
  | _ :: v :: _ => some v

/-- `cmd_option_exists`, `/repo/src/algo/common.cpp:170-173`. -/
def cmdOptionExists (args : List A) (opt : A) : Bool := args.dropWhile (· ≠ opt) ≠ []

/-- What the program does with its arguments. -/
inductive Start where
  /-- print a text and exit with this code -/
  | exit (code : Nat)
  /-- read this configuration file -/
  | file (name : List Char)
  deriving DecidableEq

/-- `parse_argv_get_config`, `/repo/src/PiCoPiC.cpp:101-130`.  `args` are all arguments with the name of the program,
`package` is `PACKAGE_NAME`.  Assigning a null pointer to a `std::string` is undefined. -/
def parseArgv (package : List Char) (args : List (List Char)) : Res Start :=
  if cmdOptionExists args ['-', 'h'] then .ok (.exit 1)
  else if cmdOptionExists args ['-', '-', 'v', 'e', 'r', 's', 'i', 'o', 'n'] then .ok (.exit 0)
  else
    (if cmdOptionExists args ['-', 'f'] then
      (match getCmdOption args ['-', 'f'] with
        | none => .ub
        | some v => .ok v)
    else .ok (package ++ ['.', 'j', 's', 'o', 'n'])) >>= fun name =>
    if name = [] then .fatal else .ok (.file name)

/-! ### Run time -/

/-- What is printed: numbers with their units, in this order. -/
inductive Unit' where
  | day | hour | minute | second
  deriving DecidableEq

/-- `double` to `int`, undefined if the value does not fit. -/
def toInt (x : Int) : Res Int := if -2 ^ 31 ≤ x ∧ x < 2 ^ 31 then .ok x else .ub

/-- The numbers `get_simulation_duration` prints, `/repo/src/algo/common.cpp:62-97`.  The elapsed time is the difference
of two `time_t`: a whole number of seconds.  Quotients are truncated. -/
def durationParts (t : Int) : Res (List (Int × Unit')) :=
  if t > 60 ∧ t < 3600 then
    toInt t >>= fun ti =>
    let min := ti.tdiv 60
    .ok [(min, .minute), (t - min * 60, .second)]
  else if t > 3600 ∧ t < 86400 then
    toInt t >>= fun ti =>
    let hr := ti.tdiv 3600
    let min := (t - hr * 3600).tdiv 60
    .ok [(hr, .hour), (min, .minute), (t - hr * 3600 - min * 60, .second)]
  else if t > 86400 then
    toInt t >>= fun ti =>
    let d := ti.tdiv 86400
    let hr := (t - d * 86400).tdiv 3600
    let min := (t - d * 86400 - hr * 3600).tdiv 60
    .ok [(d, .day), (hr, .hour), (min, .minute), (t - d * 86400 - hr * 3600 - min * 60, .second)]
  else .ok [(t, .second)]

/-- Letter of a unit in the format strings, `/repo/src/algo/common.cpp:79-97`. -/
def letter : Unit' → Char
  | .day => 'd' | .hour => 'h' | .minute => 'm' | .second => 's'

/-- Decimal text of a number (`%d`, and `%.0f` of a whole number). -/
def decimal (n : Int) : List Char := (toString n).toList

/-- The text printed: `sprintf` with a blank between the parts. -/
def durationText (l : List (Int × Unit')) : List Char :=
  List.intercalate [' '] (l.map fun p => decimal p.1 ++ [letter p.2])

/-- `sprintf (the_time, …)` with `the_time = new char`, `/repo/src/algo/common.cpp:69,79-97`: the buffer has `room`
bytes and the text needs one more for its end. -/
def sprintf (room : Nat) (text : List Char) : Res (List Char) := if text.length + 1 ≤ room then .ok text else .ub

/-- `get_simulation_duration`, `/repo/src/algo/common.cpp:62-100`, with a buffer of `room` bytes (`new char`: 1). -/
def durationWith (room : Nat) (t : Int) : Res (List Char) :=
  durationParts t >>= fun l => sprintf room (durationText l)

/-- `get_simulation_duration`, `/repo/src/algo/common.cpp:62-100`. -/
def duration (t : Int) : Res (List Char) := durationWith 1 t

/-! ### Directories -/

/-- What a path denotes. -/
inductive Node where
  | file | dir
  deriving DecidableEq

/-- Where a path leads: from the root or from the working directory, along these names.  (`.`, `..` and links are not
modelled.) -/
structure Place where
  abs : Bool
  names : List (List Char)
  deriving DecidableEq

/-- The file system as `mkdir` and `stat` see it: what exists (the root and the working directory always do), and in
which directories the user may create something. -/
structure FS where
  at' : Place → Option Node
  may : Place → Bool

/-- What is at a place; the starting points are directories. -/
def FS.node (fs : FS) (p : Place) : Option Node := if p.names = [] then some .dir else fs.at' p

/-- Path resolution (POSIX): repeated and trailing slashes do not matter, a leading one does. -/
def resolve (path : List Char) : Place := ⟨path.head? = some '/', splitRest '/' path⟩

/-- Error codes the code distinguishes. -/
inductive Err where
  | none | enoent | eexist | other
  deriving DecidableEq

/-- Look up the directories on the way (all names but the last): the first one that is missing or not a directory. -/
def walk (fs : FS) (abs : Bool) : List (List Char) → List (List Char) → Err
  | _, [] => .none
  | before, n :: rest =>
    match fs.node ⟨abs, before ++ [n]⟩ with
    | .none => .enoent
    | some .file => .other
    | some .dir => walk fs abs (before ++ [n]) rest

/-- The system call `mkdir` (POSIX; environment of the code). -/
def mkdir (fs : FS) (path : List Char) : Err × FS :=
  let p := resolve path
  if path = [] then (.enoent, fs)
  else if p.names = [] then (.eexist, fs)
  else
    match walk fs p.abs [] p.names.dropLast with
    | .none =>
      match fs.node p with
      | some _ => (.eexist, fs)
      | Option.none =>
        if fs.may ⟨p.abs, p.names.dropLast⟩ then
          (.none, { fs with at' := fun q => if q = p then some .dir else fs.at' q })
        else (.other, fs)
    | e => (e, fs)

/-- `directory_exists`, `/repo/src/algo/common.cpp:103-116` (for paths whose way exists). -/
def directoryExists (fs : FS) (path : List Char) : Bool := fs.node (resolve path) = some .dir

/-- `path.substr(0, path.find_last_of('/'))`, `/repo/src/algo/common.cpp:136,143`; `none` if there is no slash. -/
def parentPath (path : List Char) : Option (List Char) :=
  match path.reverse.dropWhile (· ≠ '/') with
  | [] => none
  | _ :: t => some t.reverse

theorem parentPath_length {path q : List Char} (h : parentPath path = some q) : q.length < path.length := by
  unfold parentPath at h
  have h1 : (path.reverse.dropWhile (· ≠ '/')).length ≤ path.reverse.length := (List.dropWhile_suffix _).length_le
  split at h
  · cases h
  · rename_i e
    rw [e] at h1
    simp only [Option.some.injEq] at h
    subst h
    simp only [List.length_cons, List.length_reverse] at h1 ⊢
    omega

/-- `make_directory`, `/repo/src/algo/common.cpp:118-160` (the POSIX variant).  `others` is what other processes do to
the file system before the second attempt. -/
def makeDirectory (others : FS → FS) (fs : FS) (path : List Char) : Bool × FS :=
  match mkdir fs path with
  | (.none, fs) => (true, fs)
  | (.eexist, fs) => (directoryExists fs path, fs)
  | (.other, fs) => (false, fs)
  | (.enoent, fs) =>
    match h : parentPath path with
    | none => (false, fs)
    | some q =>
      match makeDirectory others fs q with
      | (false, fs) => (false, fs)
      | (true, fs) =>
        match mkdir (others fs) path with
        | (.none, fs) => (true, fs)
        | (_, fs) => (false, fs)
termination_by path.length
decreasing_by exact parentPath_length h

end Help
end Pico
