import Mathlib.Analysis.Real.Sqrt
import Mathlib.Algebra.BigOperators.Group.List.Basic

/-!
# The functional test  (`/repo/test/functional/test.py`)

What the test does with the results of runs.  Values are exact; a value that is not a number is `none`.  Building and running the program is
not modelled: a try gets the output file of its run.  An exception is `none`.
-/

namespace Pico
namespace TestRun

/-- A value of a dataset, or not a number. -/
abbrev Cell := Option ℝ

/-- `np.nanmean`: mean of the values that are numbers; not a number if there is none. -/
noncomputable def nanmean (d : List Cell) : Cell :=
  let v := d.filterMap id
  if v = [] then none else some (v.sum / v.length)

/-- `np.nanvar`: mean square distance to the mean. -/
noncomputable def nanvar (d : List Cell) : Cell :=
  (nanmean d).map fun m => ((d.filterMap id).map fun x => (x - m) ^ 2).sum / (d.filterMap id).length

/-- `np.nanstd`. -/
noncomputable def nanstd (d : List Cell) : Cell := (nanvar d).map Real.sqrt

open Classical in
/-- `np.allclose(a, b, rtol, atol)` for two numbers. -/
noncomputable def allclose (rtol atol : ℝ) : Cell → Cell → Bool
  | some a, some b => decide (|a - b| ≤ atol + rtol * |b|)
  | _, _ => false

/-- An output file: datasets by component (all with the frame `0-32_0-128`), each a list of frames of rows. -/
abbrev File := String → Option (List (List (List Cell)))

/-- The stored values: numbers of the text file of a component. -/
abbrev Known := String → Option (List Cell)

/-- `fetch_test_data`, lines 158-166: one frame, as one row. -/
def fetch (f : File) (c : String) (number : Nat) : Option (List Cell) :=
  (f c).bind fun frames => (frames[number]?).bind fun frame => some frame.flatten

/-- `compare`, lines 169-222.  The second assignment to `isc` (line 186) forgets the first (line 181). -/
noncomputable def compare (rtol atol : ℝ) (f : File) (known : Known) (number : Nat) (c : String) : Option Bool :=
  (fetch f c number).bind fun test =>
  (known c).bind fun true_ =>
  (true_[0]?).bind fun m =>
  let _isc := allclose rtol atol (nanmean test) m
  (true_[1]?).bind fun s =>
  let isc := allclose rtol atol (nanstd test) s
  (true_[2]?).bind fun v =>
  some (if isc then allclose rtol atol (nanvar test) v else isc)

/-- `components`, line 258. -/
def components : List String := ["E/r", "E/phi", "E/z", "H/r", "H/phi", "H/z", "J/r", "J/phi", "J/z"]

/-- The loop of `test_example`, lines 259-261. -/
noncomputable def compareAll (rtol atol : ℝ) (f : File) (known : Known) (number : Nat) : List String → Bool → Option Bool
  | [], status => some status
  | c :: cs, status => (compare rtol atol f known number c).bind fun s =>
      compareAll rtol atol f known number cs (if status then s else status)

/-- `test_example`, lines 225-263; the absolute tolerance is zero. -/
noncomputable def testExample (rtol : ℝ) (f : File) (known : Known) (number : Nat) : Option Bool :=
  compareAll rtol 0 f known number components true

/-- The loop of the smoke test, lines 620-632: `k` more tries, the next being number `i` (counted from zero). -/
noncomputable def tries (rtol : ℝ) (runs : Nat → File) (known : Known) : Nat → Nat → Option Bool
  | 0, _ => some false
  | k + 1, i => (testExample rtol (runs i) known 4).bind fun status =>
      if status then some true else tries rtol runs known k (i + 1)

/-- Exit status, lines 651-658; an exception ends the interpreter with 1. -/
def exitStatus : Option Bool → Nat
  | some true => 0
  | _ => 1

/-- `--type smoke`, lines 615-632: up to four runs, frame 4. -/
noncomputable def smoke (rtol : ℝ) (runs : Nat → File) (known : Known) : Nat := exitStatus (tries rtol runs known 4 0)

/-- `--type ext`, lines 634-642: one run, frame 11. -/
noncomputable def ext (rtol : ℝ) (f : File) (known : Known) : Nat := exitStatus (testExample rtol f known 11)

/-- `collect_true_data`, lines 266-337, for one component: the program runs once (line 284), before the loop; `n` times (100000 in the
code) the same file is read, and the means of the means, deviations and variances are taken. -/
noncomputable def collect (n : Nat) (f : File) (number : Nat) (c : String) : Option (List Cell) :=
  (fetch f c number).bind fun d =>
  some [nanmean (List.replicate n (nanmean d)), nanmean (List.replicate n (nanstd d)), nanmean (List.replicate n (nanvar d))]

end TestRun
end Pico
