import Verif.Model.Particle
import Mathlib.Data.Int.Log
import Mathlib.Data.Rat.Floor

/-!
# Main loop, simulation clock and output schedule

`/repo/src/PiCoPiC.cpp:299-395`, `/repo/src/outController.cpp:312-510`, `/repo/src/outWriter.cpp:49-100`,
`/repo/src/outEngine/outEngineHDF5.cpp:50-75,209-228`.
-/

namespace Pico
namespace Out

/-- `TimeSim`, `/repo/include/timeSim.hpp:20-27`. -/
structure Time (K : Type _) where
  start : K
  stop : K
  step : K
  current : K

section
variable {K : Type _} [Field K] [LinearOrder K] [IsStrictOrderedRing K] [FloorRing K]

/-- `Cfg::init_time`, `/repo/src/cfg.cpp:430-439`: the three values of the configuration, no check. -/
def initTime (start stop step : K) : Time K := ⟨start, stop, step, 0⟩

/-- The loop of `main`, `/repo/src/PiCoPiC.cpp:299-393`, reduced to the clock: the state is the time record and
the number of executed steps.  (Output, physics and the pause are modelled on their own.) -/
def MainLoop (t : Time K × Nat) (u : Time K × Nat) : Prop :=
  While (fun s : Time K × Nat => decide (s.1.current ≤ s.1.stop))
    (fun s => ({ s.1 with current := s.1.current + s.1.step }, s.2 + 1)) t u

/-- `int current_time_step = ceil(time->current / time->step)`, `/repo/src/outWriter.cpp:51` and
`/repo/src/outController.cpp:341`.  `rnd` is the rounding of the division (the identity for exact arithmetic).
A zero step or a result outside `int` is undefined. -/
def stepNo (rnd : K → K) (current step : K) : Res Int :=
  if step = 0 then .ub
  else
    let n := ⌈rnd (current / step)⌉
    if -2 ^ 31 ≤ n ∧ n < 2 ^ 31 then .ok n else .ub

/-- `is_run`, `slice`: the frame to be written at step `n`, if any; `/repo/src/outWriter.cpp:52-57`,
`/repo/src/outController.cpp:342-351`.  `%` by zero is undefined.  (The step number is never negative here.) -/
def frame (schedule : Nat) (n : Int) : Res (Option Nat) :=
  if schedule = 0 then .ub
  else .ok (if n.toNat % schedule = 0 then some (n.toNat / schedule) else none)

/-- What the output file knows of one probe: the number of frames the dataset has room for, and every write of
a frame so far as (step number, domain, frame). -/
structure DS where
  rows : Nat
  log : List (Int × Nat × Nat)
  deriving DecidableEq, Repr

/-- `create_dataset`: room for one frame, `/repo/src/outEngine/outEngineHDF5.cpp:117-172`. -/
def DS.init : DS := ⟨1, []⟩

/-- `extend_dataset`, `/repo/src/outEngine/outEngineHDF5.cpp:204-222`. -/
def DS.extend (d : DS) (num : Nat) : DS := if d.rows > num then d else { d with rows := num + 1 }

/-- `write_*` into frame `num`, `/repo/src/outEngine/outEngineHDF5.cpp:51-75`: a selection outside of the dataset
throws and the handler aborts. -/
def DS.write (d : DS) (n : Int) (dom num : Nat) : Res DS :=
  if num < d.rows then .ok { d with log := d.log ++ [(n, dom, num)] } else .fatal

/-- Part of `init_datasets` that concerns one probe, `/repo/src/outController.cpp:341-376`: the schedule is an
`unsigned int` there. -/
def initDataset (schedule : Nat) (n : Int) (d : DS) : Res DS :=
  frame schedule n >>= fun f => match f with
    | some k => .ok (d.extend k)
    | none => .ok d

/-- `OutWriter::operator()` of domain `dom`, `/repo/src/outWriter.cpp:49-100`: the schedule was narrowed to
`unsigned short` (`/repo/include/outWriter.hpp:40`). -/
def writer (schedule : Nat) (n : Int) (dom : Nat) (d : DS) : Res DS :=
  frame (schedule % 2 ^ 16) n >>= fun f => match f with
    | some k => d.write n dom k
    | none => .ok d

/-- `OutController::operator()` for one probe that `doms` domains contribute to,
`/repo/src/outController.cpp:498-510`. -/
def output (schedule doms : Nat) (n : Int) (d : DS) : Res DS :=
  initDataset schedule n d >>= fun d => loop (writer schedule n) (List.range doms) d

/-- One turn of the main loop: output, then the clock, `/repo/src/PiCoPiC.cpp:340-344`. -/
def turn (rnd : K → K) (step : K) (schedule doms : Nat) (s : K × DS) : Res (K × DS) :=
  stepNo rnd s.1 step >>= fun n => output schedule doms n s.2 >>= fun d => .ok (rnd (s.1 + step), d)

/-- `N` turns of the main loop from the start of a run. -/
def run (rnd : K → K) (step : K) (schedule doms N : Nat) : Res (K × DS) :=
  loop (fun _ s => turn rnd step schedule doms s) (List.range N) (0, DS.init)

end

/-- Rounding of a positive rational to the nearest IEEE-754 double, ties to even (`double` in the repository).  The
exponent range is not modelled. -/
def round64 (x : ℚ) : ℚ :=
  if x ≤ 0 then 0
  else
    let e : Int := Int.log 2 x - 52
    let q : ℚ := x / 2 ^ e
    let f := ⌊q⌋
    let m := if q - f < 1 / 2 then f else if 1 / 2 < q - f then f + 1 else if f % 2 = 0 then f else f + 1
    m * 2 ^ e

/-- The double nearest to one tenth. -/
def tenth : ℚ := 3602879701896397 / 2 ^ 55

end Out
end Pico
