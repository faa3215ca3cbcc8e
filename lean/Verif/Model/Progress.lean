import Verif.Model.Output
import Verif.Model.Helpers

/-!
# The table of progress

`/repo/src/msg.cpp:22-77` and its use in `/repo/src/outController.cpp:341-348,492-493`.
-/

namespace Pico
namespace Out

/-- The contents of one line of the table: `print_values`, `/repo/src/msg.cpp:48-57`.  The numbers of step and frame, path and shape of the probe, the
model time and the duration of the simulation as text. -/
structure Row where
  step : Int
  frame : Nat
  path : List Char
  shape : List Char
  time : List Char
  duration : List Char
  deriving DecidableEq, Repr

/-- A line of the table: the header (three lines of output) or the values of a frame. -/
inductive Line where
  | header
  | row (r : Row)
  deriving DecidableEq, Repr

/-- What was printed so far and `print_header_counter`, `/repo/include/timeSim.hpp:26`; zero at the start (`new TimeSim()`, `/repo/src/cfg.cpp:30`). -/
structure Table where
  counter : Nat
  lines : List Line

/-- `print_header (30, time)`, `/repo/src/msg.cpp:24-46`; the counter is an `unsigned int`. -/
def printHeader (t : Table) : Table :=
  ⟨(t.counter + 1) % 2 ^ 32, if t.counter % 30 = 0 then t.lines ++ [.header] else t.lines⟩

/-- What the table reads of a probe. -/
structure TProbe where
  path : List Char
  shape : Nat
  schedule : Nat

/-- The name of the shape, `/repo/src/outController.cpp:350,354-373`; other shapes leave the name empty. -/
def shapeText (n : Nat) : List Char :=
  if n = 0 then ['r', 'e', 'c'] else if n = 1 then ['c', 'o', 'l'] else if n = 2 then ['r', 'o', 'w'] else if n = 3 then ['d', 'o', 't'] else []

section
variable {K : Type _} [Field K] [LinearOrder K] [IsStrictOrderedRing K] [FloorRing K]

/-- `print_values (prb->path, shape_name, prb->schedule, time)`, `/repo/src/msg.cpp:48-68`.  `shown` is how a stream shows the time, `clock` the text of
`get_simulation_duration` (C51).  The division is unsigned; the step number is never negative here. -/
def printValues (rnd : K → K) (step : K) (shown : K → List Char) (clock : List Char) (current : K) (p : TProbe) (t : Table) : Res Table :=
  stepNo rnd current step >>= fun n =>
  .ok { t with lines := t.lines ++ [.row ⟨n, n.toNat / p.schedule, p.path, shapeText p.shape, shown current, clock⟩] }

/-- What `init_datasets` prints for one probe, `/repo/src/outController.cpp:341-348,492-493`. -/
def printProbe (rnd : K → K) (step : K) (shown : K → List Char) (clock : List Char) (current : K) (p : TProbe) (t : Table) : Res Table :=
  stepNo rnd current step >>= fun n => frame p.schedule n >>= fun f => match f with
    | none => .ok t
    | some _ => printValues rnd step shown clock current p (printHeader t)

/-- `N` turns of the main loop, `/repo/src/PiCoPiC.cpp:299-344`, reduced to the clock and the table: `clock n` is the text of the duration in turn `n`. -/
def progress (rnd : K → K) (step : K) (shown : K → List Char) (clock : Nat → List Char) (probes : List TProbe) (N : Nat) : Res (K × Table) :=
  loop (fun n s => loop (printProbe rnd step shown (clock n) s.1) probes s.2 >>= fun t => .ok (rnd (s.1 + step), t)) (List.range N) (0, ⟨0, []⟩)

end

/-- `std::left << std::setw (w) << text`: padded with blanks on the right, never cut. -/
def padded (w : Nat) (s : List Char) : List Char := s ++ List.replicate (w - s.length) ' '

/-- The text of a line with values, `/repo/src/msg.cpp:59-67`. -/
def Row.text (r : Row) : List Char :=
  padded 13 ('|' :: ' ' :: Help.decimal r.step) ++ padded 14 ('|' :: ' ' :: Help.decimal r.frame) ++ padded 50 ('|' :: ' ' :: r.path) ++
  padded 8 ('|' :: ' ' :: r.shape) ++ padded 19 ('|' :: ' ' :: r.time) ++ padded 22 ('|' :: ' ' :: r.duration) ++ ['|']

/-- The border of the table, `/repo/src/msg.cpp:31,39,73`. -/
def border : List Char :=
  "+------------+-------------+-------------------------------------------------+-------+------------------+---------------------+".toList

/-- The titles, `/repo/src/msg.cpp:32-38`. -/
def titles : List Char :=
  padded 13 "|    Step".toList ++ padded 14 "| Frame".toList ++ padded 50 "|                Dumping Probe Name".toList ++ padded 8 "| Shape".toList ++
  padded 19 "| Model Time (sec)".toList ++ padded 22 "| Simulation Duration".toList ++ ['|']

/-- What is printed for a line of the table, `/repo/src/msg.cpp:31-39,59-67`. -/
def Line.text : Line → List (List Char)
  | .header => [border, titles, border]
  | .row r => [r.text]

end Out
end Pico
