import Mathlib.Data.Real.Basic
import Mathlib.Algebra.BigOperators.Group.List.Basic

/-!
# The performance test  (`/repo/test/performance/test.py`)

Times of the last commits and the verdict about the newest.  Checking out, building and running are not modelled: each run gives its time.
The number of commits (`-l`) is not negative here.
-/

namespace Pico
namespace Perf

/-- The coloured report. -/
inductive Verdict where
  | passed
  | warning
  | failed
  deriving DecidableEq, Repr

/-- `test_run`, lines 18-34: the time that the run reports, 0 if it reports none. -/
noncomputable def testRun (reported : Option ℝ) : ℝ := reported.getD 0

/-- `avg`, lines 80-87; no value divides by zero (exception, `none`). -/
noncomputable def avg (l : List ℝ) : Option ℝ := if l = [] then none else some (l.foldl (· + ·) 0 / l.length)

open Classical in
/-- The verdict, lines 152-165, for the times of the commits, the newest first.  (With an average of zero all times are zero and the
quotient is not evaluated.) -/
noncomputable def verdict (times : List ℝ) : Option Verdict :=
  (avg times).bind fun a => (times[0]?).bind fun t =>
  some (if t ≤ a ∨ t / a < 101 / 100 then .passed else if t / a < 11 / 10 then .warning else .failed)

/-- The loop over the commits, lines 123-146, and the verdict about the application: `log` are the reported times of all commits, `l` is the
option. -/
noncomputable def report (l : Nat) (log : List (Option ℝ)) : Option Verdict := verdict ((log.take l).map testRun)

end Perf
end Pico
