import Verif.Model.Progress

/-! # C128 — what the table of progress is meant to show -/

namespace Pico
namespace Out

/-- The names of the shapes of probes: a rectangle, a column, a row, a dot. -/
def shapeName (n : Nat) : List Char := (["rec".toList, "col".toList, "row".toList, "dot".toList][n]?).getD []

/-- The frames due in turn `n`, in the order of the probes: the probes whose schedule divides the number of the turn. -/
def due {K : Type _} [Field K] (step : K) (shown : K → List Char) (clock : Nat → List Char) (probes : List TProbe) (n : Nat) : List Row :=
  probes.filterMap fun p => if p.schedule ∣ n then some ⟨n, n / p.schedule, p.path, shapeName p.shape, shown (n * step), clock n⟩ else none

/-- The frames due in the first `N` turns. -/
def dueAll {K : Type _} [Field K] (step : K) (shown : K → List Char) (clock : Nat → List Char) (probes : List TProbe) (N : Nat) : List Row :=
  (List.range N).flatMap (due step shown clock probes)

/-- The table with these rows: a header first and after every thirty rows. -/
def tabled : List Row → Nat → List Line
  | [], _ => []
  | r :: rs, m => (if m % 30 = 0 then [.header, .row r] else [.row r]) ++ tabled rs (m + 1)

/-- Where the bars of the table are. -/
def Bars (s : List Char) : Prop := s.length = 127 ∧ ∀ k ∈ [0, 13, 27, 77, 85, 104, 126], s[k]? = some '|'

end Out
end Pico
