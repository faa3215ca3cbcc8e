import Verif.Model.Perf

/-! # What the performance test tells (specification of C137) -/

namespace Pico
namespace Perf

/-- The earlier commits took `a` seconds on average. -/
def MeanTime (times : List ℝ) (a : ℝ) : Prop := times ≠ [] ∧ a * times.length = times.sum

/-- The newest commit is slower than the earlier ones by the factor `q` or more. -/
def Slower (q new a : ℝ) : Prop := q * a ≤ new

end Perf
end Pico
