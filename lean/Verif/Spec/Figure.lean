import Verif.Model.Figure

/-! Specification vocabulary for figures (C134). -/

namespace Pico
namespace Figure

/-- Real coordinate of the position `x` (in cells of the data) of an axis: linear, `start` at the first cell and `stop` at the end. -/
noncomputable def coord (a : Axis) (x : ℝ) : ℝ := a.start + (a.stop - a.start) * (x / a.size)

/-- `w` is `x` written with `d + 1` significant digits: a relative error of at most half a unit of the last digit. -/
def Written (d : Nat) (x w : ℝ) : Prop := |w - x| ≤ |x| / (2 * 10 ^ d)

end Figure
end Pico
