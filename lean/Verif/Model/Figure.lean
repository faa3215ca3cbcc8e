import Mathlib.Analysis.SpecialFunctions.Log.Base

/-!
# Axes, images and colour bars of figures  (`/repo/lib/python/picopic/plot_builder.py`)

Only the numbers that go to the drawing library: where ticks are, what is written at them, which labels are visible, which arrays are
accepted.  `none` is a Python exception.  Numbers are exact (no rounding of double numbers; the rounding of the written labels is
modelled); fonts, colours and the drawing library itself are left out.  Arguments that have to be numbers are numbers; those that may be
`None` are options.
-/

namespace Pico
namespace Figure

/-- `a or b` for numbers, used in `/repo/lib/python/picopic/plot_builder.py:57-59, 157-169`: `None` and zero count as missing. -/
noncomputable def pick (a : Option ℝ) (b : ℝ) : ℝ :=
  match a with
  | some x => if x = 0 then b else x
  | none => b

/-- The same for numbers of ticks, lines 64-66, 160-162. -/
def pickN (a : Option Int) (b : Int) : Int :=
  match a with
  | some x => if x = 0 then b else x
  | none => b

/-- Rounding to the nearest integer, ties to even (`np.around`, and the formatting of numbers). -/
noncomputable def nearest (x : ℝ) : Int :=
  if x - ⌊x⌋ < 1 / 2 then ⌊x⌋ else if 1 / 2 < x - ⌊x⌋ then ⌊x⌋ + 1 else if ⌊x⌋ % 2 = 0 then ⌊x⌋ else ⌊x⌋ + 1

/-- Exponent of a number in scientific notation. -/
noncomputable def expo (x : ℝ) : Int := ⌊Real.logb 10 |x|⌋

/-- The number that is written with `d` digits after the point in scientific notation: `"{:.2e}".format(a)` (lines 181-182) and `'%.1e' % x`
(line 310). -/
noncomputable def sci (d : Int) (x : ℝ) : ℝ := if x = 0 then 0 else nearest (x / 10 ^ (expo x - d)) * 10 ^ (expo x - d)

/-- The number that `np.around(a, 5)` gives, line 184. -/
noncomputable def around5 (x : ℝ) : ℝ := nearest (x * 10 ^ 5) / 10 ^ 5

/-- `np.linspace(a, b, num)`: equally spaced numbers with both ends; `ValueError` for a negative number. -/
noncomputable def linspace (a b : ℝ) (num : Int) : Option (List ℝ) :=
  if num < 0 then none else some ((List.range num.toNat).map fun (k : Nat) => a + k * ((b - a) / (num - 1)))

/-- What the figure knows about an axis: cells of the data, coordinates of the first and the last label, number of ticks. -/
structure Axis where
  size : ℝ
  start : ℝ
  stop : ℝ
  ticks : Int

/-- What may be asked for, for an axis of a figure (`size` and `start` always numbers) or of a subplot. -/
structure Ask where
  size : Option ℝ
  start : Option ℝ
  stop : Option ℝ
  ticks : Option Int

/-- Arguments of the figure for one axis, lines 29-36. -/
structure Given where
  size : ℝ
  start : ℝ
  stop : Option ℝ
  ticks : Option Int

/-- A figure: its three axes. -/
structure Builder where
  x : Axis
  y : Axis
  z : Axis

/-- Length of an axis in real coordinates, lines 102-104, with the default of lines 57-59. -/
noncomputable def Given.extent (g : Given) : ℝ := pick g.stop g.size - g.start

/-- `__guess_tick_size__`, lines 101-111.  For a longest axis that is not positive the logarithm is not a number or minus infinity and `int` raises
`ValueError`; zero ticks raise `ZeroDivisionError`. -/
noncomputable def tickSize (a b c : ℝ) (guess : Int) : Option ℝ :=
  let m := max a (max b c)
  if m ≤ 0 then none else
  if guess = 0 then none else
  some ((⌊m / 10 ^ ⌊Real.logb 10 m⌋⌋ : ℝ) / guess * 10 ^ ⌊Real.logb 10 m⌋)

/-- One axis of the figure, lines 49-66. -/
noncomputable def axisOf (g : Given) (unit : ℝ) : Axis :=
  ⟨g.size, g.start, pick g.stop g.size, pickN g.ticks (nearest (g.extent / unit))⟩

/-- One axis of a figure without a size, lines 67-70. -/
noncomputable def axisPlain (g : Given) (guess : Int) : Axis := ⟨g.size, g.start, pick g.stop g.size, guess⟩

/-- `PlotBuilder.__init__`, lines 49-70. -/
noncomputable def figure (x y z : Given) (guess : Int) : Option Builder :=
  if 0 < x.size ∧ 0 < y.size then
    (tickSize x.extent y.extent z.extent guess).bind fun u => some ⟨axisOf x u, axisOf y u, axisOf z u⟩
  else some ⟨axisPlain x guess, axisPlain y guess, axisPlain z guess⟩

/-- A tick: its position on the axis (in cells of the data), the number written at it, whether it is visible. -/
structure Tick where
  pos : ℝ
  label : ℝ
  visible : Bool

/-- What a subplot takes from the request and what from the figure, lines 157-169. -/
noncomputable def Axis.ask (a : Axis) (q : Ask) : Axis :=
  ⟨pick q.size a.size, pick q.start a.start, pick q.stop a.stop, pickN q.ticks a.ticks⟩

/-- Ticks and labels of an axis of a subplot, lines 171-197; `write` rounds the labels.  Without a size the axis is left to the drawing library (an empty list
here).  Every second label is hidden. -/
noncomputable def ticksOf (write : ℝ → ℝ) (a : Axis) : Option (List Tick) :=
  (linspace 0 a.size (a.ticks + 1)).bind fun pos =>
  (linspace a.start a.stop (a.ticks + 1)).bind fun lab =>
  some (if 0 < a.size then ((pos.zip (lab.map write)).zipIdx.map fun p => ⟨p.1.1, p.1.2, p.2 % 2 = 0⟩) else [])

/-- Labels of the horizontal and the vertical axis, lines 181-182. -/
noncomputable def flat (a : Axis) (q : Ask) : Option (List Tick) := ticksOf (sci 2) (a.ask q)

/-- Labels of the third axis, line 184. -/
noncomputable def deep (a : Axis) (q : Ask) : Option (List Tick) := ticksOf around5 (a.ask q)

/-- `add_image`, lines 264-289: the array that is drawn.  The sizes it is compared with are those of the figure. -/
noncomputable def addImage {α : Type} (b : Builder) (data : List (List α)) : Option (List (List α)) :=
  match data with
  | [] => none
  | row :: _ =>
    if (row.length : ℝ) ≠ b.x.size ∧ 0 < b.x.size then none
    else if (data.length : ℝ) ≠ b.y.size ∧ 0 < b.y.size then none
    else some data

/-- Ticks of a colour bar, lines 306-316: positions and written labels. -/
noncomputable def colorbar (number : Int) (ticks : ℝ × ℝ) (labels : Option (ℝ × ℝ)) : Option (List (ℝ × ℝ)) :=
  (linspace ticks.1 ticks.2 number).bind fun pos =>
  (match labels with
    | some l => linspace l.1 l.2 number
    | none => some pos).bind fun lab =>
  some (pos.zip (lab.map (sci 1)))

end Figure
end Pico
