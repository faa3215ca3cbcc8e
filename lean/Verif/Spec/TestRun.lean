import Verif.Model.TestRun
import Mathlib.Data.List.ReduceOption

/-! # What the functional test tells (specification of C136) -/

namespace Pico
namespace TestRun

/-- Mean of numbers. -/
noncomputable def average (l : List ℝ) : ℝ := l.sum / l.length

/-- Variance: mean of the squares minus square of the mean. -/
noncomputable def variance (l : List ℝ) : ℝ := (l.map (· ^ 2)).sum / l.length - average l ^ 2

/-- Relative distance at most `r`. -/
def Close (r a b : ℝ) : Prop := |a - b| ≤ r * |b|

/-- The numbers of a frame of a component are `l` (values that are not numbers left out). -/
def Numbers (f : File) (number : Nat) (c : String) (l : List ℝ) : Prop :=
  ∃ frames frame, f c = some frames ∧ frames[number]? = some frame ∧ frame.flatten.reduceOption = l

/-- The stored values of a component are mean `m`, deviation `s` and variance `v`. -/
def Stored (known : Known) (c : String) (m s v : Cell) : Prop := ∃ rest, known c = some (m :: s :: v :: rest)

/-- The nine field components. -/
def nine : List String := ["E/r", "E/phi", "E/z", "H/r", "H/phi", "H/z", "J/r", "J/phi", "J/z"]

/-- Everything that is compared is there. -/
def Complete (f : File) (known : Known) (number : Nat) : Prop :=
  ∀ c ∈ nine, (∃ l, Numbers f number c l) ∧ ∃ m s v, Stored known c m s v

/-- The frame agrees with the stored values in deviation and variance. -/
def Agrees (r : ℝ) (f : File) (known : Known) (number : Nat) : Prop :=
  ∀ c ∈ nine, ∃ l m s v, Numbers f number c l ∧ l ≠ [] ∧ Stored known c m (some s) (some v) ∧
    Close r (Real.sqrt (variance l)) s ∧ Close r (variance l) v

/-- The frame agrees in the mean as well. -/
def AgreesFully (r : ℝ) (f : File) (known : Known) (number : Nat) : Prop :=
  Agrees r f known number ∧ ∀ c ∈ nine, ∃ l m s v, Numbers f number c l ∧ Stored known c (some m) s v ∧ Close r (average l) m

/-- Two files whose frames have, component by component, the same numbers up to order, an offset and the sign. -/
def Twin (f g : File) (number : Nat) : Prop :=
  ∀ c ∈ nine, ∃ l l' : List ℝ, ∃ e d : ℝ, Numbers f number c l ∧ Numbers g number c l' ∧ (e = 1 ∨ e = -1) ∧
    l'.Perm (l.map fun x => e * x + d)

end TestRun
end Pico
