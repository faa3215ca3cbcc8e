import Verif.Model.Grid

/-! Vocabulary for the statements about grids; uses only the API (`get`) and the
public size fields. -/

namespace Pico

/-- `x` is the value of a C++ `int`. -/
def IsInt (x : Int) : Prop := -2 ^ 31 ≤ x ∧ x < 2 ^ 31

namespace Grid

variable {T : Type _}

/-- Logical index `(x, y)` addresses an allocated cell: a logical cell or one of
the `o_s` overlay cells around. -/
def Inside (g : Grid T) (x y : Int) : Prop :=
  (-(g.os : Int) ≤ x ∧ x < g.xs + g.os) ∧ (-(g.os : Int) ≤ y ∧ y < g.ys + g.os)

/-- Logical index `(x, y)` addresses a logical (non overlay) cell. -/
def Interior (g : Grid T) (x y : Int) : Prop :=
  (0 ≤ x ∧ x < g.xs) ∧ (0 ≤ y ∧ y < g.ys)

/-- Same overlay width and sizes. -/
def SameShape (g h : Grid T) : Prop := h.os = g.os ∧ h.xs = g.xs ∧ h.ys = g.ys

/-- `h` is `g` with the cell at `(x, y)` now reading `v`, and nothing else changed. -/
def ChangedAt (g h : Grid T) (x y : Int) (v : T) : Prop :=
  SameShape g h ∧ h.get x y = .ok v ∧
    ∀ x' y', IsInt x' → IsInt y' → ¬ (x' = x ∧ y' = y) → h.get x' y' = g.get x' y'

end Grid
end Pico
