import Mathlib.Algebra.Field.Defs
import Mathlib.Order.Defs.LinearOrder

/-! What a reflection at walls means for one coordinate. -/

namespace Pico

/-- `Mirrored lo hi (x, v) (x', v')`: position `x'` and velocity `v'` result from position `x` and velocity `v`
by successive mirror images, each at a wall (`lo`, `hi`, where present) that the position is beyond. -/
inductive Mirrored {K : Type _} [Field K] [LinearOrder K] (lo hi : Option K) : K × K → K × K → Prop where
  | refl (a : K × K) : Mirrored lo hi a a
  | low {a : K × K} {x v l : K} : Mirrored lo hi a (x, v) → lo = some l → x < l → Mirrored lo hi a (l - (x - l), -v)
  | high {a : K × K} {x v h : K} : Mirrored lo hi a (x, v) → hi = some h → h < x → Mirrored lo hi a (h - (x - h), -v)

/-- The position is beyond none of the walls. -/
def Between {K : Type _} [LinearOrder K] (lo hi : Option K) (x : K) : Prop :=
  (∀ l, lo = some l → l ≤ x) ∧ (∀ h, hi = some h → x ≤ h)

end Pico
