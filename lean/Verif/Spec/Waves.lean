import Verif.Spec.FieldStep

/-! Vocabulary for superposition of fields and for the speed at which they spread. -/

namespace Pico
namespace Yee

variable {K : Type _}

/-- A history of sources: for every step the currents and media of all cells. -/
abbrev Sources (K : Type _) := Nat → Comp → Int → Int → K

/-- Currents. -/
def Comp.isCurrent : Comp → Bool
  | .jr | .jp | .jz => true
  | _ => false

/-- Media: permittivity and conductivity. -/
def Comp.isMedium : Comp → Bool
  | .eps | .sig => true
  | _ => false

/-- Two histories have the same media. -/
def SameMedia (p : Par K) (s s' : Sources K) : Prop := ∀ t c x y, c.isMedium = true → p.logical x y → s t c x y = s' t c x y

/-- The currents of `s` are `a` times those of `s1` plus `b` times those of `s2`. -/
def Superposed [Add K] [Mul K] (p : Par K) (a b : K) (s1 s2 s : Sources K) : Prop :=
  ∀ t c x y, c.isCurrent = true → p.logical x y → s t c x y = a * s1 t c x y + b * s2 t c x y

/-- Cell `(x, y)` is at most `d` rows and `d` columns away from `(X, Y)`. -/
def Within (d : Nat) (X Y x y : Int) : Prop := (X - d ≤ x ∧ x ≤ X + d) ∧ (Y - d ≤ y ∧ y ≤ Y + d)

/-- In step `t` of `n` steps both histories have the same currents and media in all cells at most `n - t` cells away from
`(X, Y)`. -/
def AgreeNear (p : Par K) (n : Nat) (X Y : Int) (s s' : Sources K) : Prop :=
  ∀ t c x y, t < n → c.isSource = true → p.logical x y → Within (n - t) X Y x y → s t c x y = s' t c x y

end Yee
end Pico
