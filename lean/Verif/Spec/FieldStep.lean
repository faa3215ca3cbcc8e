import Verif.Model.FieldStep

/-! Specification vocabulary for a divided area: where the domains lie, and what it means that a domain holds its
part of the undivided area. -/

namespace Pico
namespace Yee

variable {K : Type _}

/-- First row (column) of domain number `i` when `n` rows are divided into `dom` domains. -/
def low (n dom i : Nat) : Nat := n * i / dom

/-- Number of rows (columns) of domain number `i`. -/
def hgt (n dom i : Nat) : Nat := low n dom (i + 1) - low n dom i

/-- How an area can be divided: into equal domains (their cell sizes differ otherwise, C53) which form a chain along one
axis or are square (the exchange of overlays is not defined otherwise, C06), at least two cells per domain. -/
structure Divided (p : Par K) (domR domZ : Nat) : Prop where
  r1 : 1 ≤ domR
  z1 : 1 ≤ domZ
  r2 : 2 * domR ≤ p.nr
  z2 : 2 * domZ ≤ p.nz
  r3 : p.nr < 2 ^ 31
  z3 : p.nz < 2 ^ 31
  r4 : domR ∣ p.nr
  z4 : domZ ∣ p.nz
  shape : domR = 1 ∨ domZ = 1 ∨ p.nr / domR = p.nz / domZ

/-- Cell `(x, y)` of domain `(i, j)`. -/
def CellOf (p : Par K) (domR domZ i j : Nat) (x y : Int) : Prop :=
  i < domR ∧ j < domZ ∧ (0 ≤ x ∧ x < hgt p.nr domR i) ∧ (0 ≤ y ∧ y < hgt p.nz domZ j)

/-- Cell `(x, y)` of domain `(i, j)` or of its overlay of width 2. -/
def OverlayOf (p : Par K) (domR domZ i j : Nat) (x y : Int) : Prop :=
  i < domR ∧ j < domZ ∧ (-2 ≤ x ∧ x < hgt p.nr domR i + 2) ∧ (-2 ≤ y ∧ y < hgt p.nz domZ j + 2)

/-- The overlay cells of domain `(i, j)` that belong to the domain `(i+1, j-1)` or `(i-1, j+1)`. -/
def Seam (p : Par K) (domR domZ i j : Nat) (x y : Int) : Prop :=
  (i + 1 < domR ∧ 0 < j ∧ (hgt p.nr domR i : Int) ≤ x ∧ y < 0) ∨
  (0 < i ∧ j + 1 < domZ ∧ x < 0 ∧ (hgt p.nz domZ j : Int) ≤ y)

/-- Field component `c` of the domains is the one of the undivided area, in the domains and in their overlays but for
the seams, where it is zero. -/
def Windows (p : Par K) (domR domZ : Nat) [Zero K] (c : Comp) (M : Solvers K) (m : Mem K) : Prop :=
  ∀ i j x y, OverlayOf p domR domZ i j x y →
    (¬ Seam p domR domZ i j x y → M i j c x y = m c (low p.nr domR i + x) (low p.nz domZ j + y)) ∧
    (Seam p domR domZ i j x y → M i j c x y = 0)

/-- The domains have the sources (currents and media) of the undivided area in their cells; whatever in the overlays. -/
def SameSources (p : Par K) (domR domZ : Nat) (loc : Nat → Nat → Comp → Int → Int → K) (src : Comp → Int → Int → K) : Prop :=
  ∀ i j x y c, c.isSource = true → CellOf p domR domZ i j x y →
    loc i j c x y = src c (low p.nr domR i + x) (low p.nz domZ j + y)

end Yee
end Pico
