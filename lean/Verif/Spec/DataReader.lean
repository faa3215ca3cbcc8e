import Verif.Model.DataReader

/-! What a user expects of the analysis library: numbers of the rectangle they recorded, at the rows and columns of the chamber. -/

namespace Pico
namespace DataReader

/-- The array shows `G` (by row and column of the chamber) on the rectangle. -/
def Reads (m : Mat) (p : Probe.Rect) (G : Nat → Nat → ℝ) : Prop :=
  (m.h = p.r1 - p.r0 ∧ m.w = p.z1 - p.z0) ∧ ∀ a b, a < p.r1 - p.r0 → b < p.z1 - p.z0 → m.cell a b = G (p.r0 + a) (p.z0 + b)

/-- The library answers all questions about one recorded rectangle of `n` frames, where frame `k` shows `G k`.  Columns, rows and points
are counted from the corner of the rectangle. -/
structure Answers (f : File) (component : List Char) (p : Probe.Rect) (n : Nat) (G : Nat → Nat → Nat → ℝ) : Prop where
  frame : ∀ k : Nat, k < n → ∃ m, rec f component p k = some m ∧ Reads m p (G k)
  fromEnd : ∀ k : Nat, k < n → rec f component p ((k : Int) - n) = rec f component p k
  beyond : ∀ i : Int, (n : Int) ≤ i ∨ i < -(n : Int) → rec f component p i = none
  column : ∀ k z : Nat, k < n → p.z0 ≤ z → z < p.z1 → ∃ v, colRec f component ((z : Int) - p.z0) p k = some v ∧ v.len = p.r1 - p.r0 ∧
    ∀ r, p.r0 ≤ r → r < p.r1 → v.cell (r - p.r0) = G k r z
  row : ∀ k r : Nat, k < n → p.r0 ≤ r → r < p.r1 → ∃ v, rowRec f component ((r : Int) - p.r0) p k = some v ∧ v.len = p.z1 - p.z0 ∧
    ∀ z, p.z0 ≤ z → z < p.z1 → v.cell (z - p.z0) = G k r z
  point : ∀ k r z : Nat, k < n → p.r0 ≤ r → r < p.r1 → p.z0 ≤ z → z < p.z1 →
    dotRec f component ((r : Int) - p.r0) ((z : Int) - p.z0) p k = some (G k r z)
  frames : ∀ a b : Nat, a ≤ b → b ≤ n → ∃ l, recRange f component p a (some b) = some l ∧ l.length = b - a ∧
    ∀ (i : Nat) m, l[i]? = some m → Reads m p (G (a + i))
  points : ∀ a b r z : Nat, a ≤ b → b ≤ n → p.r0 ≤ r → r < p.r1 → p.z0 ≤ z → z < p.z1 →
    dotRecRange f component ((r : Int) - p.r0) ((z : Int) - p.z0) p a (some b) = some ((List.range (b - a)).map fun i => G (a + i) r z)

end DataReader
end Pico
