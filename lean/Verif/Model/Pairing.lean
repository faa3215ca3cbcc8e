import Verif.Model.Particle
import Verif.Model.Grid

/-!
# Coulomb collisions: cells and pairs  (`/repo/src/collisions.cpp`, `collide` in `/repo/src/collisions/*.cpp`)

The three collision classes have the same `collide`.  Particles are objects on a heap and all vectors hold their addresses
(`Particle *`), here natural numbers.  The vectors are lists; `random_shuffle` is an arbitrary permutation, see `Shuffled`.
-/

namespace Pico
namespace Coll

variable {K : Type _}

/-- What a `SpecieP` contributes: its name and its particles, `/repo/include/specieP.hpp:163`. -/
structure Species where
  name : String
  particles : List Nat

/-- `map_el2cell` and `map_ion2cell`, `/repo/include/collisions.hpp:58-59`: grids of vectors with an overlay of 2. -/
structure Maps where
  el : Grid (List Nat)
  ion : Grid (List Nat)

/-- The vectors are empty after construction, `/repo/src/collisions.cpp:49-50`. -/
def newMaps (nr nz : Nat) : Maps := ⟨Grid.new (fun _ _ => []) nr nz 2, Grid.new (fun _ _ => []) nr nz 2⟩

/-- The part of `clear` that concerns the vectors, `/repo/src/collisions.cpp:78-84`: only cells of the domain. -/
def clear (nr nz : Nat) (m : Maps) : Res Maps :=
  loop (fun p m => m.el.set p.1 p.2 [] >>= fun e => m.ion.set p.1 p.2 [] >>= fun i => .ok ⟨e, i⟩) (idx2 0 nr 0 nz) m

/-- Comparison with the two ion names, `/repo/src/collisions.cpp:101-103`. -/
def isIon (name : String) : Bool := name == "ions" || name == "Ions"

/-- Conversion of `size_t` to `int` (modulo `2^32`). -/
def toInt (n : Nat) : Int := let m : Int := (n : Int) % 2 ^ 32; if m < 2 ^ 31 then m else m - 2 ^ 32

/-- Body of the inner loop of `sort_to_cells`, `/repo/src/collisions.cpp:92-107`; `r0`, `z0` are `cell_dims`.  The
`size_t` difference converted to `int` is the difference of the numbers. -/
def sortOne (heap : Nat → Part K) (r0 z0 : Nat) (ion : Bool) (p : Nat) (m : Maps) : Res Maps :=
  let i := toInt (heap p).cellR - r0
  let k := toInt (heap p).cellZ - z0
  if ion then m.ion.upd (Grid.uidx i m.ion.os) (Grid.uidx k m.ion.os) (· ++ [p]) >>= fun g => .ok { m with ion := g }
  else m.el.upd (Grid.uidx i m.el.os) (Grid.uidx k m.el.os) (· ++ [p]) >>= fun g => .ok { m with el := g }

/-- `sort_to_cells`, `/repo/src/collisions.cpp:87-108`. -/
def sortToCells (heap : Nat → Part K) (r0 z0 : Nat) (sp : List Species) (m : Maps) : Res Maps :=
  loop (fun s m => loop (sortOne heap r0 z0 (isIon s.name)) s.particles m) sp m

/-- `random_sort`, `/repo/src/collisions.cpp:111-120`: in every cell of the domain some permutation; the sizes stay. -/
def Shuffled (nr nz : Nat) (m m' : Maps) : Prop :=
  ((m'.el.os, m'.el.xs, m'.el.ys) = (m.el.os, m.el.xs, m.el.ys) ∧ (m'.ion.os, m'.ion.xs, m'.ion.ys) = (m.ion.os, m.ion.xs, m.ion.ys)) ∧
  ∀ i j, i < nr → j < nz →
    (∃ a b, m.el.get i j = .ok a ∧ m'.el.get i j = .ok b ∧ a.Perm b) ∧
    (∃ a b, m.ion.get i j = .ok a ∧ m'.ion.get i j = .ok b ∧ a.Perm b)

/-! ### Pairs -/

/-- `for (unsigned int k = s; k < n; k = k + 2)` with the pair `k`, `k + 1` (for `n` below `2^32 - 1`). -/
def stepTwo (s n : Nat) : List (Nat × Nat) := (List.range ((n - s + 1) / 2)).map fun t => (s + 2 * t, s + 2 * t + 1)

/-- Indices of the pairs of like particles, in order: cases 1a and 1b, `/repo/src/collisions/collisionsTA77S.cpp:245-325`,
the same text for ions and electrons. -/
def likePairs (n : Nat) : List (Nat × Nat) :=
  if n % 2 = 0 then stepTwo 0 n
  else (if 3 ≤ n then [(0, 1), (1, 2), (2, 0)] else []) ++ (if 5 ≤ n then stepTwo 3 n else [])

/-- Indices (of the smaller, of the larger population) of the pairs of unlike particles when the populations differ, case
2b, `/repo/src/collisions/collisionsTA77S.cpp:337-370` and `371-404`.  `fl` is the rounding of a quotient to `float`; the
rest is computed in `double`, which is exact for these numbers.  The quotients of lines 352, 363 are quotients of whole
numbers, whose floor the rounding does not change for numbers below `2^24`. -/
def unequalPairs (fl : ℚ → ℚ) (small large : Nat) : List (Nat × Nat) :=
  let q := fl ((large : ℚ) / small)
  let ci := ⌊q⌋
  let cr := q - ci
  let large1 := ⌊((ci : ℚ) + 1) * cr * small⌋.toNat
  let small1 := ⌊cr * small⌋.toNat
  let large2 := ⌊(ci : ℚ) * (1 - cr) * small⌋.toNat
  ((List.range large1).map fun f => (f / (ci.toNat + 1), f)) ++
    ((List.range large2).map fun f => (f / ci.toNat + small1, f + large1))

/-- Which pairs a cell with the given populations collides, in order; `ei` has the index of the electron first. -/
inductive Pair where
  | ii (a b : Nat)
  | ee (a b : Nat)
  | ei (e i : Nat)
  deriving DecidableEq

/-- The body of the cell loop of `collide` after the checks, `/repo/src/collisions/collisionsTA77S.cpp:245-404`. -/
def cellPairs (fl : ℚ → ℚ) (ions els : Nat) : List Pair :=
  (if ions % 2 = 0 then (likePairs ions).map fun p => .ii p.1 p.2 else []) ++
  (if els % 2 = 0 then (likePairs els).map fun p => .ee p.1 p.2 else []) ++
  (if ions % 2 ≠ 0 then (likePairs ions).map fun p => .ii p.1 p.2 else []) ++
  (if els % 2 ≠ 0 then (likePairs els).map fun p => .ee p.1 p.2 else []) ++
  (if ions = els then (List.range els).map fun k => .ei k k else []) ++
  (if els < ions ∧ 0 < els then (unequalPairs fl els ions).map fun p => .ei p.1 p.2 else []) ++
  (if ions < els ∧ 0 < ions then (unequalPairs fl ions els).map fun p => .ei p.2 p.1 else [])

/-! ### The loop over the cells -/

section
variable [Field K] [LinearOrder K] [IsStrictOrderedRing K]

/-- Sums of `collect_weighted_params_tot_grid` for the particles of one kind in a cell, `/repo/src/collisions.cpp:171-225`. -/
def amountTot (l : List (Part K)) : K := l.foldl (fun s p => s + p.weight) 0
def energyTot (mass : K) (l : List (Part K)) : K :=
  l.foldl (fun s p => s + p.weight * mass * (p.velR * p.velR + p.velPhi * p.velPhi + p.velZ * p.velZ) / 2) 0

/-- The four `isnormal` checks, `/repo/src/collisions/collisionsTA77S.cpp:237-240`: temperature (energy over amount, not
defined for an amount of zero) and density (amount over volume) of both kinds are numbers different from zero. -/
def normal (massEl massIon : K) (els ions : List (Part K)) : Bool :=
  amountTot ions ≠ 0 ∧ energyTot massIon ions ≠ 0 ∧ amountTot els ≠ 0 ∧ energyTot massEl els ≠ 0

/-- The cells for which `collide` reaches the pairing, in order, `/repo/src/collisions/collisionsTA77S.cpp:225-240`: the
`break` leaves the loop over `j`. -/
def visited (massEl massIon : K) (nr nz : Nat) (els ions : Nat → Nat → List (Part K)) : List (Nat × Nat) :=
  (List.range nr).flatMap fun i =>
    ((List.range nz).takeWhile fun j => normal massEl massIon (els i j) (ions i j)).map fun j => (i, j)
end

/-- Rounding to `float` of a number that is at least one (24 binary digits, nearest, ties to even). -/
def float32 (q : ℚ) : ℚ :=
  let u : ℚ := 2 ^ Nat.log2 ⌊q⌋.toNat / 2 ^ 23
  let n := ⌊q / u⌋
  let d := q / u - n
  let r := if d < 1 / 2 then n else if 1 / 2 < d then n + 1 else if n % 2 = 0 then n else n + 1
  r * u

end Coll
end Pico
