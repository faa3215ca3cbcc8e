import Verif.Model.Rand

/-!
# Initial placement and weights of the particles of a species  (`/repo/src/specieP.cpp:127-331`)

Exact arithmetic; `constant::PI` is a parameter `pi`, `MNZL` a parameter `mnzl` (`/repo/include/constant.hpp`).
-/

namespace Pico
namespace Place

open _root_.Pico.Part

/-- The four cell numbers a placement gets: `int_cell_number`, `ext_cell_number`, `left_cell_number`,
`right_cell_number`. -/
structure Area where
  int : Nat
  ext : Nat
  left : Nat
  right : Nat

/-- `unsigned int` subtraction. -/
def usub (a b : Nat) : Nat := (a + (2 ^ 32 - b)) % 2 ^ 32

/-- `Particle()` followed by setting the two coordinates, `/repo/include/specieP.hpp:100-119`. -/
def newPart {K : Type _} [Zero K] (id : Nat) (r z : K) : Part K :=
  ⟨r, 0, z, 0, 0, 0, 0, 0, 0, 0, 0, 0, 0, 0, id⟩

section
variable {K : Type _} [Field K]

/-- `r_size` after the reduction at the outer wall, `/repo/src/specieP.cpp:162-171` (the same lines in the other
functions). -/
def rSize (g : Geom K) (w : Walls) (a : Area) : K :=
  let s := (usub a.ext a.int : K) * g.dr
  if w.r1 then s - g.dr else s

/-- `z_size` after the reduction at the right wall. -/
def zSize (g : Geom K) (w : Walls) (a : Area) : K :=
  let s := (usub a.right a.left : K) * g.dz
  if w.z1 then s - g.dz else s

/-- The four additions that shift a local position, `/repo/src/specieP.cpp:198-201`. -/
def shiftR (g : Geom K) (a : Area) (x : K) : K := x + a.int * g.dr + g.dr / 2
def shiftZ (g : Geom K) (a : Area) (x : K) : K := x + a.left * g.dz + g.dz / 2
end

/-- Loop body of `rectangular_random_placement`, `/repo/src/specieP.cpp:177-208`, for two given random numbers
(`uniform1` or `random_reverse`). -/
noncomputable def randomOne (id : Nat) (mnzl : ℝ) (g : Geom ℝ) (w : Walls) (a : Area) (d0 d1 ur uz : ℝ) : Part ℝ :=
  let ur := if ur = 0 then mnzl else ur
  let uz := if uz = 0 then mnzl else uz
  let dn := d1 - d0
  let z := if d0 = d1 then zSize g w a * uz
    else zSize g w a / dn * (Real.sqrt (d0 ^ 2 + uz * (2 * d0 * dn + dn ^ 2)) - d0)
  newPart id (shiftR g a (rSize g w a * ur)) (shiftZ g a z)

/-- `rectangular_random_placement`, `/repo/src/specieP.cpp:150-209`: `amount` particles from two sequences of random
numbers. -/
noncomputable def random (id : Nat) (mnzl : ℝ) (g : Geom ℝ) (w : Walls) (a : Area) (d0 d1 : ℝ) (amount : Nat)
    (ur uz : Nat → ℝ) : List (Part ℝ) :=
  (List.range amount).map fun i => randomOne id mnzl g w a d0 d1 (ur i) (uz i)

/-- The random numbers of the mode `flat` (the default): `/repo/src/specieP.cpp:186-187`. -/
def FlatNumbers (amount : Nat) (ur uz : Nat → ℝ) : Prop :=
  ∀ i, i < amount → Rand.RandomReverse (i : ℝ) 13 (ur i) ∧ Rand.RandomReverse ((amount - 1 - i : Nat) : ℝ) 11 (uz i)

section
variable {K : Type _} [Field K] [LinearOrder K] [IsStrictOrderedRing K] [FloorRing K]

/-- `for (double x = x0; x <= hi; x += h)`: the values `x` takes. -/
inductive ForUp (hi h : K) : K → List K → Prop where
  | done {x : K} : hi < x → ForUp hi h x []
  | step {x : K} {l : List K} : x ≤ hi → ForUp hi h (x + h) l → ForUp hi h x (x :: l)

/-- The two nested loops of `rectangular_regular_placement`, `/repo/src/specieP.cpp:236-253`, for the two intervals
computed before (`ri`, `zi`). -/
def Regular (id : Nat) (mnzl : K) (g : Geom K) (w : Walls) (a : Area) (ri zi : K) (out : List (Part K)) : Prop :=
  ∃ rs zs, ForUp (rSize g w a - ri) ri mnzl rs ∧ ForUp (zSize g w a - zi) zi mnzl zs ∧
    out = rs.flatMap fun x => zs.map fun y => newPart id (shiftR g a x) (shiftZ g a y)

/-- `r_cells`, `z_cells`, `/repo/src/specieP.cpp:266-272`: `double`, so they may become negative. -/
def cellsOf (n : Nat) (wall : Bool) : K := if wall then (n : K) - 1 else n

/-- Number of turns of `for (unsigned int c = 0; c < x; ++c)` for a `double` `x` (below `2^32`). -/
def turns (x : K) : Nat := ⌈x⌉₊

/-- `rectangular_centered_placement`, `/repo/src/specieP.cpp:256-300`.  A quotient that does not fit into
`unsigned int` (zero cells) is undefined. -/
def centered (id : Nat) (mnzl : K) (g : Geom K) (w : Walls) (a : Area) (amount : Nat) : Res (List (Part K)) :=
  let rc : K := cellsOf (usub a.ext a.int) w.r1
  let zc : K := cellsOf (usub a.right a.left) w.z1
  if rc * zc = 0 then .ub
  else
    let per := ⌊(amount : K) / (rc * zc)⌋
    if per < 0 ∨ 2 ^ 32 ≤ per then .ub
    else .ok ((List.range (turns rc)).flatMap fun (i : Nat) => (List.range (turns zc)).flatMap fun (k : Nat) =>
      (List.range per.toNat).map fun _ => newPart id (shiftR g a (g.dr * i + mnzl)) (shiftZ g a (g.dz * k + mnzl)))

/-- `nearest_divide`, `/repo/src/algo/common.cpp:210-217`: the loop counts up (`unsigned int`, wrapping) until the
quotient is whole. -/
def NearestDivide (number : Nat) (what : K) (out : Nat) : Prop :=
  While (fun r : Nat => decide ((r : K) / what ≠ ⌊(r : K) / what⌋)) (fun r => (r + 1) % 2 ^ 32) number out

/-! ### Weights -/

/-- Volume attributed to a macroparticle, `/repo/src/specieP.cpp:299-302` and `323-326`. -/
def volOf (pi : K) (g : Geom K) (r : K) : K :=
  if g.dr / 2 < r then 2 * pi * r * g.dr * g.dz else pi * r * r * g.dz

/-- `v_sum`, `/repo/src/specieP.cpp:297-302`. -/
def vSum (pi : K) (g : Geom K) (ps : List (Part K)) : K := ps.foldl (fun s p => s + volOf pi g p.posR) 0

/-- `N_total`, `/repo/src/specieP.cpp:306-312`; the cell numbers are those of the domain. -/
def nTotal (pi : K) (g : Geom K) (w : Walls) (a : Area) (d0 d1 : K) : K :=
  let top : K := if w.r1 then ((g.r0 + g.nr : Nat) : K) - 1 else ((g.r0 + g.nr : Nat) : K)
  let bot : K := g.r0
  (d0 + d1) / 2 * pi * g.dr * g.dr * (top * top - bot * bot) * zSize g w a

/-- `set_weight`, `/repo/src/specieP.cpp:280-331`.  Division by zero gives no weights (`ub`). -/
def setWeight (pi : K) (g : Geom K) (w : Walls) (a : Area) (d0 d1 : K) (amount : Nat) (ps : List (Part K)) :
    Res (List (Part K)) :=
  if ps.isEmpty then .ok []
  else if amount = 0 ∨ vSum pi g ps = 0 then .ub
  else
    let vAvg := vSum pi g ps / amount
    let nAvg := nTotal pi g w a d0 d1 / amount
    .ok (ps.map fun p => { p with weight := nAvg * (volOf pi g p.posR / vAvg) })

/-- The arguments `fullyfill_spatial_distribution` passes, `/repo/src/specieP.cpp:83-86`. -/
def whole (g : Geom K) : Area := ⟨g.r0, g.r0 + g.nr, g.z0, g.z0 + g.nz⟩

/-- Densities at the two ends of a domain, `/repo/src/SMB.cpp:134-136`: `left`, `right` of the species, `size` the
length of the process's part of the chamber, `cell` a cell number. -/
def localDensity (left right size dz : K) (cell : Nat) : K := left + (right - left) / size * cell * dz
end

/-- `fullyfill_spatial_distribution` in the modes `flat` and `random`: placement, then weights,
`/repo/src/specieP.cpp:77-148`. -/
noncomputable def fill (id : Nat) (mnzl pi : ℝ) (g : Geom ℝ) (w : Walls) (d0 d1 : ℝ) (amount : Nat) (ur uz : Nat → ℝ) :
    Res (List (Part ℝ)) :=
  setWeight pi g w (whole g) d0 d1 amount (random id mnzl g w (whole g) d0 d1 amount ur uz)

/-- `rectangular_regular_placement` with the intervals it computes, `/repo/src/specieP.cpp:211-254`; `r_size` and
`z_size` are the unreduced ones there. -/
def RegularPlacement (id : Nat) (mnzl : ℝ) (g : Geom ℝ) (w : Walls) (a : Area) (amount : Nat) (out : List (Part ℝ)) : Prop :=
  let r : ℝ := usub a.ext a.int * g.dr
  let z : ℝ := usub a.right a.left * g.dz
  Regular id mnzl g w a (r / Real.sqrt (amount * r / z)) (z / Real.sqrt (amount * z / r)) out

end Place
end Pico
