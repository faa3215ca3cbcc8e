import Verif.Model.Geometry
import Mathlib.Analysis.Real.Sqrt

/-!
# Macroparticle budget and limits of the configuration  (`/repo/src/cfg.cpp:489-704`, `/repo/src/SMB.cpp:132`,
`/repo/src/phys/plasma.cpp:24-41`)
-/

namespace Pico
namespace Limits

/-- The parts of `beam_macro_bunch`-like configuration data that matter for the budget. -/
structure Beam (K : Type _) where
  radius : K
  length : K
  bunches : Nat

section
variable {K : Type _} [Field K] [LinearOrder K] [IsStrictOrderedRing K] [FloorRing K]

/-- Conversion `double` to `unsigned int`; undefined outside of the range. -/
def toUInt (x : K) : Res Nat := if x ≤ -1 ∨ 2 ^ 32 ≤ x then .ub else .ok ⌊x⌋₊

/-- `beam_r_grid_size * beam_z_grid_size`, `/repo/src/cfg.cpp:501-502` and `563-564`. -/
def beamCells (dr dz : K) (b : Beam K) : K := b.radius / dr * (b.length * b.bunches / dz)

/-- `norm_sum`, `/repo/src/cfg.cpp:493-505`. -/
def normSum (nr nz species : Nat) (dr dz ratio : K) (bs : List (Beam K)) : K :=
  bs.foldl (fun s b => s + beamCells dr dz b * ratio) ((nr * nz * species : Nat) : K)

/-- A list of conversions, one after the other. -/
def convertAll : List K → Res (List Nat)
  | [] => .ok []
  | x :: l => toUInt x >>= fun n => convertAll l >>= fun ns => .ok (n :: ns)

/-- `Cfg::weight_macro_amount`, `/repo/src/cfg.cpp:489-571`: the amounts of the species and of the beams.  A zero sum
divides by zero (`ub`: the infinite or undefined quotient does not fit into `unsigned int`). -/
def weightMacro (total : K) (nr nz species : Nat) (dr dz ratio : K) (bs : List (Beam K)) : Res (List Nat × List Nat) :=
  let sum := normSum nr nz species dr dz ratio bs
  if sum = 0 then .ub
  else
    let norm := total / sum
    convertAll (List.replicate species (((nr * nz : Nat) : K) * norm)) >>= fun sp =>
    convertAll (bs.map fun b => beamCells dr dz b * norm * ratio) >>= fun bm => .ok (sp, bm)

end

/-- `grid_cell_macro_amount`: macroparticles of a species in each domain, `/repo/src/SMB.cpp:132`.  (Domain counts of zero
are not reached: there is no domain then.) -/
def perDomain (amount domR domZ : Nat) : Nat := amount / domR / domZ

/-! ### `method_limitations_check` -/

/-- Species data used by the checks. -/
structure Specie where
  name : List Char
  mass : ℝ
  left : ℝ
  right : ℝ
  temperature : ℝ

/-- Configuration data used by the checks. -/
structure Conf where
  domR : Nat
  domZ : Nat
  nr : Nat
  dr : ℝ
  dz : ℝ
  sizeR : ℝ
  sizeZ : ℝ
  step : ℝ
  species : List Specie
  amounts : List Nat

/-- Messages of the checks that do not end the program. -/
inductive Msg where
  | timeStep
  | gridSize
  | smallSystem
  | largeSystem
  | fewParticles
  deriving DecidableEq, Repr

def electronNames : List (List Char) :=
  ["Electrons".toList, "electrons".toList, "Electron".toList, "electron".toList]

def ionNames : List (List Char) := ["Ions".toList, "ions".toList, "Ion".toList, "ion".toList]

open Classical in
/-- The search for electrons, `/repo/src/cfg.cpp:605-616`: mean density and temperature of the last match, zeros if there
is none. -/
noncomputable def electrons (l : List Specie) : ℝ × ℝ :=
  l.foldl (fun acc i => if i.name ∈ electronNames ∨ i.mass = 1 then ((i.left + i.right) / 2, i.temperature) else acc) (0, 0)

open Classical in
/-- The search for ions, `/repo/src/cfg.cpp:618-625`. -/
noncomputable def ions (l : List Specie) : ℝ × ℝ :=
  l.foldl (fun acc i => if i.name ∈ ionNames then ((i.left + i.right) / 2, i.temperature) else acc) (0, 0)

/-- `plasma_frequency`, `/repo/src/phys/plasma.cpp:36-41`; `c` is the constant 56.3803. -/
noncomputable def plasmaFrequency (c density : ℝ) : ℝ := c * Real.sqrt density

open Classical in
/-- `debye_length`, `/repo/src/phys/plasma.cpp:24-34`; `c` is the constant 7433.944.  A zero temperature makes a
quotient infinite and so the length 0. -/
noncomputable def debyeLength (c nEl nIon tEl tIon : ℝ) : Res ℝ :=
  if nEl ≤ 0 then .fatal
  else if nIon ≤ 0 then .fatal
  else .ok (if tEl = 0 ∨ tIon = 0 then 0 else c / Real.sqrt (nEl / tEl + nIon / tIon))

/-- `max_time`, `/repo/src/cfg.cpp:638-641`: `cl` is the speed of light. -/
noncomputable def maxTime (cl cp : ℝ) (c : Conf) : ℝ :=
  min (min (c.dr / cl) (c.dz / cl)) (2 / plasmaFrequency cp (electrons c.species).1 / 100)

/-- `fmod(n, 2) != 0 && n != 1`. -/
def badDomains (n : Nat) : Bool := n % 2 != 0 && n != 1

open Classical in
/-- `Cfg::method_limitations_check`, `/repo/src/cfg.cpp:573-704`: the messages printed, if the program is not ended. -/
noncomputable def check (cl cp cd : ℝ) (c : Conf) : Res (List Msg) :=
  if badDomains c.domR || badDomains c.domZ then .fatal
  else
    let (ne, te) := electrons c.species
    let (ni, ti) := ions c.species
    if ne = 0 then .fatal
    else
      let m1 := if maxTime cl cp c < c.step then [Msg.timeStep] else []
      -- the call passes the temperature of the ions where the electrons' is expected and vice versa
      debyeLength cd ne ni ti te >>= fun ld =>
      let full : ℝ := (c.amounts.sum : ℝ)
      let m2 := if te ≠ 0 then
          (if ld * 100 < c.dr ∨ ld * 100 < c.dz then [Msg.gridSize] else []) ++
          (if c.sizeR < ld * 100 ∨ c.sizeZ < ld * 100 then [Msg.smallSystem] else []) ++
          (if ld * full * 100 < c.sizeR ∨ ld * full * 100 < c.sizeZ then [Msg.largeSystem] else [])
        else []
      let m3 := if full < ((c.nr * c.nr * 10 : Nat) : ℝ) then [Msg.fewParticles] else []
      .ok (m1 ++ m2 ++ m3)

end Limits
end Pico
