import Verif.Model.Maps
import Verif.Model.SMB

/-!
# Maps prepared for the probes before a dump  (`/repo/src/outController.cpp:312-510`)

`OutController::operator()` first prepares, probe after probe, the maps the probes show (`init_datasets`), and only then
lets the writers of all domains read them.  All probes here are due at the present step; a probe that is not due does
nothing.
-/

namespace Pico
namespace Dump

open Maps SMB

/-- Component of a probe, `/repo/src/outController.cpp:398-407`: `momentum` stands for `momentum/r`, `momentum/phi` and
`momentum/z`, which are treated alike, `other` for the fields and currents, for which nothing is prepared. -/
inductive Comp where
  | density
  | temperature
  | energy
  | momentum
  | other
  deriving DecidableEq, Repr

/-- `component` and `specie` of a probe, `/repo/include/cfg.hpp:76-90`. -/
structure Probe where
  comp : Comp
  specie : List Char
  deriving DecidableEq, Repr

/-- What the preparation reads: the borders of the domains in cells (`cell_dims`), the cell size, the names of the species
(the same list in every domain, `/repo/src/SMB.cpp:126-168`), their constants, and the particles of species `s` in domain
`(i, j)`. -/
structure World where
  nr : Nat
  nz : Nat
  dr : ℝ
  dz : ℝ
  offR : Nat → Nat
  offZ : Nat → Nat
  names : List (List Char)
  par : Nat → Par
  parts : Nat → Nat → Nat → List VP

/-- Geometry of a domain, `/repo/src/SMB.cpp:73-118`. -/
def World.geo (W : World) (i j : Nat) : Geom ℝ :=
  ⟨W.dr, W.dz, W.offR i, W.offZ j, W.offR (i+1) - W.offR i, W.offZ (j+1) - W.offZ j⟩

/-- The search for the species of a probe: the last one of that name, `/repo/src/outController.cpp:388-396`. -/
def lookup (names : List (List Char)) (n : List Char) : Option Nat :=
  names.zipIdx.foldl (fun acc p => if p.1 = n then some p.2 else acc) none

/-- The maps of one species in all domains. -/
abbrev SMaps := Nat → Nat → St

/-- Replace the maps of one domain. -/
def setM (M : SMaps) (i j : Nat) (t : St) : SMaps := fun a b => if a = i ∧ b = j then t else M a b

/-- Calculation of the maps in one domain, `/repo/src/outController.cpp:384-408`. -/
noncomputable def calcAt (W : World) (s : Nat) (c : Comp) (d : Nat × Nat) (M : SMaps) : Res SMaps :=
  let ps := W.parts s d.1 d.2
  let g := W.geo d.1 d.2
  let m := M d.1 d.2
  match c with
  | .density => calcDensity (W.par s).pi g m.density (ps.map VP.wp) >>= fun x => .ok (setM M d.1 d.2 { m with density := x })
  | .temperature => calcTemperature (W.par s) g ps m >>= fun t => .ok (setM M d.1 d.2 t)
  | .energy => calcEnergy (W.par s) g ps m >>= fun t => .ok (setM M d.1 d.2 t)
  | .momentum => calcMomentum (W.par s) g ps m >>= fun t => .ok (setM M d.1 d.2 t)
  | .other => .ok M

/-- An exchange of one of the maps between domains. -/
def onMap (get : St → Grid ℝ) (put : St → Grid ℝ → St) (op : Domains ℝ → Res (Domains ℝ)) (M : SMaps) : Res SMaps :=
  op (fun a b => get (M a b)) >>= fun D => .ok fun a b => put (M a b) (D a b)

def putDensity (m : St) (x : Grid ℝ) : St := { m with density := x }
def putTemperature (m : St) (x : Grid ℝ) : St := { m with temperature := x }
def putEnergy (m : St) (x : Grid ℝ) : St := { m with energy := x }
def putMomR (m : St) (x : Grid ℝ) : St := { m with mom := { m.mom with r := x } }
def putMomPhi (m : St) (x : Grid ℝ) : St := { m with mom := { m.mom with phi := x } }
def putMomZ (m : St) (x : Grid ℝ) : St := { m with mom := { m.mom with z := x } }

/-- The exchanges of one domain with the next ones, `/repo/src/outController.cpp:411-491`: density and temperature in both
directions, energy and momentum along the radius only, none across the corners (the lines are commented out).  The
destination has the same species, so the `FATAL` of lines 441-444 and 475-478 is not reached. -/
noncomputable def exchAt (W : World) (c : Comp) (d : Nat × Nat) (M : SMaps) : Res SMaps :=
  match c with
  | .density => onMap St.density putDensity (exchX W.nr d.1 d.2) M >>= onMap St.density putDensity (exchY W.nz d.1 d.2)
  | .temperature =>
    onMap St.temperature putTemperature (exchX W.nr d.1 d.2) M >>= onMap St.temperature putTemperature (exchY W.nz d.1 d.2)
  | .energy => onMap St.energy putEnergy (exchX W.nr d.1 d.2) M
  | .momentum =>
    onMap (fun m => m.mom.r) putMomR (exchX W.nr d.1 d.2) M >>= fun M =>
    onMap (fun m => m.mom.phi) putMomPhi (exchX W.nr d.1 d.2) M >>= fun M =>
    onMap (fun m => m.mom.z) putMomZ (exchX W.nr d.1 d.2) M
  | .other => .ok M

/-- Preparation for one probe, `/repo/src/outController.cpp:378-493`: nothing if the species does not exist. -/
noncomputable def prepareOne (W : World) (p : Probe) (S : Nat → SMaps) : Res (Nat → SMaps) :=
  match lookup W.names p.specie with
  | none => .ok S
  | some s =>
    loop (calcAt W s p.comp) (idx2 0 W.nr 0 W.nz) (S s) >>= fun M =>
    loop (exchAt W p.comp) (idx2 0 W.nr 0 W.nz) M >>= fun M => .ok fun t => if t = s then M else S t

/-- Preparation for all probes, in the order of the configuration, `/repo/src/outController.cpp:315-496`. -/
noncomputable def prepare (W : World) (ps : List Probe) (S : Nat → SMaps) : Res (Nat → SMaps) := loop (prepareOne W) ps S

/-- What the writer of domain `(i, j)` reads at a cell for a density probe of species `s`,
`/repo/src/outController.cpp:189-204` and `/repo/src/outWriter.cpp:49-100`. -/
def shown (S : Nat → SMaps) (s i j : Nat) (x y : Int) : Res ℝ := (S s i j).density.get x y

end Dump
end Pico
