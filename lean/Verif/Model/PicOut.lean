import Verif.Model.Pic
import Verif.Model.Output
import Verif.Model.Probe
import Verif.Model.Dump

/-!
# A run and its output file  (`/repo/src/PiCoPiC.cpp:326-344`, `/repo/src/outController.cpp`, `/repo/src/outWriter.cpp`)

One process.  In every pass of the main loop the output follows the physics and precedes the clock.  The states a run goes
through are given here as a sequence, so that the same output can be attached to any run.
-/

namespace Pico
namespace Pic

open SMB Yee

/-- A rectangular probe after `Cfg::init_probes`, `/repo/include/cfg.hpp:76-90` (other shapes are undefined, C46). -/
structure OProbe where
  component : List Char
  specie : List Char
  rect : Probe.Rect
  schedule : Nat

/-- What the output reads of the configuration: the simulation, names and constants of the species in the order of the
configuration, the probes. -/
structure OEnv where
  E : Env
  names : List (List Char)
  par : Nat → Maps.Par
  count : Nat
  probes : Nat → OProbe

/-- A dataset of the output file: the number of frames it has room for and their contents; what was never written is `none`
(the file has the fill value there). -/
structure Dataset (T : Type _) where
  rows : Nat
  frame : Nat → Probe.Frame T

/-- `create_dataset` for a rectangle: room for one frame, `/repo/src/outController.cpp:59-79`,
`/repo/src/outEngine/outEngineHDF5.cpp:117-153`. -/
def Dataset.create {T : Type _} (p : Probe.Rect) : Dataset T := ⟨1, fun _ => ⟨p.r1 - p.r0, p.z1 - p.z0, fun _ _ => none⟩⟩

/-- `extend_dataset`, `/repo/src/outEngine/outEngineHDF5.cpp:204-222`. -/
def Dataset.extend {T : Type _} (d : Dataset T) (num : Nat) : Dataset T := if d.rows > num then d else { d with rows := num + 1 }

/-- `write_rec` into frame `num`, `/repo/src/outEngine/outEngineHDF5.cpp:51-75`; `w` writes within the frame. -/
def Dataset.write {T : Type _} (d : Dataset T) (num : Nat) (w : Probe.Frame T → Res (Probe.Frame T)) : Res (Dataset T) :=
  if num < d.rows then w (d.frame num) >>= fun f => .ok { d with frame := fun k => if k = num then f else d.frame k } else .fatal

/-- What the output works on: the maps of the species in all domains, the datasets of the probes. -/
structure Files where
  maps : Nat → Dump.SMaps
  sets : Nat → Dataset ℝ

/-- A particle as the maps read it. -/
def vpOf (a : Part ℝ) : Maps.VP := ⟨a.posR, a.posZ, a.weight, a.velR, a.velPhi, a.velZ⟩

/-- What the preparation of the maps reads of a state.  The cell sizes of the domains are those of the area for equal domains
(C53). -/
def worldOf (O : OEnv) (S : State) : Dump.World :=
  ⟨O.E.domR, O.E.domZ, O.E.p.dr, O.E.p.dz, low' O.E.p.nr O.E.domR, low' O.E.p.nz O.E.domZ, O.names, O.par,
    fun s i j => (((S.D i j)[s]?).elim [] Sp.parts).map fun o => vpOf (S.heap o.tag)⟩
where
  /-- First cell of a domain, `/repo/src/SMB.cpp:73-81`. -/
  low' (n dom i : Nat) : Nat := n * i / dom

/-- The kind of map the component of a probe has prepared, `/repo/src/outController.cpp:398-407`. -/
def prepComp (c : List Char) : Dump.Comp :=
  if c = "density".toList then .density
  else if c = "temperature".toList then .temperature
  else if c = "energy".toList then .energy
  else if c = "momentum/r".toList ∨ c = "momentum/phi".toList ∨ c = "momentum/z".toList then .momentum
  else .other

/-- The component of the field solver or of the currents a probe shows, `/repo/src/outController.cpp:151-168`: the magnetic
field is the one at the time of the electric field. -/
def fieldOf (c : List Char) : Option Comp :=
  if c = "E/r".toList then some .er
  else if c = "E/phi".toList then some .ep
  else if c = "E/z".toList then some .ez
  else if c = "H/r".toList then some .hr
  else if c = "H/phi".toList then some .hp
  else if c = "H/z".toList then some .hz
  else if c = "J/r".toList then some .jr
  else if c = "J/phi".toList then some .jp
  else if c = "J/z".toList then some .jz
  else none

/-- The map of a species a probe shows, `/repo/src/outController.cpp:169-292`. -/
def mapOf (c : List Char) : Option (Maps.St → Grid ℝ) :=
  if c = "temperature".toList then some Maps.St.temperature
  else if c = "density".toList then some Maps.St.density
  else if c = "energy".toList then some Maps.St.energy
  else if c = "momentum/r".toList then some fun m => m.mom.r
  else if c = "momentum/phi".toList then some fun m => m.mom.phi
  else if c = "momentum/z".toList then some fun m => m.mom.z
  else none

/-- The grid the writer of domain `(i, j)` reads, `/repo/src/outController.cpp:148-296`: none if the species does not exist
(there is no writer then), an uninitialised pointer for an unknown component. -/
noncomputable def valueOf (O : OEnv) (S : State) (maps : Nat → Dump.SMaps) (p : OProbe) (i j : Nat) : Res (Option (Grid ℝ)) :=
  match fieldOf p.component with
  | some c => .ok (some (toGrid (domPar O.E.p O.E.domR O.E.domZ i j) (S.M i j) c))
  | none =>
    match mapOf p.component with
    | some get => .ok ((Dump.lookup O.names p.specie).map fun s => get (maps s i j))
    | none => .ub

/-- `init_datasets` for probe number `k` at step `n`, `/repo/src/outController.cpp:315-496`: extend the dataset, prepare the
maps.  -/
noncomputable def prepareAt (O : OEnv) (S : State) (n : Int) (k : Nat) (F : Files) : Res Files :=
  Out.frame (O.probes k).schedule n >>= fun f => match f with
    | none => .ok F
    | some num =>
      Dump.prepareOne (worldOf O S) ⟨prepComp (O.probes k).component, (O.probes k).specie⟩ F.maps >>= fun maps =>
      .ok ⟨maps, fun l => if l = k then (F.sets k).extend num else F.sets l⟩

/-- The writer of probe number `k` in domain `(i, j)` at step `n`, `/repo/src/outWriter.cpp:49-73`: it exists if the probe
touches the domain (`/repo/src/outController.cpp:81-107`); the schedule is an `unsigned short` there. -/
noncomputable def writeAt (O : OEnv) (S : State) (n : Int) (i j k : Nat) (F : Files) : Res Files :=
  let p := O.probes k
  let d := domDims (geoOf O.E.p O.E.domR O.E.domZ) i j
  if Probe.touches p.rect d then
    valueOf O S F.maps p i j >>= fun v => match v with
      | none => .ok F
      | some g => Out.frame (p.schedule % 2 ^ 16) n >>= fun f => match f with
        | none => .ok F
        | some num => (F.sets k).write num (Probe.piece p.rect d g) >>= fun x =>
          .ok { F with sets := fun l => if l = k then x else F.sets l }
  else .ok F

/-- `OutController::operator()` at step `n`, `/repo/src/outController.cpp:498-510`. -/
noncomputable def outputs (O : OEnv) (S : State) (n : Int) (F : Files) : Res Files :=
  loop (prepareAt O S n) (List.range O.count) F >>= fun F =>
  loop (fun q F => loop (writeAt O S n q.1 q.2) (List.range O.count) F) (idx2 0 O.E.domR 0 O.E.domZ) F

/-- The first `N` passes of the main loop, `/repo/src/PiCoPiC.cpp:299-344`: `hist n` is the state after `n` steps, the output of
pass number `n` sees the state after `n + 1` steps, then the clock advances. -/
noncomputable def record (O : OEnv) (hist : Nat → State) (F0 : Files) : Nat → Res (ℝ × Files)
  | 0 => .ok (0, F0)
  | n + 1 => record O hist F0 n >>= fun s => Out.stepNo id s.1 O.E.p.dt >>= fun k =>
    outputs O (hist (n + 1)) k s.2 >>= fun F => .ok (s.1 + O.E.p.dt, F)

end Pic
end Pico
