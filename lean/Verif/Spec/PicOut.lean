import Verif.Model.PicOut
import Verif.Spec.PicLaws
import Verif.Spec.PicSame
import Verif.Lemmas.Dump

/-! Specification vocabulary for the output of whole runs: admissible probes, particles in their domains, what a frame shows. -/

namespace Pico
namespace Pic

open SMB Yee

/-- A probe the configuration accepts and the output can serve: a known component, a schedule of 1 to 65535 steps (C42), a
rectangle that is not empty, lies in the area and whose radial edges are not on a border between domains (C44). -/
structure OProbe.Fits (E : Env) (p : OProbe) : Prop where
  known : p.component ∈ Probe.fieldBased ++ Probe.specieBased
  every : 1 ≤ p.schedule ∧ p.schedule < 65536
  rows : p.rect.r0 < p.rect.r1 ∧ p.rect.r1 ≤ E.p.nr
  cols : p.rect.z0 < p.rect.z1 ∧ p.rect.z1 ≤ E.p.nz
  edge : ∀ i, 0 < i → i < E.domR → low E.p.nr E.domR i ≠ p.rect.r0 ∧ low E.p.nr E.domR i ≠ p.rect.r1

/-- A simulation that includes the axis, divided in an admissible way, with fewer than 32768 cells in each direction, sane
constants, and admissible probes. -/
structure OEnv.Watched (O : OEnv) : Prop where
  r0 : O.E.p.r0 = 0
  div : Divided O.E.p O.E.domR O.E.domZ
  smallR : O.E.p.nr < 2 ^ 15
  smallZ : O.E.p.nz < 2 ^ 15
  dr : 0 < O.E.p.dr
  dz : 0 < O.E.p.dz
  dt : 0 < O.E.p.dt
  par : ∀ s, (O.par s).Good
  probes : ∀ k, k < O.count → (O.probes k).Fits O.E

/-- Every particle lies in its domain. -/
def Held (E : Env) (S : State) : Prop :=
  ∀ i j, i < E.domR → j < E.domZ → ∀ sp ∈ S.D i j, ∀ o ∈ sp.parts, (E.geom i j).Contains (S.heap o.tag).posR (S.heap o.tag).posZ

/-- The output at the start of a run: datasets of one empty frame, maps of the sizes of the domains with overlays of two cells
and any contents. -/
structure Files.Start (O : OEnv) (F : Files) : Prop where
  sets : ∀ k, F.sets k = Dataset.create (O.probes k).rect
  maps : ∀ S, Dump.AllGood (worldOf O S) F.maps

/-- Number of frames a probe with schedule `s` has after `N` steps: one for every multiple of `s` below `N`. -/
def frames (s N : Nat) : Nat := (N + s - 1) / s

/-- Frame `f` of a rectangular probe shows exactly `G` on the rectangle. -/
def ShowsFrame (p : Probe.Rect) (f : Probe.Frame ℝ) (G : Nat → Nat → ℝ) : Prop :=
  (f.h = p.r1 - p.r0 ∧ f.w = p.z1 - p.z0) ∧
  ∀ a b, f.cell a b = if a < p.r1 - p.r0 ∧ b < p.z1 - p.z0 then some (G (p.r0 + a) (p.z0 + b)) else none

/-- The field and current probes: name in the configuration and what the user expects to see. -/
def fieldNames : List (String × Comp) :=
  [("E/r", .er), ("E/phi", .ep), ("E/z", .ez), ("H/r", .hr), ("H/phi", .hp), ("H/z", .hz), ("J/r", .jr), ("J/phi", .jp), ("J/z", .jz)]

/-- All particles of species number `s`, as the maps read them: positions, weight, velocity (radial, azimuthal, axial). -/
def particlesOf (E : Env) (S : State) (s : Nat) : List Maps.VP :=
  (idx2 0 E.domR 0 E.domZ).flatMap fun d => (((S.D d.1 d.2)[s]?).elim [] Sp.parts).map fun o =>
    let a := S.heap o.tag
    { r := a.posR, z := a.posZ, w := a.weight, vr := a.velR, vp := a.velPhi, vz := a.velZ }

/-- The same simulation without a division into domains. -/
def OEnv.whole (O : OEnv) : OEnv := { O with E := O.E.whole }

/-- The cell is in no first row and no first column of a domain, other than those of the area. -/
def Away (E : Env) (X Y : Nat) : Prop :=
  (∀ i, 0 < i → i < E.domR → X ≠ low E.p.nr E.domR i) ∧ ∀ j, 0 < j → j < E.domZ → Y ≠ low E.p.nz E.domZ j

/-- The whole chamber as one grid of cells. -/
def chamberGrid (E : Env) : Geom ℝ := ⟨E.p.dr, E.p.dz, 0, 0, E.p.nr, E.p.nz⟩

end Pic
end Pico
