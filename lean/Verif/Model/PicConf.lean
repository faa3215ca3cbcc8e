import Verif.Model.Config
import Verif.Model.PicOut

/-!
# From the configuration to the simulation  (`/repo/src/PiCoPiC.cpp:184-330`, `/repo/src/SMB.cpp:36-171`, `/repo/src/specieP.cpp:23-56`)

One process.  What the constructors make of the configuration (`Config.Conf`) that the program has read: the simulation (`Pic.Setup`), its beams and
its output.  The constants are those of `/repo/include/constant.hpp:28-63`; the decimal numbers are exact here.
-/

namespace Pico
namespace PicConf

open Config SMB Yee

/-- `PI`. -/
noncomputable def pi : ℝ := 3.1415926535897932
/-- `EPSILON0`. -/
noncomputable def eps0 : ℝ := 8.85e-12
/-- `EL_MASS`. -/
noncomputable def elMass : ℝ := 9.1e-31
/-- `EL_CHARGE`. -/
noncomputable def elCharge : ℝ := 1.6e-19
/-- `LIGHT_VEL`. -/
noncomputable def light : ℝ := 3.0e8
/-- `MAGN_CONST`. -/
noncomputable def magn : ℝ := 1.26e-6
/-- `MNZL`. -/
noncomputable def mnzl : ℝ := 1e-15
/-- `REL_LIMIT`, `/repo/configure.ac:224`. -/
noncomputable def limit : ℝ := 5e7
/-- The constants of `/repo/src/phys/plasma.cpp:24-41`. -/
noncomputable def freqConst : ℝ := 56.3803
noncomputable def debyeConst : ℝ := 7433.944

/-- The random numbers of a run, `/repo/src/math/rand.cpp`; see `Pic.Setup`. -/
structure Random where
  ur : Nat → Nat → Nat → Nat → ℝ
  uz : Nat → Nat → Nat → Nat → ℝ
  us : Nat → Nat → Nat → Nat → ℝ
  ws : Nat → Nat → Nat → List (ℝ × ℝ)
  rs : Nat → Nat → Nat → Nat → ℝ × ℝ × ℝ

/-- The algorithms of a build. -/
structure Algos where
  spatial : Pic.Spatial
  speedy : Pic.Speedy
  pusher : Pusher.Kind
  deposition : Deposition
  pml : Bool

/-- The area of the geometry, `/repo/src/cfg.cpp:379-416`: all four walls. -/
noncomputable def area (c : Conf ℝ) : Par ℝ :=
  ⟨c.geo.cellR, c.geo.cellZ, c.time.step, magn, 0, c.geo.nr, c.geo.nz, ⟨true, true, true, true⟩⟩

/-- The beams for which there are objects, with their amounts: those with bunches, `/repo/src/SMB.cpp:151-166`. -/
def beamsOf (c : Conf ℝ) : List (BeamData ℝ × Nat) := (c.beams.zip c.amounts.2).filter fun p => 0 < p.1.bunches

/-- `charge`, `/repo/src/specieP.cpp:40`; zero for an identifier that no species has. -/
noncomputable def chargeOf (c : Conf ℝ) (id : Nat) : ℝ :=
  match c.species.find? (fun s => s.id = id), (beamsOf c).find? (fun p => p.1.id = id) with
  | some s, _ => s.charge * elCharge
  | none, some p => p.1.charge * elCharge
  | none, none => 0

/-- `mass`, `/repo/src/specieP.cpp:41`; that of an electron for an identifier that no species has. -/
noncomputable def massOf (c : Conf ℝ) (id : Nat) : ℝ :=
  match c.species.find? (fun s => s.id = id), (beamsOf c).find? (fun p => p.1.id = id) with
  | some s, _ => s.mass * elMass
  | none, some p => p.1.mass * elMass
  | none, none => elMass

/-- The deposition scheme, `/repo/src/domain.cpp:38-42`. -/
noncomputable def schemeOf : Deposition → VB.Ctx ℝ → List (VB.Part ℝ) → Mem ℝ → Res (Mem ℝ)
  | .zigzag => ZigZag.currentDistribution
  | .vb => VB.currentDistribution

/-- The simulation, `/repo/src/SMB.cpp:36-124`. -/
noncomputable def env (b : Algos) (c : Conf ℝ) : Pic.Env where
  p := area c
  domR := c.geo.domR
  domZ := c.geo.domZ
  e := ⟨pi, mnzl, Real.log⟩
  c := light
  lim := limit
  kind := b.pusher
  dist := schemeOf b.deposition
  charge := chargeOf c
  mass := massOf c

/-- Species, beams and layers, `/repo/src/SMB.cpp:82-166`; the amounts are those of `weight_macro_amount`. -/
noncomputable def setup (b : Algos) (c : Conf ℝ) (x : Random) : Pic.Setup where
  env := env b c
  spatial := b.spatial
  speedy := b.speedy
  species := (c.species.zip c.amounts.1).map fun p => ⟨p.1.id, (p.2 : ℝ), p.1.left, p.1.right, p.1.temperature⟩
  beams := (beamsOf c).map fun p => p.1.id
  layers := if b.pml then some ⟨c.geo.pmlLeft, c.geo.pmlOuter, c.geo.pmlRight, c.sigma1, c.sigma2⟩ else none
  eps0 := eps0
  q := elCharge
  mnzl := mnzl
  ur := x.ur
  uz := x.uz
  us := x.us
  ws := x.ws
  rs := x.rs

/-- The beams, `/repo/src/SMB.cpp:151-166`. -/
noncomputable def benv (b : Algos) (c : Conf ℝ) : Pic.BEnv where
  env := env b c
  beams := (beamsOf c).map fun p => ⟨p.1.id, p.2, p.1.start, p.1.radius, p.1.density, p.1.bunches.toNat, p.1.length, p.1.distance, p.1.velocity⟩

/-- A probe, for the output. -/
def oprobe (p : ProbeData) : Pic.OProbe := ⟨p.component, p.specie, p.dims, p.schedule⟩

/-- The output, `/repo/src/outController.cpp:29-107`: the species are looked up by name among the species and beams. -/
noncomputable def oenv (b : Algos) (c : Conf ℝ) : Pic.OEnv where
  E := env b c
  names := c.species.map (·.name) ++ (beamsOf c).map fun p => p.1.name
  par := fun s => ⟨pi, light, limit, elCharge, massOf c ((c.species.map (·.id) ++ (beamsOf c).map fun p => p.1.id).getD s 0)⟩
  count := c.probes.length
  probes := fun k => (c.probes[k]?.map oprobe).getD ⟨[], [], ⟨0, 0, 0, 0⟩, 0⟩

end PicConf
end Pico
