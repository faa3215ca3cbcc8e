import Verif.Model.Configure

/-! # C131 — what the arguments of `configure` are meant to choose -/

namespace Pico
namespace Config

/-- The documented names (`configure --help`) and what they stand for, with the text recorded in the output file. -/
def pushers : List (String × Pusher.Kind × String) :=
  [("boris", .boris, "boris classic"), ("boris-adaptive", .borisAdaptive, "boris adaptive"), ("boris-relativistic", .borisRelativistic, "boris relativistic"),
   ("vay", .vay, "vay"), ("hc", .hc, "higuera-cary")]
def spatials : List (String × Pic.Spatial × String) :=
  [("flat", .flat, "flat"), ("random", .random, "random"), ("regular", .regular, "regular"), ("centered", .centered, "centered")]
def velocities : List (String × Pic.Speedy × String) :=
  [("thermal", .thermal, "thermal"), ("rectangular", .rectangular, "rectangular"), ("eigen", .eigen, "eigen")]
def currents : List (String × Deposition × String) := [("vb", .vb, "villasenor-buneman"), ("zigzag", .zigzag, "zigzag")]
def schemes : List (String × Coll.Method) := [("ta77s", .ta77s), ("sk98", .sk98), ("p12", .p12)]

/-- The defaults `configure --help` promises, `/repo/configure.ac:96-110,117-119`. -/
def helpPusher : String := "boris"
def helpSpatial : String := "flat"
def helpVelocity : String := "thermal"
def helpCurrent : String := "vb"
def helpScheme : String := "p12"

/-- The option was switched on: with the word `yes`, or by default. -/
def On (o : Option (List Char)) (default : Bool) : Prop := o = some "yes".toList ∨ o = none ∧ default = true

/-- The name given, or the default. -/
def Names (o : Option (List Char)) (default name : String) : Prop := o = some name.toList ∨ o = none ∧ name = default

/-- The attribute `name` of the output file is the text `s`. -/
def HasText {K : Type} (a : List (String × Attr K)) (name s : String) : Prop := (name, Attr.text s.toList) ∈ a

/-- What the file tells of the choices of a build: all that a reader of the attributes can see. -/
def Told {K : Type} (a a' : List (String × Attr K)) : Prop :=
  ∀ name ∈ ["softwareConfigDebug", "softwareConfigIEEE", "softwareConfigCurrentDeposition", "softwareConfigFieldSolver", "softwareConfigParticlesPusher",
    "softwareConfigPlasmaVelocityDistribution", "softwareConfigPlasmaSpatialDistribution", "softwareBuildFlags"], ∀ v, (name, v) ∈ a ↔ (name, v) ∈ a'

end Config
end Pico
