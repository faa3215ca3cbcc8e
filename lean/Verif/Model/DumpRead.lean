import Verif.Model.Dump

/-! # What the writers read for energy, momentum and temperature probes -/

namespace Pico
namespace Dump

open Maps

/-- What the writer of domain `(i, j)` reads at a cell for an energy probe of species `s`,
`/repo/src/outController.cpp:209-227` and `/repo/src/outWriter.cpp:49-100`. -/
def readEnergy (S : Nat → SMaps) (s i j : Nat) (x y : Int) : Res ℝ := (S s i j).energy.get x y

/-- For a temperature probe, `/repo/src/outController.cpp:169-187`. -/
def readTemperature (S : Nat → SMaps) (s i j : Nat) (x y : Int) : Res ℝ := (S s i j).temperature.get x y

/-- For probes of the components of the momentum, `/repo/src/outController.cpp:228-284`. -/
def readMomR (S : Nat → SMaps) (s i j : Nat) (x y : Int) : Res ℝ := (S s i j).mom.r.get x y
def readMomPhi (S : Nat → SMaps) (s i j : Nat) (x y : Int) : Res ℝ := (S s i j).mom.phi.get x y
def readMomZ (S : Nat → SMaps) (s i j : Nat) (x y : Int) : Res ℝ := (S s i j).mom.z.get x y

end Dump
end Pico
