import Verif.Model.Species
import Verif.Model.Probe

/-!
# Geometry of the configuration  (`/repo/src/cfg.cpp:379-428`, `/repo/include/geometry.hpp:45-72`)
-/

namespace Pico
namespace GeoCfg

open Species Probe

variable {K : Type _} [Field K] [LinearOrder K] [IsStrictOrderedRing K] [FloorRing K]

/-- The values of `"geometry"` in the configuration file. -/
structure Entry (K : Type _) where
  radius : K
  longitude : K
  gridR : K
  gridZ : K
  left : K
  right : K
  outer : K
  domR : K
  domZ : K

/-- The geometry of the whole volume; `cellR`, `cellZ` are the cell sizes, `allR`, `allZ` is `global_cell_amount`,
`pml*` the widths of the layers in cells. -/
structure Whole (K : Type _) where
  sizeR : K
  sizeZ : K
  nr : Nat
  nz : Nat
  cellR : K
  cellZ : K
  allR : Nat
  allZ : Nat
  pmlLeft : Nat
  pmlOuter : Nat
  pmlRight : Nat
  domR : Nat
  domZ : Nat

/-- Conversion of an `int` to `size_t`. -/
def toU64 (n : Int) : Nat := (n % 2 ^ 64).toNat

/-- `Cfg::init_geometry`, `/repo/src/cfg.cpp:379-428`, and the constructor it calls.  Without cells or without size the
constructor divides by zero; the conversion of the quotient to `size_t` is then undefined (infinity or not a number). -/
def initGeometry (e : Entry K) : Res (Whole K) :=
  toSize e.gridR >>= fun nr => toSize e.gridZ >>= fun nz =>
  toSize (⌊e.left * nz⌋ : K) >>= fun pl => toSize (⌊e.outer * nr⌋ : K) >>= fun po => toSize (⌊e.right * nz⌋ : K) >>= fun pr =>
  if nr = 0 ∨ nz = 0 ∨ e.radius = 0 ∨ e.longitude = 0 then .ub
  else
    toSize (e.radius / (e.radius / nr)) >>= fun ar => toSize (e.longitude / (e.longitude / nz)) >>= fun az =>
    toInt e.domR >>= fun dr => toInt e.domZ >>= fun dz =>
      .ok ⟨e.radius, e.longitude, nr, nz, e.radius / nr, e.longitude / nz, ar, az, pl, po, pr, toU64 dr, toU64 dz⟩

end GeoCfg
end Pico
