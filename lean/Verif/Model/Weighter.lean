import Verif.Model.Grid
import Verif.Model.Geometry

/-!
# Weighting of a particle onto a map  (`/repo/include/algo/weighter.hpp`)
-/

namespace Pico

variable {K : Type _} [Field K] [LinearOrder K] [IsStrictOrderedRing K] [FloorRing K]

/-- The values computed by one branch of `weight_cylindrical`: the four additions to the
cells `(i,k)`, `(i+1,k)`, `(i,k+1)`, `(i+1,k+1)` in this order. -/
structure Deposit (K : Type _) where
  d00 : K
  d10 : K
  d01 : K
  d11 : K

/-- The arithmetic of `weight_cylindrical`, `/repo/include/algo/weighter.hpp:45-129`, given the
(unsigned) cell numbers `i`, `k`: the three branches `pos_r > dr`, `pos_r <= dr / 2` and the
rest.  In the second branch the code sets `r_i = 0`; the volumes and the shifted cell number were
computed from the old `r_i` before. -/
def depositOf (pi : K) (g : Geom K) (posR posZ w : K) (i k : Nat) : Deposit K :=
  let v1 := cellVolume pi i g.dr g.dz
  let v2 := cellVolumeNext pi i g.dr g.dz
  let dz1 := ((k : K) + 1/2) * g.dz - (posZ - 1/2 * g.dz)
  let dz2 := (posZ + 1/2 * g.dz) - ((k : K) + 1/2) * g.dz
  if posR > g.dr then
    let r1 := posR - 1/2 * g.dr
    let r2 := ((i : K) + 1/2) * g.dr
    let r3 := posR + 1/2 * g.dr
    let v0 := 2 * pi * g.dz * g.dr * posR
    let rho := w / v0
    ⟨rho * (cylRngVol pi dz1 r1 r2 / v1), rho * (cylRngVol pi dz1 r2 r3 / v2),
     rho * (cylRngVol pi dz2 r1 r2 / v1), rho * (cylRngVol pi dz2 r2 r3 / v2)⟩
  else if posR ≤ g.dr / 2 then
    let r2 := ((0 : K) + 1/2) * g.dr
    let r3 := posR + 1/2 * g.dr
    let v0 := pi * g.dz * (2 * posR * posR + g.dr * g.dr / 2)
    let rho := w / v0
    ⟨rho * (pi * dz1 * (g.dr * g.dr / 2 - posR * g.dr + posR * posR) / v1),
     rho * (cylRngVol pi dz1 r2 r3 / v2),
     rho * (pi * dz2 * (g.dr * g.dr / 2 - posR * g.dr + posR * posR) / v1),
     rho * (cylRngVol pi dz2 r2 r3 / v2)⟩
  else
    let r1 := posR - 1/2 * g.dr
    let r2 := ((i : K) + 1/2) * g.dr
    let r3 := posR + 1/2 * g.dr
    let v0 := 2 * pi * g.dz * g.dr * posR
    let v1 := cylVol pi g.dz g.dr
    let v2 := cellVolumeNext pi i g.dr g.dz
    let rho := w / v0
    ⟨rho * (cylRngVol pi dz1 r1 r2 / v1), rho * (cylRngVol pi dz1 r2 r3 / v2),
     rho * (cylRngVol pi dz2 r1 r2 / v1), rho * (cylRngVol pi dz2 r2 r3 / v2)⟩

/-- `weight_cylindrical`, `/repo/include/algo/weighter.hpp:27-130`.  The shifted cell numbers are
`unsigned int`; `Grid.inc` reduces its index arguments modulo `2^32`, so the differences are
written as integers. -/
def weightCyl (pi : K) (g : Geom K) (m : Grid K) (posR posZ w : K) : Res (Grid K) :=
  cellNumber posR g.dr >>= fun ri =>
  cellNumber posZ g.dz >>= fun zk =>
    let d := depositOf pi g posR posZ w (toU32 ri) (toU32 zk)
    let i := ri - g.r0
    let k := zk - g.z0
    m.inc i k d.d00 >>= fun m =>
    m.inc (i + 1) k d.d10 >>= fun m =>
    m.inc i (k + 1) d.d01 >>= fun m =>
    m.inc (i + 1) (k + 1) d.d11

/-- A particle as far as the maps use it: position `r`, `z`, macroparticle weight. -/
structure WP (K : Type _) where
  r : K
  z : K
  w : K

/-- `SpecieP::calc_density`, `/repo/src/specieP.cpp:665-676`: clear map and overlay, then weight
every particle. -/
def calcDensity (pi : K) (g : Geom K) (m : Grid K) (ps : List (WP K)) : Res (Grid K) :=
  m.assign 0 >>= fun m => m.overlaySet 0 >>= fun m =>
    loop (fun p m => weightCyl pi g m p.r p.z p.w) ps m

end Pico
