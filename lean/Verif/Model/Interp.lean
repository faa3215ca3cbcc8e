import Verif.Model.Yee
import Verif.Model.Geometry
import Verif.Model.CurrentVB
import Verif.Model.Vec3

/-!
# Field seen by a particle  (`/repo/include/maxwellSolver.hpp:101-316`)

The particle reads `field_e` (components `er`, `ep`, `ez` of the memory) and `field_h` (components
`fr`, `fp`, `fz`).
-/

namespace Pico
namespace Interp

open Yee

variable {K : Type _} [Field K] [LinearOrder K] [IsStrictOrderedRing K] [FloorRing K]

/-- Read access to a field grid at domain local indices. -/
def rdG (g : Geom K) (m : Mem K) (c : Comp) (i k : Int) : Res K :=
  if VB.insideG g i k then .ok (m c i k) else .ub

/-- `x / vol`: division by zero gives no number, which is kept apart. -/
def quot (a b : K) : Res K := if b = 0 then .ub else .ok (a / b)

/-- Four addends of one component, e.g. `/repo/include/maxwellSolver.hpp:136-146`.
`cell r` is the radial cell number and `cell z` the axial one, `r2` the radius dividing the ring,
`vol1`, `vol2` the two volumes, `dz1`, `dz2` the two widths.  The results are the addends for the nodes
`(i,k)`, `(i+1,k)`, `(i,k+1)`, `(i+1,k+1)` in this order. -/
def four (pi : K) (g : Geom K) (m : Mem K) (c : Comp) (i k : Int) (r1 r2 r3 dz1 dz2 vol1 vol2 : K) :
    Res (K × K × K × K) :=
  let is := i - g.r0
  let ks := k - g.z0
  rdG g m c is ks >>= fun f00 => quot (f00 * cylRngVol pi dz1 r1 r2) vol1 >>= fun a =>
  rdG g m c (is + 1) ks >>= fun f10 => quot (f10 * cylRngVol pi dz1 r2 r3) vol2 >>= fun b =>
  rdG g m c is (ks + 1) >>= fun f01 => quot (f01 * cylRngVol pi dz2 r1 r2) vol1 >>= fun c' =>
  rdG g m c (is + 1) (ks + 1) >>= fun f11 => quot (f11 * cylRngVol pi dz2 r2 r3) vol2 >>= fun d =>
  .ok (a, b, c', d)

/-- Components located at half radii and whole axial positions: H_z, `/repo/include/maxwellSolver.hpp:119-146`,
and E_r, `229-251`.  `CELL_VOLUME(i_r+1)` expands to `2.0 * i_r + 1 + 1`, `CELL_VOLUME(i_r+3)` to
`2.0 * i_r + 3 + 1`. -/
def halfWhole (pi : K) (g : Geom K) (m : Mem K) (c : Comp) (radius long : K) : Res (K × K × K × K) :=
  cellNumber (radius - 1/2 * g.dr) g.dr >>= fun i =>
  cellNumber long g.dz >>= fun k =>
  four pi g m c i k (radius - 1/2 * g.dr) (((i : K) + 1) * g.dr) (radius + 1/2 * g.dr)
    (((k : K) + 1) * g.dz - long) (long - (k : K) * g.dz)
    (pi * g.dz * g.dr * g.dr * (2 * (i : K) + 1 + 1)) (pi * g.dz * g.dr * g.dr * (2 * (i : K) + 3 + 1))

/-- Components at whole radii and half axial positions: H_r, `/repo/include/maxwellSolver.hpp:148-177`, and
E_z, `253-278`.  `CELL_VOLUME(i_r+2)` expands to `2.0 * i_r + 2 + 1`. -/
def wholeHalf (pi : K) (g : Geom K) (m : Mem K) (c : Comp) (radius long : K) : Res (K × K × K × K) :=
  cellNumber radius g.dr >>= fun i =>
  cellNumber (long - 1/2 * g.dz) g.dz >>= fun k =>
  four pi g m c i k (radius - 1/2 * g.dr) (((i : K) + 1/2) * g.dr) (radius + 1/2 * g.dr)
    (((k : K) + 3/2) * g.dz - long) (long - ((k : K) + 1/2) * g.dz)
    (pi * g.dz * g.dr * g.dr * (2 * (i : K) + 1)) (pi * g.dz * g.dr * g.dr * (2 * (i : K) + 2 + 1))

/-- H_phi, `/repo/include/maxwellSolver.hpp:179-206`: half positions in both directions. -/
def halfHalf (pi : K) (g : Geom K) (m : Mem K) (c : Comp) (radius long : K) : Res (K × K × K × K) :=
  cellNumber (radius - 1/2 * g.dr) g.dr >>= fun i =>
  cellNumber (long - 1/2 * g.dz) g.dz >>= fun k =>
  four pi g m c i k (radius - 1/2 * g.dr) (((i : K) + 1) * g.dr) (radius + 1/2 * g.dr)
    (((k : K) + 3/2) * g.dz - long) (long - ((k : K) + 1/2) * g.dz)
    (pi * g.dz * g.dr * g.dr * (2 * (i : K) + 1 + 1)) (pi * g.dz * g.dr * g.dr * (2 * (i : K) + 3 + 1))

/-- E_phi, `/repo/include/maxwellSolver.hpp:280-313`: whole positions in both directions. -/
def wholeWhole (pi : K) (g : Geom K) (m : Mem K) (c : Comp) (radius long : K) : Res (K × K × K × K) :=
  cellNumber radius g.dr >>= fun i =>
  cellNumber long g.dz >>= fun k =>
  four pi g m c i k (radius - 1/2 * g.dr) (((i : K) + 1/2) * g.dr) (radius + 1/2 * g.dr)
    (((k : K) + 1) * g.dz - long) (long - (k : K) * g.dz)
    (pi * g.dz * g.dr * g.dr * (2 * (i : K) + 1)) (pi * g.dz * g.dr * g.dr * (2 * (i : K) + 2 + 1))

/-- Sum of the addends of one component, starting from 0. -/
def sum4 (q : K × K × K × K) : K := q.1 + q.2.1 + q.2.2.1 + q.2.2.2

/-- `get_field_h`, `/repo/include/maxwellSolver.hpp:101-209`; components r, phi, z. -/
def getH (pi : K) (g : Geom K) (m : Mem K) (radius long : K) : Res (Vec3 K) :=
  halfWhole pi g m .fz radius long >>= fun z =>
  wholeHalf pi g m .fr radius long >>= fun r =>
  halfHalf pi g m .fp radius long >>= fun p =>
  .ok ⟨sum4 r, sum4 p, sum4 z⟩

/-- `get_field_e`, `/repo/include/maxwellSolver.hpp:211-316`.  The last addend of E_phi is added to
component 2 (line 313). -/
def getE (pi : K) (g : Geom K) (m : Mem K) (radius long : K) : Res (Vec3 K) :=
  halfWhole pi g m .er radius long >>= fun r =>
  wholeHalf pi g m .ez radius long >>= fun z =>
  wholeWhole pi g m .ep radius long >>= fun p =>
  .ok ⟨sum4 r, p.1 + p.2.1 + p.2.2.1, sum4 z + p.2.2.2⟩

end Interp
end Pico
