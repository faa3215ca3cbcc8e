import Verif.Model.CurrentVB

/-!
# Current deposition, ZigZag scheme  (`/repo/src/current/currentZigZag.cpp`)

Same conventions as the model of the Villasenor–Buneman scheme.
-/

namespace Pico
namespace ZigZag

open Yee VB

section
variable {K : Type _} [Field K] [LinearOrder K] [IsStrictOrderedRing K] [FloorRing K]

/-- `RELAY_POINT(i1, i2, x1, x2, dx)`, `/repo/include/current/currentZigZag.hpp:28-30`. -/
def relayPoint (i1 i2 : Int) (x1 x2 dx : K) : K :=
  min (min ((i1 : K) * dx) ((i2 : K) * dx) + dx) (max (max ((i1 : K) * dx) ((i2 : K) * dx)) ((x1 + x2) / 2))

/-- The operations for one particle once its cell numbers are known: new and old cell `(iN, kN)`,
`(iO, kO)`, radial cell `iM` of the middle of the path;
`/repo/src/current/currentZigZag.cpp:50-134`. -/
def cellOps (x : Ctx K) (p : Part K) (iN iO kN kO iM : Int) : List (Op K) :=
  let dr := x.g.dr
  let dz := x.g.dz
  let cdt := p.q / x.dt
  let is := iO - x.g.r0
  let js := iN - x.g.r0
  let ks := kO - x.g.z0
  let ls := kN - x.g.z0
  let ov := 1 / cellVolume x.pi (iM : K) dr dz
  let fphi := p.q * p.vphi
  let wphi := p.vphi * x.dt / (2 * x.pi * (p.rOld + p.r))
  let rr := relayPoint iO iN p.rOld p.r dr
  let zr := relayPoint kO kN p.zOld p.z dz
  let fr1 := cdt * (rr - p.rOld)
  let fr2 := cdt * (p.r - rr)
  let fz1 := cdt * (zr - p.zOld)
  let fz2 := cdt * (p.z - zr)
  let wr1 := (p.rOld + rr) / 2 - (iO : K) * dr
  let wr2 := (p.r + rr) / 2 - (iN : K) * dr
  let wz1 := (p.zOld + zr) / 2 - (kO : K) * dz
  let wz2 := (p.z + zr) / 2 - (kN : K) * dz
  [.inc .jr is ks (ov * fr1 * (1 - wphi) * (1 - wz1) + ov * fr1 * wphi * (1 - wz1)),
   .inc .jr is (ks + 1) (ov * fr1 * (1 - wphi) * wz1 + ov * fr1 * wphi * wz1),
   .inc .jr js ls (ov * fr2 * (1 - wphi) * (1 - wz2) + ov * fr2 * wphi * (1 - wz2)),
   .inc .jr js (ls + 1) (ov * fr2 * (1 - wphi) * wz2 + ov * fr2 * wphi * wz2),
   .inc .jp js ls (ov * fphi * (1 - wr2) * (1 - wz2)),
   .inc .jp js (ls + 1) (ov * fphi * (1 - wr2) * wz1),
   .inc .jp (js + 1) ls (ov * fphi * wr2 * (1 - wz2)),
   .inc .jp (js + 1) (ls + 1) (ov * fphi * wr2 * wz2),
   .inc .jz is ks (ov * fz1 * (1 - wr1) * (1 - wphi) + ov * fz1 * (1 - wr1) * wphi),
   .inc .jz (is + 1) ks (ov * fz1 * wr1 * (1 - wphi) + ov * fz1 * wr1 * wphi),
   .inc .jz js ls (ov * fz2 * (1 - wr2) * (1 - wphi) + ov * fz2 * (1 - wr2) * wphi),
   .inc .jz (js + 1) ls (ov * fz2 * wr2 * (1 - wphi) + ov * fz2 * wr2 * wphi)]

/-- Body of the particle loop, `/repo/src/current/currentZigZag.cpp:33-135`.  `CELL_NUMBER` of the three
radial and two axial positions in the order of the code. -/
def particleOps (x : Ctx K) (p : Part K) : Res (List (Op K)) :=
  cellNumber p.r x.g.dr >>= fun iN =>
  cellNumber p.rOld x.g.dr >>= fun iO =>
  cellNumber p.z x.g.dz >>= fun kN =>
  cellNumber p.zOld x.g.dz >>= fun kO =>
  cellNumber ((p.r + p.rOld) / 2) x.g.dr >>= fun iM =>
  .ok (cellOps x p iN iO kN kO iM)

/-- One turn of the particle loop. -/
def particle (x : Ctx K) (p : Part K) (m : Mem K) : Res (Mem K) :=
  particleOps x p >>= fun ops => runOps x.g ops m

/-- `CurrentZigZag::current_distribution`, `/repo/src/current/currentZigZag.cpp:22-137`; `ps` lists the
particles of all species one species after the other. -/
def currentDistribution (x : Ctx K) (ps : List (Part K)) (m : Mem K) : Res (Mem K) :=
  loop (particle x) ps (overlayClear x.g m)

end
end ZigZag
end Pico
