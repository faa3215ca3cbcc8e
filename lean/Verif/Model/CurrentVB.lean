import Verif.Model.Yee
import Verif.Model.Geometry
import Mathlib.Algebra.Order.Group.Abs

/-!
# Current deposition, Villasenor–Buneman scheme  (`/repo/src/current/currentVB.cpp`)

The deposition of one particle never reads the current grids: it is a list of `inc`/`set` operations
on them.  The current grids are the components `jr`, `jp`, `jz` of the memory of the field solver
(`/repo/include/current.hpp:39-51`, overlay width 2).

`double` is an ordered field with floor; `constant::PI` is a parameter `pi`, `constant::MNZL` a
parameter `mnzl`, the C function `log` a parameter `lg` about which nothing is assumed.
-/

namespace Pico
namespace VB

open Yee

/-- One operation on the current grids, logical indices of the domain. -/
inductive Op (K : Type _) where
  | inc (c : Comp) (i k : Int) (v : K)
  | set (c : Comp) (i k : Int) (v : K)

/-- Surroundings of the deposition: geometry, `time->step`, constants. -/
structure Ctx (K : Type _) where
  g : Geom K
  dt : K
  pi : K
  mnzl : K
  lg : K → K

/-- A particle as far as deposition uses it: new and old position, azimuthal velocity, cell numbers
(`P_CELL_R`, `P_CELL_Z`), charge times weight. -/
structure Part (K : Type _) where
  r : K
  z : K
  rOld : K
  zOld : K
  vphi : K
  cellR : Int
  cellZ : Int
  q : K

variable {K : Type _}

/-- Index inside the allocated grids (overlay width 2). -/
def insideG (g : Geom K) (i k : Int) : Prop := (-2 ≤ i ∧ i < g.nr + 2) ∧ (-2 ≤ k ∧ k < g.nz + 2)

instance (g : Geom K) (i k : Int) : Decidable (insideG g i k) := by unfold insideG; infer_instance

/-- Execution of one operation; undefined behaviour outside the allocated grid. -/
def runOp [Add K] (g : Geom K) (m : Mem K) : Op K → Res (Mem K)
  | .inc c i k v => if insideG g i k then .ok (put m c i k (m c i k + v)) else .ub
  | .set c i k v => if insideG g i k then .ok (put m c i k v) else .ub

/-- Execution of a list of operations. -/
def runOps [Add K] (g : Geom K) (ops : List (Op K)) (m : Mem K) : Res (Mem K) :=
  loop (fun o m => runOp g m o) ops m

section
variable [Field K] [LinearOrder K] [IsStrictOrderedRing K] [FloorRing K]

/-- `SOME_SHIT_DENSITY_STRICT`, `/repo/include/current/currentVB.hpp:23-24`. -/
def densStrict (x : Ctx K) (q r : K) : K := q / (x.pi * 4 * r * x.g.dz * x.g.dz * x.g.dr * x.dt)
/-- `SOME_SHIT_DENSITY_R`, `/repo/include/current/currentVB.hpp:26-28`. -/
def densR (x : Ctx K) (q r : K) : K := q / (2 * x.pi * r * x.g.dr * x.g.dz * x.dt * 2 * x.g.dr)
/-- `SOME_SHIT_DENSITY_Z`, `/repo/include/current/currentVB.hpp:30-32`. -/
def densZ (x : Ctx K) (q r : K) : K := q / (2 * x.pi * r * x.g.dr * x.g.dz * x.dt * x.g.dz)

/-- The radial currents deposited by `simple_current_distribution` in `(i, k)` and `(i, k+1)`; the
same text in both branches, `/repo/src/current/currentVB.cpp:77-113` and `139-171`. -/
def simpleR (x : Ctx K) (rNew zNew rOld zOld : K) (i k : Int) (q : K) : K × K :=
  let dr := x.g.dr
  let dz := x.g.dz
  let deltaR := rNew - rOld
  let deltaZ := zNew - zOld
  let kk := -deltaZ / deltaR
  let r0 := ((i : K) + 1/2) * dr
  let r1 := rOld
  let b := ((k : K) + 1) * dz - zOld
  let b' := zOld - (k : K) * dz
  let l := x.lg ((rOld + deltaR) / rOld)
  (densZ x q r0 * (r0 * kk * deltaR + kk / 2 * deltaR * (rOld + deltaR / 2)
      + 1/2 * deltaR * (b - kk * (2 * r0 + r1))
      + deltaR * (b - kk * r1) * (4 * r0 * r0 - dr * dr) / (8 * rOld * (rOld + deltaR))
      + (kk * (r0 * r0 / 2 - dr * dr / 8)) * l),
   densZ x q r0 * (-r0 * kk * deltaR - kk / 2 * deltaR * (rOld + deltaR / 2)
      + 1/2 * deltaR * (b' + kk * (2 * r0 + r1))
      + deltaR * (b' + kk * r1) * (4 * r0 * r0 - dr * dr) / (8 * rOld * (rOld + deltaR))
      - (kk * (r0 * r0 / 2 - dr * dr / 8)) * l))

/-- The axial currents deposited in `(i, k)` and `(i+1, k)`, off the axis
`/repo/src/current/currentVB.cpp:50-75` and at the axis `118-137`. -/
def simpleZ (x : Ctx K) (rNew zNew rOld zOld : K) (i : Int) (q : K) : K × K :=
  let dr := x.g.dr
  let dz := x.g.dz
  let deltaR := rNew - rOld
  let deltaZ := zNew - zOld
  let kk := deltaR / deltaZ
  let b := rOld
  if i ≥ 1 then
    (densR x q ((i : K) * dr) * (dr * deltaZ - kk * deltaZ * deltaZ / 2 - deltaZ * b
        + dr * dr / kk * (((i : K) + 1/2) * ((i : K) + 1/2) - 1/4) * x.lg ((kk * deltaZ + b) / b)),
     densR x q (((i : K) + 1) * dr) * (kk * deltaZ * deltaZ / 2 + deltaZ * b + deltaZ * dr
        + dr * dr / kk * (1/4 - ((i : K) + 1/2) * ((i : K) + 1/2)) * x.lg ((kk * deltaZ + b) / b)))
  else
    (q / (2 * x.pi * dr / 4 * dr * dz * x.dt * dr) * (dr * deltaZ - kk * deltaZ * deltaZ / 2 - deltaZ * b),
     densR x q dr * (kk * deltaZ * deltaZ / 2 + deltaZ * dr + deltaZ * b))

/-- `simple_current_distribution`, `/repo/src/current/currentVB.cpp:22-173`: path inside one cell. -/
def simple (x : Ctx K) (rNew zNew rOld zOld : K) (i k : Int) (q : K) : List (Op K) :=
  if |rNew - rOld| < x.mnzl ∨ |zNew - zOld| < x.mnzl then [] else
    let is := i - x.g.r0
    let ks := k - x.g.z0
    let jz := simpleZ x rNew zNew rOld zOld i q
    let jr := simpleR x rNew zNew rOld zOld i k q
    [.inc .jz is ks jz.1, .inc .jz (is + 1) ks jz.2, .inc .jr is ks jr.1, .inc .jr is (ks + 1) jr.2]

/-- Path crossing one radial border, `/repo/src/current/currentVB.cpp:224-255`. -/
def crossR (x : Ctx K) (p : Part K) (i k : Int) : List (Op K) :=
  if p.rOld > ((i : K) + 1) * x.g.dr then
    let a := (p.rOld - p.r) / (p.zOld - p.z)
    let rb := ((i : K) + 1) * x.g.dr
    let zb := p.z + (rb - p.r) / a
    simple x rb zb p.rOld p.zOld (i + 1) k p.q ++ simple x p.r p.z rb zb i k p.q
  else
    let a := (p.r - p.rOld) / (p.z - p.zOld)
    let rb := (i : K) * x.g.dr
    let zb := p.zOld + (rb - p.rOld) / a
    simple x rb zb p.rOld p.zOld (i - 1) k p.q ++ simple x p.r p.z rb zb i k p.q

/-- Path crossing one axial border, `/repo/src/current/currentVB.cpp:257-279`. -/
def crossZ (x : Ctx K) (p : Part K) (i k : Int) : List (Op K) :=
  if p.zOld < (k : K) * x.g.dz then
    let zb := (k : K) * x.g.dz
    let a := (p.r - p.rOld) / (p.z - p.zOld)
    let rb := p.rOld + a * (zb - p.zOld)
    simple x rb zb p.rOld p.zOld i (k - 1) p.q ++ simple x p.r p.z rb zb i k p.q
  else
    let zb := ((k : K) + 1) * x.g.dz
    let a := (p.rOld - p.r) / (p.zOld - p.z)
    let rb := p.r + a * (zb - p.z)
    simple x rb zb p.rOld p.zOld i (k + 1) p.q ++ simple x p.r p.z rb zb i k p.q

/-- Path from the cell `(i-1, k-1)`, `/repo/src/current/currentVB.cpp:289-310`. -/
def crossUpRight (x : Ctx K) (p : Part K) (i k : Int) : List (Op K) :=
  let a := (p.r - p.rOld) / (p.z - p.zOld)
  let r1 := (i : K) * x.g.dr
  let z1 := p.zOld + (r1 - p.rOld) / a
  let z2 := (k : K) * x.g.dz
  let r2 := p.rOld + (z2 - p.zOld) * a
  if z1 < (k : K) * x.g.dz then
    simple x r1 z1 p.rOld p.zOld (i - 1) (k - 1) p.q ++ simple x r2 z2 r1 z1 i (k - 1) p.q ++
      simple x p.r p.z r2 z2 i k p.q
  else if z1 > (k : K) * x.g.dz then
    simple x r2 z2 p.rOld p.zOld (i - 1) (k - 1) p.q ++ simple x r1 z1 r2 z2 (i - 1) k p.q ++
      simple x p.r p.z r1 z1 i k p.q
  else []

/-- Path from the cell `(i-1, k+1)`, `/repo/src/current/currentVB.cpp:312-334`. -/
def crossUpLeft (x : Ctx K) (p : Part K) (i k : Int) : List (Op K) :=
  let a := (p.r - p.rOld) / (p.z - p.zOld)
  let r1 := (i : K) * x.g.dr
  let z1 := p.zOld + (r1 - p.rOld) / a
  let z2 := ((k : K) + 1) * x.g.dz
  let r2 := p.rOld + -(p.zOld - z2) * a
  if z1 > ((k : K) + 1) * x.g.dz then
    simple x r1 z1 p.rOld p.zOld (i - 1) (k + 1) p.q ++ simple x r2 z2 r1 z1 i (k + 1) p.q ++
      simple x p.r p.z r2 z2 i k p.q
  else if z1 < ((k : K) + 1) * x.g.dz then
    simple x r2 z2 p.rOld p.zOld (i - 1) (k + 1) p.q ++ simple x r1 z1 r2 z2 (i - 1) k p.q ++
      simple x p.r p.z r1 z1 i k p.q
  else []

/-- Path from the cell `(i+1, k-1)`, `/repo/src/current/currentVB.cpp:340-364`. -/
def crossDownRight (x : Ctx K) (p : Part K) (i k : Int) : List (Op K) :=
  let a := (p.r - p.rOld) / (p.z - p.zOld)
  let r1 := ((i : K) + 1) * x.g.dr
  let z1 := p.zOld + -(p.rOld - r1) / a
  let z2 := (k : K) * x.g.dz
  let r2 := p.rOld - -(z2 - p.zOld) * a
  if z1 < (k : K) * x.g.dz then
    simple x r1 z1 p.rOld p.zOld (i + 1) (k - 1) p.q ++ simple x r2 z2 r1 z1 i (k - 1) p.q ++
      simple x p.r p.z r2 z2 i k p.q
  else if z1 > (k : K) * x.g.dz then
    simple x r2 z2 p.rOld p.zOld (i + 1) (k - 1) p.q ++ simple x r1 z1 r2 z2 (i + 1) k p.q ++
      simple x p.r p.z r1 z1 i k p.q
  else []

/-- Path from the cell `(i+1, k+1)`, `/repo/src/current/currentVB.cpp:366-389`. -/
def crossDownLeft (x : Ctx K) (p : Part K) (i k : Int) : List (Op K) :=
  let a := (p.rOld - p.r) / (p.zOld - p.z)
  let r1 := ((i : K) + 1) * x.g.dr
  let z1 := p.z + (r1 - p.r) / a
  let z2 := ((k : K) + 1) * x.g.dz
  let r2 := p.r + (z2 - p.z) * a
  if z1 > ((k : K) + 1) * x.g.dz then
    simple x r1 z1 p.rOld p.zOld (i + 1) (k + 1) p.q ++ simple x r2 z2 r1 z1 i (k + 1) p.q ++
      simple x p.r p.z r2 z2 i k p.q
  else if z1 < ((k : K) + 1) * x.g.dz then
    simple x r2 z2 p.rOld p.zOld (i + 1) (k + 1) p.q ++ simple x r1 z1 r2 z2 (i + 1) k p.q ++
      simple x p.r p.z r1 z1 i k p.q
  else []

/-- Purely axial motion, `/repo/src/current/currentVB.cpp:524-610`. -/
def strictAxial (x : Ctx K) (rNew zNew zOld : K) (iN kN kO : Int) (q : K) : List (Op K) :=
  let dr := x.g.dr
  let dz := x.g.dz
  let is := iN - x.g.r0
  let ks := kN - x.g.z0
  let valuePart := 2 * x.pi * rNew * dr * dz
  let r1 := rNew - 1/2 * dr
  let r2 := ((iN : K) + 1/2) * dr
  let r3 := rNew + 1/2 * dr
  let lower := if iN = 0 then q / (x.dt * x.pi * dr * dr / 4) * x.pi * (r2 * r2 - r1 * r1) / valuePart
    else q / (x.dt * 2 * x.pi * (iN : K) * dr * dr) * x.pi * (r2 * r2 - r1 * r1) / valuePart
  let upper := q / (x.dt * 2 * x.pi * ((iN : K) + 1) * dr * dr) * x.pi * (r3 * r3 - r2 * r2) / valuePart
  [.set .jr is ks 0, .set .jr is (ks + 1) 0] ++
  (if kN - kO = 0 then
    let d := zNew - zOld
    [.inc .jz is ks (lower * d), .inc .jz (is + 1) ks (upper * d)]
  else if kN - kO = 1 then
    let d := (kN : K) * dz - zOld
    let d' := zNew - (kN : K) * dz
    [.inc .jz is (ks - 1) (lower * d), .inc .jz (is + 1) (ks - 1) (upper * d),
     .inc .jz is ks (lower * d'), .inc .jz (is + 1) ks (upper * d')]
  else if kN - kO = -1 then
    let d := ((kN : K) + 1) * dz - zOld
    let d' := zNew - ((kN : K) + 1) * dz
    [.inc .jz is (ks + 1) (lower * d), .inc .jz (is + 1) (ks + 1) (upper * d),
     .inc .jz is ks (lower * d'), .inc .jz (is + 1) ks (upper * d')]
  else [])

/-- The bracket of purely radial motion inside a cell, e.g. `/repo/src/current/currentVB.cpp:630-634`. -/
def radialBracket (dr r0 deltaR from_ : K) : K :=
  deltaR - r0 * r0 / (from_ + deltaR) + r0 * r0 / from_ + dr * dr / (4 * (from_ + deltaR)) - dr * dr / (4 * from_)

/-- The bracket of the second piece, `/repo/src/current/currentVB.cpp:672-675` and `713-716`: here
`r0 * r0 / n * dr` stands for the intended `r0 * r0 / (n * dr)`. -/
def radialBracket2 (dr r0 deltaR n : K) : K :=
  deltaR - r0 * r0 / (n * dr + deltaR) + r0 * r0 / n * dr + dr * dr / (4 * (n * dr + deltaR))
    - dr * dr / (4 * n * dr)

/-- Purely radial motion, `/repo/src/current/currentVB.cpp:613-728`. -/
def strictRadial (x : Ctx K) (rNew zNew rOld : K) (iN iO kN : Int) (q : K) : List (Op K) :=
  let dr := x.g.dr
  let dz := x.g.dz
  let is := iN - x.g.r0
  let ks := kN - x.g.z0
  let left := ((kN : K) + 1) * dz - zNew
  let right := zNew - (kN : K) * dz
  if iN - iO = 0 then
    let r0 := ((iN : K) + 1/2) * dr
    let w := densStrict x q r0 * radialBracket dr r0 (rNew - rOld) rOld
    [.inc .jr is ks (w * left), .inc .jr is (ks + 1) (w * right)]
  else if iN - iO = 1 then
    let r0 := ((iN : K) - 1/2) * dr
    let w := densStrict x q r0 * radialBracket dr r0 ((iN : K) * dr - rOld) rOld
    let r0' := ((iN : K) + 1/2) * dr
    let w' := densStrict x q r0' * radialBracket2 dr r0' (rNew - (iN : K) * dr) iN
    [.inc .jr (is - 1) ks (w * left), .inc .jr (is - 1) (ks + 1) (w * right),
     .inc .jr is ks (w' * left), .inc .jr is (ks + 1) (w' * right)]
  else if iN - iO = -1 then
    let r0 := ((iN : K) + 3/2) * dr
    let w := densStrict x q r0 * radialBracket dr r0 (((iN : K) + 1) * dr - rOld) rOld
    let r0' := ((iN : K) + 1/2) * dr
    let w' := densStrict x q r0' * radialBracket2 dr r0' (rNew - ((iN : K) + 1) * dr) ((iN : K) + 1)
    [.inc .jr (is + 1) ks (w * left), .inc .jr (is + 1) (ks + 1) (w * right),
     .inc .jr is ks (w' * left), .inc .jr is (ks + 1) (w' * right)]
  else []

/-- `strict_motion_distribution`, `/repo/src/current/currentVB.cpp:500-729`. -/
def strictMotion (x : Ctx K) (rNew zNew rOld zOld q : K) : Res (List (Op K)) :=
  cellNumber rNew x.g.dr >>= fun iN =>
  cellNumber zNew x.g.dz >>= fun kN =>
  cellNumber rOld x.g.dr >>= fun iO =>
  cellNumber zOld x.g.dz >>= fun kO =>
  .ok (if |rNew - rOld| < x.mnzl ∧ |zNew - zOld| < x.mnzl then []
    else if |rNew - rOld| < x.mnzl then strictAxial x rNew zNew zOld iN kN kO q
    else if |zNew - zOld| < x.mnzl then strictRadial x rNew zNew rOld iN iO kN q
    else [])

/-- The `switch` over the kinds of motion, `/repo/src/current/currentVB.cpp:212-393`. -/
def switchOps (x : Ctx K) (p : Part K) (iN kN iO kO : Int) : List (Op K) :=
  let res := (iN - iO).natAbs + (kN - kO).natAbs
  if res = 0 then simple x p.r p.z p.rOld p.zOld iN kN p.q
  else if res = 1 then
    if iN ≠ iO ∧ kN = kO then crossR x p iN kN
    else if iN = iO ∧ kN ≠ kO then crossZ x p iN kN
    else []
  else if res = 2 then
    if iO < iN then
      if kO < kN then crossUpRight x p iN kN else crossUpLeft x p iN kN
    else if iO > iN then
      if kO < kN then crossDownRight x p iN kN else if kO > kN then crossDownLeft x p iN kN else []
    else []
  else []

/-- Body of the particle loop of `rz_current_distribution`, `/repo/src/current/currentVB.cpp:185-394`.
The first test at line 199 really checks the radial jump twice; logging has no effect on the
grids. -/
def rzOps (x : Ctx K) (p : Part K) : Res (List (Op K)) :=
  cellNumber p.rOld x.g.dr >>= fun iO =>
  cellNumber p.zOld x.g.dz >>= fun kO =>
  let iN := p.cellR
  let kN := p.cellZ
  let iO := if p.rOld = ((iO : K) + 1) * x.g.dr then iN else iO
  let kO := if p.zOld = ((kO : K) + 1) * x.g.dz then kN else kO
  let iN := if p.r = ((iN : K) + 1) * x.g.dr then iO else iN
  let kN := if p.z = ((kN : K) + 1) * x.g.dz then kO else kN
  if (iN - iO).natAbs > 1 ∨ (iN - iO).natAbs > 1 then .ok []
  else if |p.r - p.rOld| < x.mnzl ∨ |p.z - p.zOld| < x.mnzl then
    strictMotion x p.r p.z p.rOld p.zOld p.q
  else .ok (switchOps x p iN kN iO kO)

/-- Body of the particle loop of `azimuthal_current_distribution`,
`/repo/src/current/currentVB.cpp:407-497` (both branches have the same text). -/
def azimuthalOps (x : Ctx K) (p : Part K) : List (Op K) :=
  let dr := x.g.dr
  let dz := x.g.dz
  let i := p.cellR
  let k := p.cellZ
  let v1 := cellVolume x.pi (i : K) dr dz
  let v2 := cellVolumeNext x.pi (i : K) dr dz
  let is := i - x.g.r0
  let ks := k - x.g.z0
  let posR := (p.r + p.rOld) / 2
  let posZ := (p.z + p.zOld) / 2
  let r1 := posR - 1/2 * dr
  let r2 := ((i : K) + 1/2) * dr
  let r3 := posR + 1/2 * dr
  let ro := p.q / (2 * x.pi * dz * dr * posR)
  let dz1 := ((k : K) + 1/2) * dz - (posZ - 1/2 * dz)
  let dz2 := (posZ + 1/2 * dz) - ((k : K) + 1/2) * dz
  [.inc .jp is ks (ro * cylRngVol x.pi dz1 r1 r2 / v1 * p.vphi),
   .inc .jp (is + 1) ks (ro * cylRngVol x.pi dz1 r2 r3 / v2 * p.vphi),
   .inc .jp is (ks + 1) (ro * cylRngVol x.pi dz2 r1 r2 / v1 * p.vphi),
   .inc .jp (is + 1) (ks + 1) (ro * cylRngVol x.pi dz2 r2 r3 / v2 * p.vphi)]

/-- `current.overlay_set(0)`. -/
def overlayClear (g : Geom K) (m : Mem K) : Mem K := fun c i k =>
  if (c = .jr ∨ c = .jp ∨ c = .jz) ∧ insideG g i k ∧ ¬ ((0 ≤ i ∧ i < g.nr) ∧ (0 ≤ k ∧ k < g.nz)) then 0
  else m c i k

/-- `azimuthal_current_distribution`, `/repo/src/current/currentVB.cpp:398-498`; `ps` lists the
particles of all species one species after the other. -/
def azimuthal (x : Ctx K) (ps : List (Part K)) (m : Mem K) : Res (Mem K) :=
  loop (fun p m => runOps x.g (azimuthalOps x p) m) ps (overlayClear x.g m)

/-- One turn of the particle loop of `rz_current_distribution`,
`/repo/src/current/currentVB.cpp:185-394`. -/
def rzParticle (x : Ctx K) (p : Part K) (m : Mem K) : Res (Mem K) :=
  rzOps x p >>= fun ops => runOps x.g ops m

/-- `rz_current_distribution`, `/repo/src/current/currentVB.cpp:175-396`. -/
def rz (x : Ctx K) (ps : List (Part K)) (m : Mem K) : Res (Mem K) :=
  loop (rzParticle x) ps (overlayClear x.g m)

/-- `current_distribution`, `/repo/src/current/currentVB.cpp:731-735`. -/
def currentDistribution (x : Ctx K) (ps : List (Part K)) (m : Mem K) : Res (Mem K) :=
  azimuthal x ps m >>= rz x ps

/-- `Domain::reset_current`, `/repo/src/domain.cpp:135-139`: zero in all cells and in the overlay. -/
def resetCurrent (g : Geom K) (m : Mem K) : Mem K := fun c i k =>
  if (c = .jr ∨ c = .jp ∨ c = .jz) ∧ insideG g i k then 0 else m c i k

end
end VB
end Pico
