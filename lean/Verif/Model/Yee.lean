import Verif.Model.SMB
import Mathlib.Algebra.Field.Defs
import Mathlib.Order.Defs.LinearOrder

/-!
# The Yee field solver  (`/repo/src/maxwellSolver/maxwellSolverYee.cpp`)

All grids of the solver have `cell_amount` logical cells and an overlay of width 2
(`/repo/include/maxwellSolver.hpp:51-69`, `maxwellSolverYee.cpp:27`).  By C01 such a grid behaves as
an array indexed by logical indices from `-2` to `size + 1` with undefined behaviour outside; that is
how it is represented here.  A memory assigns a value to every component and logical index.
-/

namespace Pico
namespace Yee

/-- The component grids: `field_e`, `field_h_at_et`, `field_h`, `current`, `epsilon`, `sigma`. -/
inductive Comp where
  | er | ep | ez | hr | hp | hz | fr | fp | fz | jr | jp | jz | eps | sig
  deriving DecidableEq, Repr

/-- Contents of all grids. -/
abbrev Mem (K : Type _) := Comp → Int → Int → K

/-- What the solver reads from `Geometry` and `TimeSim`: `cell_size`, `cell_dims[0]`,
`cell_amount`, `walls`, `time->step`; and `MAGN_CONST`. -/
structure Par (K : Type _) where
  dr : K
  dz : K
  dt : K
  mu : K
  r0 : Nat
  nr : Nat
  nz : Nat
  walls : SMB.Walls

variable {K : Type _}

/-- Index inside the allocated grids (overlay width 2). -/
def Par.inside (p : Par K) (i k : Int) : Prop :=
  (-2 ≤ i ∧ i < p.nr + 2) ∧ (-2 ≤ k ∧ k < p.nz + 2)

instance (p : Par K) (i k : Int) : Decidable (p.inside i k) := by unfold Par.inside; infer_instance

/-- Logical, i.e. non overlay cell. -/
def Par.logical (p : Par K) (i k : Int) : Prop := (0 ≤ i ∧ i < p.nr) ∧ (0 ≤ k ∧ k < p.nz)

instance (p : Par K) (i k : Int) : Decidable (p.logical i k) := by unfold Par.logical; infer_instance

/-- Update of one location. -/
def put (m : Mem K) (c : Comp) (i k : Int) (v : K) : Mem K :=
  fun c' i' k' => if c' = c ∧ i' = i ∧ k' = k then v else m c' i' k'

/-- Read access. -/
def rd (p : Par K) (m : Mem K) (c : Comp) (i k : Int) : Res K :=
  if p.inside i k then .ok (m c i k) else .ub

/-- Read-modify-write access (`set`, `inc`, `dec`, `m_a`). -/
def upd (p : Par K) (m : Mem K) (c : Comp) (i k : Int) (f : K → K) : Res (Mem K) :=
  if p.inside i k then .ok (put m c i k (f (m c i k))) else .ub

/-- `overlay_set(0)` for a `Grid3D` (see C02). -/
def overlay0 [Zero K] (p : Par K) (cs : List Comp) (m : Mem K) : Mem K :=
  fun c i k => if c ∈ cs ∧ p.inside i k ∧ ¬ p.logical i k then 0 else m c i k

/-- `r_begin`, `z_begin`, `/repo/src/maxwellSolver/maxwellSolverYee.cpp:32-40`. -/
def begin_ (wall : Bool) : Nat := if wall then 1 else 0

/-- `r_end`, `z_end`, `/repo/src/maxwellSolver/maxwellSolverYee.cpp:42-50`: `unsigned int`
subtraction. -/
def end_ (wall : Bool) (n : Nat) : Nat := if wall then (n + (2 ^ 32 - 1)) % 2 ^ 32 else n

section
variable [Field K]

/-- Loop body of the outer wall, `/repo/src/maxwellSolver/maxwellSolverYee.cpp:122-130`. -/
def hWallBody (p : Par K) (k : Nat) (m : Mem K) : Res (Mem K) :=
  let i : Int := (p.nr : Int) - 1
  rd p m .ep i (k + 1) >>= fun e1 =>
  rd p m .ep i k >>= fun e0 =>
  let a := p.dt * (e1 - e0) / (p.dz * p.mu)
  rd p m .hr i k >>= fun h =>
  upd p m .fr i k (fun _ => h + a / 2) >>= fun m =>
  upd p m .hr i k (· + a)

/-- Body of the regular loop, `/repo/src/maxwellSolver/maxwellSolverYee.cpp:135-158`. -/
def hBody (p : Par K) (q : Nat × Nat) (m : Mem K) : Res (Mem K) :=
  let i : Int := q.1
  let k : Int := q.2
  rd p m .ep i (k + 1) >>= fun ep01 =>
  rd p m .ep i k >>= fun ep00 =>
  let ar := p.dt * (ep01 - ep00) / (p.dz * p.mu)
  rd p m .hr i k >>= fun h =>
  upd p m .fr i k (fun _ => h + ar / 2) >>= fun m =>
  upd p m .hr i k (· + ar) >>= fun m =>
  rd p m .ez (i + 1) k >>= fun ez10 =>
  rd p m .ez i k >>= fun ez00 =>
  rd p m .er i (k + 1) >>= fun er01 =>
  rd p m .er i k >>= fun er00 =>
  let ap := p.dt * ((ez10 - ez00) / p.dr - (er01 - er00) / p.dz) / p.mu
  rd p m .hp i k >>= fun h =>
  upd p m .fp i k (fun _ => h + ap / 2) >>= fun m =>
  upd p m .hp i k (· + ap) >>= fun m =>
  rd p m .ep (i + 1) k >>= fun ep10 =>
  rd p m .ep i k >>= fun ep00 =>
  let az := p.dt * ((ep10 + ep00) / (2 * p.dr * ((q.1 : K) + 1/2 + p.r0)) + (ep10 - ep00) / p.dr) / p.mu
  rd p m .hz i k >>= fun h =>
  upd p m .fz i k (fun _ => h - az / 2) >>= fun m =>
  upd p m .hz i k (· - az)

/-- `calc_field_h`, `/repo/src/maxwellSolver/maxwellSolverYee.cpp:111-159`. -/
def calcH (p : Par K) (m : Mem K) : Res (Mem K) :=
  let m := overlay0 p [.fr, .fp, .fz] m
  let m := overlay0 p [.hr, .hp, .hz] m
  (if p.walls.rr then loop (hWallBody p) (List.range' 0 p.nz) m else .ok m) >>= fun m =>
  loop (hBody p) (idx2 0 p.nr 0 p.nz) m

/-- `koef_e`, `/repo/src/maxwellSolver/maxwellSolverYee.cpp:183,209,232` (`ENABLE_PML` defined). -/
def koefE (p : Par K) (eps sig : K) : K := (2 * eps - sig * p.dt) / (2 * eps + sig * p.dt)
/-- `koef_h`, same lines + 1. -/
def koefH (p : Par K) (eps sig : K) : K := 2 * p.dt / (2 * eps + sig * p.dt)

/-- `m_a(i, k, koef_e)` followed by `dec(i, k, x * koef_h)`. -/
def relax (p : Par K) (m : Mem K) (c : Comp) (i k : Int) (ke kh x : K) : Res (Mem K) :=
  upd p m c i k (· * ke) >>= fun m => upd p m c i k (· - x * kh)

/-- Loop body at the axis, `/repo/src/maxwellSolver/maxwellSolverYee.cpp:173-194`. -/
def eAxisBody (p : Par K) (kk : Nat) (m : Mem K) : Res (Mem K) :=
  let i : Int := 0
  let k : Int := kk
  rd p m .eps i k >>= fun eps =>
  rd p m .sig i k >>= fun sig =>
  rd p m .jr i k >>= fun jr =>
  rd p m .hp i k >>= fun hp00 =>
  rd p m .hp i (k - 1) >>= fun hp0m =>
  relax p m .er i k (koefE p eps sig) (koefH p eps sig) (jr + (hp00 - hp0m) / p.dz) >>= fun m =>
  rd p m .jz i k >>= fun jz =>
  rd p m .hp i k >>= fun hp00 =>
  relax p m .ez i k (koefE p eps sig) (koefH p eps sig) (jz - hp00 * 4 / p.dr)

/-- The E_z update used at the left wall and in the regular loop,
`/repo/src/maxwellSolver/maxwellSolverYee.cpp:212-217` and `246-251`. -/
def ezPart (p : Par K) (ii kk : Nat) (eps sig : K) (m : Mem K) : Res (Mem K) :=
  let i : Int := ii
  let k : Int := kk
  rd p m .jz i k >>= fun jz =>
  rd p m .hp i k >>= fun hp00 =>
  rd p m .hp (i - 1) k >>= fun hpm0 =>
  relax p m .ez i k (koefE p eps sig) (koefH p eps sig)
    (jz - (hp00 - hpm0) / p.dr - (hp00 + hpm0) / (2 * p.dr * ((ii : K) + p.r0)))

/-- Loop body at the left wall, `/repo/src/maxwellSolver/maxwellSolverYee.cpp:199-218`. -/
def eLeftBody (p : Par K) (ii : Nat) (m : Mem K) : Res (Mem K) :=
  rd p m .eps ii 0 >>= fun eps =>
  rd p m .sig ii 0 >>= fun sig =>
  ezPart p ii 0 eps sig m

/-- Body of the regular loop, `/repo/src/maxwellSolver/maxwellSolverYee.cpp:223-256`.  The
`isnan` check is not modelled (no NaN in a field); the division at line 251 has divisor
`2 dr (i + cell_dims[0])`, which the theorems require to be non-zero. -/
def eBody (p : Par K) (q : Nat × Nat) (m : Mem K) : Res (Mem K) :=
  let i : Int := q.1
  let k : Int := q.2
  rd p m .eps i k >>= fun eps =>
  rd p m .sig i k >>= fun sig =>
  rd p m .jr i k >>= fun jr =>
  rd p m .hp i k >>= fun hp00 =>
  rd p m .hp i (k - 1) >>= fun hp0m =>
  relax p m .er i k (koefE p eps sig) (koefH p eps sig) (jr + (hp00 - hp0m) / p.dz) >>= fun m =>
  rd p m .jp i k >>= fun jp =>
  rd p m .hr i k >>= fun hr00 =>
  rd p m .hr i (k - 1) >>= fun hr0m =>
  rd p m .hz i k >>= fun hz00 =>
  rd p m .hz (i - 1) k >>= fun hzm0 =>
  relax p m .ep i k (koefE p eps sig) (koefH p eps sig)
    (jp - (hr00 - hr0m) / p.dz + (hz00 - hzm0) / p.dr) >>= fun m =>
  ezPart p q.1 q.2 eps sig m

/-- `calc_field_e`, `/repo/src/maxwellSolver/maxwellSolverYee.cpp:161-257`. -/
def calcE (p : Par K) (m : Mem K) : Res (Mem K) :=
  let rb := begin_ p.walls.r0
  let zb := begin_ p.walls.z0
  let re := end_ p.walls.rr p.nr
  let ze := end_ p.walls.zz p.nz
  let m := overlay0 p [.er, .ep, .ez] m
  (if p.walls.r0 then loop (eAxisBody p) (List.range' zb (ze - zb)) m else .ok m) >>= fun m =>
  (if p.walls.z0 then loop (eLeftBody p) (List.range' rb (re - rb)) m else .ok m) >>= fun m =>
  loop (eBody p) (idx2 rb re zb ze) m

end

/-! ## Absorbing layers -/

/-- What `set_pml` reads: `pml_size[1..3]`, `pml_sigma`, `global_size`, `global_cell_amount`,
`cell_dims[0..1]`. -/
structure Pml (K : Type _) where
  left : Nat
  outer : Nat
  right : Nat
  s0 : K
  s1 : K
  sizeR : K
  sizeZ : K
  gnr : Nat
  gnz : Nat
  r0 : Nat
  z0 : Nat

section
variable [Field K] [LinearOrder K]

/-- `dist_x_to_end`/`dist_y_to_end`, `/repo/include/geometry.hpp:103-115`: `size_t` (64 bit)
differences. -/
def distToEnd (global off cell : Nat) (h : K) : K :=
  ((((global : Int) - off - cell) % 2 ^ 64).toNat : K) * h

/-- Contribution of the outer wall layer to `sigma(i, k)`,
`/repo/src/maxwellSolver/maxwellSolverYee.cpp:75-85`. -/
def sigOuter (p : Par K) (q : Pml K) (i : Nat) : K :=
  if q.outer ≠ 0 ∧ distToEnd q.gnr q.r0 i p.dr < p.dr * q.outer then
    q.s0 + (q.s1 - q.s0) / (p.dr * q.outer) ^ 2 *
      (p.dr * ((i : K) + 1) + q.r0 * p.dr - q.sizeR + p.dr * q.outer) ^ 2
  else 0

/-- Contribution of the left layer, `/repo/src/maxwellSolver/maxwellSolverYee.cpp:87-96`. -/
def sigLeft (p : Par K) (q : Pml K) (k : Nat) : K :=
  if q.left ≠ 0 ∧ p.dz * k + q.z0 * p.dz < p.dz * q.left then
    q.s0 + (q.s1 - q.s0) / (p.dz * q.left) ^ 2 * (p.dz * q.left - p.dz * k - q.z0 * p.dz) ^ 2
  else 0

/-- Contribution of the right layer, `/repo/src/maxwellSolver/maxwellSolverYee.cpp:98-108`. -/
def sigRight (p : Par K) (q : Pml K) (k : Nat) : K :=
  if q.right ≠ 0 ∧ distToEnd q.gnz q.z0 k p.dz < p.dz * q.right then
    q.s0 + (q.s1 - q.s0) / (p.dz * q.right) ^ 2 *
      (p.dz * ((k : K) + 1) + q.z0 * p.dz - q.sizeZ + p.dz * q.right) ^ 2
  else 0

/-- One of the three loops of `set_pml`: every logical cell gets `sigma.inc` of its contribution
(adding 0 where the code does not call `inc`). -/
def pmlLoop (p : Par K) (c : Nat × Nat → K) (m : Mem K) : Res (Mem K) :=
  loop (fun q m => upd p m .sig q.1 q.2 (· + c q)) (idx2 0 p.nr 0 p.nz) m

/-- `set_pml`, `/repo/src/maxwellSolver/maxwellSolverYee.cpp:57-109`.  The second and third loop
nest visits the cells column by column; the visits are independent, the order of `idx2` is used. -/
def setPml (p : Par K) (q : Pml K) (m : Mem K) : Res (Mem K) :=
  pmlLoop p (fun c => sigOuter p q c.1) m >>= fun m =>
  pmlLoop p (fun c => sigLeft p q c.2) m >>= fun m =>
  pmlLoop p (fun c => sigRight p q c.2) m

end

end Yee
end Pico
