import Verif.Model.Yee

/-!
# External fields  (`/repo/src/maxwellSolver/externalFields.cpp`)

The object has its own field grids, of which the pushers read `field_e` and `field_h` (components `er`, `ep`, `ez`,
`fr`, `fp`, `fz` of a memory of its own).
-/

namespace Pico
namespace Ext

open Yee

variable {K : Type _} [Field K]

/-- Choice of the electric profile, `/repo/src/maxwellSolver/externalFields.cpp:51-64`.  `a.compare(b)` is
zero, i.e. false, exactly if the strings are equal. -/
def eProfile (s : String) : Res Nat :=
  if s ≠ "none" then .ok 0
  else if s ≠ "const_r" then .ok 1
  else if s ≠ "const_phi" then .ok 2
  else if s ≠ "const_z" then .ok 3
  else if s ≠ "linerad_r" then .ok 4
  else if s ≠ "linerad_z" then .ok 5
  else .fatal

/-- Choice of the magnetic profile, `/repo/src/maxwellSolver/externalFields.cpp:66-79`. -/
def mProfile (s : String) : Res Nat :=
  if s = "none" then .ok 0
  else if s = "const_r" then .ok 1
  else if s = "const_phi" then .ok 2
  else if s = "const_z" then .ok 3
  else if s = "linerad_r" then .ok 4
  else if s = "linerad_z" then .ok 5
  else .fatal

/-- State of the object besides its grids: `e_profile_enum`, `m_profile_enum`, `e_field_params`, `m_field_params`,
`/repo/include/maxwellSolver/externalFields.hpp:38-49`. -/
structure Obj (K : Type _) where
  e : Nat
  m : Nat
  ePar : List K
  mPar : List K

/-- The constructor, `/repo/src/maxwellSolver/externalFields.cpp:22-87`, without the damping layer, which has no
effect on what the object produces; the borders of the loops are in `homZ`. -/
def construct (el mag : String) (ePar mPar : List K) : Res (Obj K) :=
  eProfile el >>= fun e => mProfile mag >>= fun m => .ok ⟨e, m, ePar, mPar⟩

/-- The grids after construction are zero, `/repo/include/maxwellSolver.hpp:44-62`. -/
def mem0 : Mem K := fun _ _ _ => 0

/-- `field = 0; field.overlay_set(0);` for a `Grid3D` (see C02). -/
def clear (p : Par K) (cs : List Comp) (m : Mem K) : Mem K :=
  fun c i k => if c ∈ cs ∧ p.inside i k then 0 else m c i k

/-- `set(i, k, v)` for some component grids in turn. -/
def setAll (p : Par K) (vs : List (Comp × K)) (i k : Nat) (m : Mem K) : Res (Mem K) :=
  loop (fun (v : Comp × K) m => upd p m v.1 i k (fun _ => v.2)) vs m

/-- The loops of `set_el_field_homogenous_z`, `/repo/src/maxwellSolver/externalFields.cpp:246-278`, and of
`set_magn_field_homogenous_z`, `294-326`: axis, left wall, regular case (the coefficients computed there are not
used). -/
def homZ (p : Par K) (cr cp cz : Comp) (a : K) (m : Mem K) : Res (Mem K) :=
  let rb := begin_ p.walls.r0
  let zb := begin_ p.walls.z0
  let re := end_ p.walls.rr p.nr
  let ze := end_ p.walls.zz p.nz
  (if p.walls.r0 then loop (fun k m => setAll p [(cr, 0), (cz, 0)] 0 k m) (List.range' zb (ze - zb)) m else .ok m) >>= fun m =>
  (if p.walls.z0 then loop (fun i m => setAll p [(cz, 0)] i 0 m) (List.range' rb (re - rb)) m else .ok m) >>= fun m =>
  loop (fun (q : Nat × Nat) m => setAll p [(cr, 0), (cp, 0), (cz, a)] q.1 q.2 m) (idx2 rb re zb ze) m

/-- `params[0]`: undefined behaviour for an empty vector. -/
def first (l : List K) : Res K := match l with | [] => .ub | a :: _ => .ok a

/-- `set_el_field_homogenous_z`, `/repo/src/maxwellSolver/externalFields.cpp:230-278`. -/
def setEl (p : Par K) (par : List K) (m : Mem K) : Res (Mem K) :=
  first par >>= fun a => homZ p .er .ep .ez a (clear p [.er, .ep, .ez] (clear p [.fr, .fp, .fz] m))

/-- `set_magn_field_homogenous_z`, `/repo/src/maxwellSolver/externalFields.cpp:280-326`. -/
def setMagn (p : Par K) (par : List K) (m : Mem K) : Res (Mem K) :=
  first par >>= fun a => homZ p .fr .fp .fz a (clear p [.fr, .fp, .fz] (clear p [.er, .ep, .ez] m))

/-- `operator()`, `/repo/src/maxwellSolver/externalFields.cpp:328-410`. -/
def apply (p : Par K) (o : Obj K) (m : Mem K) : Res (Mem K) :=
  (match o.e with
   | 0 => .ok m
   | 1 => .ok m
   | 2 => .ok m
   | 3 => setEl p o.ePar m
   | 4 => .ok m
   | 5 => .ok m
   | _ => .fatal) >>= fun m =>
  match o.m with
  | 0 => .ok m
  | 1 => .ok m
  | 2 => .ok m
  | 3 => setMagn p o.mPar m
  | 4 => .ok m
  | 5 => .ok m
  | _ => .fatal

/-- The fields after `n` steps of the simulation: constructor, then `apply_external_fields` once per step
(`/repo/src/SMB.cpp:1261`). -/
def run (p : Par K) (el mag : String) (ePar mPar : List K) (n : Nat) : Res (Mem K) :=
  construct el mag ePar mPar >>= fun o => loop (fun _ m => apply p o m) (List.range n) mem0

end Ext
end Pico
