import Verif.Model.Yee

/-!
# The field step of a process that is divided into domains  (`/repo/src/SMB.cpp`)

Every domain owns a field solver; `SMB::solve_maxvell` advances the solvers and exchanges their overlays.
-/

namespace Pico
namespace Yee

open SMB

variable {K : Type _}

/-- The memories of the field solvers of all domains, `domains(i, j)->maxwell_solver`. -/
abbrev Solvers (K : Type _) := Nat → Nat → Mem K

/-- Process geometry as `SMB::SMB` reads it, for the area of `p` divided into `domR × domZ` domains
(`/repo/src/SMB.cpp:42-81`).  No absorbing layers; they only enter through `sigma`. -/
def geoOf (p : Par K) (domR domZ : Nat) : Geo :=
  ⟨p.nr, p.nz, p.r0, 0, domR, domZ, p.walls, p.nr, p.nz, 0, 0, 0⟩

/-- Parameters of the solver of domain `(i, j)`, `/repo/src/SMB.cpp:53-123`: its cell rectangle, its cell size (size of
the area divided by the number of domains and by the number of cells of the domain) and its walls. -/
def domPar [Field K] (p : Par K) (domR domZ i j : Nat) : Par K :=
  let d := domDims (geoOf p domR domZ) i j
  ⟨domCellSize (p.dr * p.nr) p.nr domR i, domCellSize (p.dz * p.nz) p.nz domZ j, p.dt, p.mu, d.r0, d.r1 - d.r0, d.z1 - d.z0, domWalls (geoOf p domR domZ) i j⟩

/-- A component grid of one solver with its overlay of width 2 (`/repo/include/maxwellSolver.hpp:51-69`). -/
def toGrid (p : Par K) (m : Mem K) (c : Comp) : Grid K :=
  ⟨2, p.nr, p.nz, fun a b => m c ((a : Int) - 2) ((b : Int) - 2)⟩

/-- The memory of a solver with one component grid replaced. -/
def ofGrid (p : Par K) (m : Mem K) (c : Comp) (g : Grid K) : Mem K := fun c' x y =>
  if c' = c ∧ p.inside x y then g.cell (x + 2).toNat (y + 2).toNat else m c' x y

/-- One component of `field_e_overlay`/`field_h_overlay`, `/repo/src/SMB.cpp:784-823,1010-1044`.  The code exchanges
all components at one pair of domains before it goes to the next pair; the exchanges of different components touch
different grids, so each component is passed over on its own here. -/
def overlayComp [Add K] (P : Nat → Nat → Par K) (domR domZ : Nat) (c : Comp) (M : Solvers K) : Res (Solvers K) :=
  overlayPass domR domZ (fun i j => toGrid (P i j) (M i j) c) >>= fun D =>
  .ok (fun i j => ofGrid (P i j) (M i j) c (D i j))

/-- `domains(i, j)->…()` for every domain, `/repo/src/SMB.cpp:1234-1240,1244-1251` (the domains are independent; one
order of the parallel loop). -/
def each (domR domZ : Nat) (f : Nat → Nat → Mem K → Res (Mem K)) (M : Solvers K) : Res (Solvers K) :=
  loop (fun q M => f q.1 q.2 (M q.1 q.2) >>= fun m => .ok (fun i j => if i = q.1 ∧ j = q.2 then m else M i j))
    (idx2 0 domR 0 domZ) M

/-- `SMB::solve_maxvell` of one process, `/repo/src/SMB.cpp:1231-1252`: electric step, exchange of E, magnetic step,
exchange of H and of H at the time of E.  Without MPI; the external fields (lines 1254-1263) have grids of their own. -/
def solveMaxwell [Field K] (P : Nat → Nat → Par K) (domR domZ : Nat) (M : Solvers K) : Res (Solvers K) :=
  each domR domZ (fun i j => calcE (P i j)) M >>= fun M =>
  loop (overlayComp P domR domZ) [.er, .ep, .ez] M >>= fun M =>
  each domR domZ (fun i j => calcH (P i j)) M >>= fun M =>
  loop (overlayComp P domR domZ) [.hr, .hp, .hz, .fr, .fp, .fz] M

/-- The components that are not fields: currents and media. -/
def Comp.isSource : Comp → Bool
  | .jr | .jp | .jz | .eps | .sig => true
  | _ => false

/-- The state of a solver after the currents have been deposited (and the media set). -/
def setSources (J : Comp → Int → Int → K) (m : Mem K) : Mem K := fun c x y => if c.isSource then J c x y else m c x y

/-- `n` steps of the divided simulation, the currents of step `t` being `loc t i j`. -/
def dividedRun [Field K] (P : Nat → Nat → Par K) (domR domZ : Nat) (loc : Nat → Nat → Nat → Comp → Int → Int → K) :
    Nat → Res (Solvers K)
  | 0 => .ok fun _ _ _ _ _ => 0
  | t + 1 => dividedRun P domR domZ loc t >>= fun M => solveMaxwell P domR domZ (fun i j => setSources (loc t i j) (M i j))

/-- `n` steps with a single domain, the currents of step `t` being `src t`. -/
def wholeRun [Field K] (p : Par K) (src : Nat → Comp → Int → Int → K) : Nat → Res (Mem K)
  | 0 => .ok fun _ _ _ => 0
  | t + 1 => wholeRun p src t >>= fun m => calcE p (setSources (src t) m) >>= calcH p

end Yee
end Pico
