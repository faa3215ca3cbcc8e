import Verif.Model.FieldStep
import Verif.Model.CurrentZigZag

/-!
# The current step of a process that is divided into domains  (`/repo/src/SMB.cpp`)

Every domain owns its current grids and its particles; `SMB::solve_current` deposits the currents of the particles of every
domain and exchanges the overlays.
-/

namespace Pico
namespace Yee

open SMB VB

variable {K : Type _}

/-- What the depositions read besides the geometry and the time step: `constant::PI`, `constant::MNZL` and the C function
`log`. -/
structure Consts (K : Type _) where
  pi : K
  mnzl : K
  lg : K → K

/-- Surroundings of the deposition in an area with parameters `p` that starts at column `z0`, `/repo/include/current.hpp:39-51`. -/
def ctxOf (p : Par K) (z0 : Nat) (e : Consts K) : Ctx K := ⟨⟨p.dr, p.dz, p.r0, z0, p.nr, p.nz⟩, p.dt, e.pi, e.mnzl, e.lg⟩

/-- Surroundings of the deposition in domain `(i, j)`, `/repo/src/SMB.cpp:73-123`: its cell size and its cell rectangle. -/
def domCtx [Field K] (p : Par K) (domR domZ : Nat) (e : Consts K) (i j : Nat) : Ctx K :=
  ctxOf (domPar p domR domZ i j) (domDims (geoOf p domR domZ) i j).z0 e

/-- `SMB::solve_current` of one process, `/repo/src/SMB.cpp:1266-1279` with `Domain::reset_current` and
`Domain::weight_current` (`/repo/src/domain.cpp:135-139,188-191`) and the exchange between the domains
(`/repo/src/SMB.cpp:565-593`).  `dist` is the deposition scheme that was chosen when the code was compiled
(`/repo/src/domain.cpp:38-42`), `ps i j` are the particles of domain `(i, j)`. -/
def solveCurrent [Field K] [LinearOrder K] [IsStrictOrderedRing K] [FloorRing K]
    (dist : Ctx K → List (Part K) → Mem K → Res (Mem K)) (p : Par K) (domR domZ : Nat) (e : Consts K)
    (ps : Nat → Nat → List (Part K)) (M : Solvers K) : Res (Solvers K) :=
  each domR domZ (fun i j m => dist (domCtx p domR domZ e i j) (ps i j) (resetCurrent (domCtx p domR domZ e i j).g m)) M >>=
    loop (overlayComp (domPar p domR domZ) domR domZ) [.jr, .jp, .jz]

end Yee
end Pico
