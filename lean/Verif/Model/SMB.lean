import Verif.Model.Grid

/-!
# Domain decomposition  (`/repo/src/SMB.cpp`)

Tiling of the simulation area, overlay exchange between domains.
-/

namespace Pico
namespace SMB

/-- `for (i = start; i < n; i += 2)`, `/repo/src/SMB.cpp:572-573` (start is 0 or 1). -/
def stride (start n : Nat) : List Nat := (List.range n).filter (· % 2 = start)

/-- The pairs visited by one colour sweep, `/repo/src/SMB.cpp:572-573`.  The
OpenMP threads divide this list; here it is executed in sequential order. -/
def colour (nr nz : Nat) (c : Nat × Nat) : List (Nat × Nat) :=
  (stride c.1 nr).flatMap fun i => (stride c.2 nz).map fun j => (i, j)

/-- The four colours in the order of the loops `/repo/src/SMB.cpp:568-569`. -/
def colours : List (Nat × Nat) := [(0, 0), (0, 1), (1, 0), (1, 1)]

/-- All visits of one pass over the domains in order, `/repo/src/SMB.cpp:568-574`. -/
def sweep (nr nz : Nat) : List (Nat × Nat) := colours.flatMap (colour nr nz)

variable {T : Type _}

/-- One grid (e.g. a current component) of each domain; `domains(i, j)`. -/
abbrev Domains (T : Type _) := Nat → Nat → Grid T

/-- Replace the grid of one domain. -/
def setD (D : Domains T) (i j : Nat) (g : Grid T) : Domains T :=
  fun a b => if a = i ∧ b = j then g else D a b

/-- `if (i < domains_amount[0] - 1) overlay_x`, `/repo/src/SMB.cpp:577-581`
(the same in `field_h_overlay` and `field_e_overlay`), for one scalar
grid per domain (`Grid3D` does it for each component in turn,
`/repo/include/algo/grid3d.hpp:43-62`).  The unsigned comparison
`i < domains_amount[0] - 1` is taken for `domains_amount ≥ 1`. -/
def exchX [Add T] (nr i j : Nat) (D : Domains T) : Res (Domains T) :=
  if i + 1 < nr then
    (D i j).overlayX (D (i+1) j) >>= fun p => pure (setD (setD D i j p.1) (i+1) j p.2)
  else pure D

/-- `if (j < domains_amount[1] - 1) overlay_y`, `/repo/src/SMB.cpp:583-587`. -/
def exchY [Add T] (nz i j : Nat) (D : Domains T) : Res (Domains T) :=
  if j + 1 < nz then
    (D i j).overlayY (D i (j+1)) >>= fun p => pure (setD (setD D i j p.1) i (j+1) p.2)
  else pure D

/-- `if (both) overlay_xy`, `/repo/src/SMB.cpp:589-594`. -/
def exchXY [Add T] (nr nz i j : Nat) (D : Domains T) : Res (Domains T) :=
  if i + 1 < nr ∧ j + 1 < nz then
    (D i j).overlayXY (D (i+1) (j+1)) >>= fun p =>
      pure (setD (setD D i j p.1) (i+1) (j+1) p.2)
  else pure D

/-- Body of the overlay loops for one domain, `/repo/src/SMB.cpp:575-594`. -/
def overlayAt [Add T] (nr nz : Nat) (p : Nat × Nat) (D : Domains T) : Res (Domains T) := do
  let D ← exchX nr p.1 p.2 D
  let D ← exchY nz p.1 p.2 D
  exchXY nr nz p.1 p.2 D

/-- `SMB::current_overlay` (without MPI), `/repo/src/SMB.cpp:566-596`. -/
def overlayPass [Add T] (nr nz : Nat) (D : Domains T) : Res (Domains T) :=
  loop (overlayAt nr nz) (sweep nr nz) D

/-! ## Tiling -/

/-- `bot_r`/`left_z` (for `i`) and `top_r`/`right_z` (for `i+1`):
`cell_amount * i / domains + cell_dims`, `/repo/src/SMB.cpp:73-81`.
`size_t` arithmetic without overflow; `domains = 0` would be a division by zero,
but then the enclosing loop does not execute. -/
def bound (cells domains off i : Nat) : Nat := cells * i / domains + off

/-- Cell rectangle of a domain: `{bot_r, left_z, top_r, right_z}`,
`/repo/src/SMB.cpp:73-81,99`. -/
structure CellDims where
  r0 : Nat
  z0 : Nat
  r1 : Nat
  z1 : Nat
  deriving DecidableEq, Repr

/-- Walls `{r0, z0, rr, zz}`, `/repo/include/geometry.hpp:40-41`. -/
structure Walls where
  r0 : Bool
  z0 : Bool
  rr : Bool
  zz : Bool
  deriving DecidableEq, Repr

/-- Global (per process) geometry as far as the tiling uses it:
`cell_amount`, `cell_dims[0..1]`, `domains_amount`, `walls`, `pml_size`,
`global_cell_amount` (`/repo/include/geometry.hpp:30-46`). -/
structure Geo where
  nr : Nat
  nz : Nat
  offR : Nat
  offZ : Nat
  domR : Nat
  domZ : Nat
  walls : Walls
  gnr : Nat
  gnz : Nat
  pmlZ0 : Nat
  pmlR : Nat
  pmlZ : Nat
  deriving DecidableEq, Repr

/-- `cell_dims` of domain `(i, j)`, `/repo/src/SMB.cpp:73-81,99`. -/
def domDims (g : Geo) (i j : Nat) : CellDims :=
  ⟨bound g.nr g.domR g.offR i, bound g.nz g.domZ g.offZ j,
   bound g.nr g.domR g.offR (i+1), bound g.nz g.domZ g.offZ (j+1)⟩

/-- `walls` of domain `(i, j)`, `/repo/src/SMB.cpp:53-70`. -/
def domWalls (g : Geo) (i j : Nat) : Walls :=
  ⟨if i = 0 then g.walls.r0 else false,
   if j = 0 then g.walls.z0 else false,
   if i = g.domR - 1 then g.walls.rr else false,
   if j = g.domZ - 1 then g.walls.zz else false⟩

/-- `pml_size` of domain `(i, j)`: `(z0, r wall, z wall)` layer thicknesses,
`/repo/src/SMB.cpp:58-60,83-93`.  The unsigned differences are taken for
`top_r ≤ global_cell_amount` (otherwise they wrap). -/
def domPml (g : Geo) (i j : Nat) : Nat × Nat × Nat :=
  let d := domDims g i j
  (if d.z0 < g.pmlZ0 then g.pmlZ0 else 0,
   if g.gnr - d.r1 < g.pmlR then g.pmlR else 0,
   if g.gnz - d.z1 < g.pmlZ then g.pmlZ else 0)

end SMB
end Pico

namespace Pico
namespace SMB

/-- `cell_size` of a domain along one axis: `size / domains / cell_amount` with
`cell_amount = top - bot`, `/repo/src/SMB.cpp:97,116` and
`/repo/include/geometry.hpp:60-64`.  Exact division in a field instead of `double`. -/
def domCellSize {K : Type _} [Div K] [NatCast K] (size : K) (cells domains i : Nat) : K :=
  size / (domains : K) / ((bound cells domains 0 (i+1) - bound cells domains 0 i : Nat) : K)

/-- Slab of process `id` of `procs`: first and last+1 cell along z and number of
domains, `/repo/src/PiCoPiC.cpp:217-228`. -/
def slab (cells domains procs id : Nat) : Nat × Nat × Nat :=
  (cells / procs * id, cells / procs * (id + 1), domains / procs)

/-- z walls `(walls[1], walls[3])` of process `id`, `/repo/src/PiCoPiC.cpp:231-234`
(`int` arithmetic, `procs ≥ 1`). -/
def slabWalls (w : Bool × Bool) (procs id : Nat) : Bool × Bool :=
  (if 0 < id then false else w.1, if (id : Int) < (procs : Int) - 1 then false else w.2)

end SMB
end Pico
