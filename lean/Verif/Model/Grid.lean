import Verif.Model.Base

/-!
# `Grid<T>` and `Grid3D<T>`  (`/repo/include/algo/grid.hpp`, `grid3d.hpp`)

A grid is an `x_real_size × y_real_size` array of cells: `x_size × y_size`
logical cells surrounded by an overlay frame of width `o_s`.
-/

namespace Pico

/-- `Grid<T>`, `/repo/include/algo/grid.hpp:24-42`.  `cell i j` is the C++
`grid[i][j]` (real, i.e. shifted, indices).  It is a total function, but the
accessors below only look at it inside the allocated array. -/
structure Grid (T : Type _) where
  os : Nat
  xs : Nat
  ys : Nat
  cell : Nat → Nat → T

namespace Grid

variable {T : Type _}

/-- `x_real_size`, `/repo/include/algo/grid.hpp:49`. The 32 bit addition is
taken without wrap-around (`WF` below states the precondition). -/
def xr (g : Grid T) : Nat := g.xs + g.os * 2
/-- `y_real_size`, `/repo/include/algo/grid.hpp:50`. -/
def yr (g : Grid T) : Nat := g.ys + g.os * 2

/-- `Grid(x_amount, y_amount, overlay_shift)`,
`/repo/include/algo/grid.hpp:46-58`.  `new T[n]` leaves the elements
uninitialised: their content is the parameter `junk`. -/
def new (junk : Nat → Nat → T) (x y os : Nat) : Grid T := ⟨os, x, y, junk⟩

/-- The real sizes fit `unsigned int` with room to spare (so that the additions
of lines 49-50 do not wrap and no logical index is ambiguous modulo `2^32`).
This is the precondition the code relies on. -/
def WF (g : Grid T) : Prop := g.xr < 2 ^ 31 ∧ g.yr < 2 ^ 31

/-- The index computation `x + o_s` in `unsigned int` arithmetic that every
accessor performs (`/repo/include/algo/grid.hpp:62,67,72,78,84,167`).  `x` is
the mathematical value of the argument before its conversion to
`unsigned int`; callers do pass `-1`, see `maxwellSolverYee.cpp:179`. -/
def uidx (x : Int) (os : Nat) : Nat := ((x + os) % 2 ^ 32).toNat

/-- `grid[i][j]` as an rvalue; outside of the allocated array this is UB. -/
def rd (g : Grid T) (i j : Nat) : Res T :=
  if i < g.xr ∧ j < g.yr then .ok (g.cell i j) else .ub

/-- `grid[i][j] = v`; outside of the allocated array this is UB. -/
def wr (g : Grid T) (i j : Nat) (v : T) : Res (Grid T) :=
  if i < g.xr ∧ j < g.yr then
    .ok { g with cell := fun a b => if a = i ∧ b = j then v else g.cell a b }
  else .ub

/-- `operator()(x, y)`, `/repo/include/algo/grid.hpp:165-168` (as rvalue). -/
def get (g : Grid T) (x y : Int) : Res T := g.rd (uidx x g.os) (uidx y g.os)

/-- `set`, `/repo/include/algo/grid.hpp:60-63`. -/
def set (g : Grid T) (x y : Int) (v : T) : Res (Grid T) :=
  g.wr (uidx x g.os) (uidx y g.os) v

/-- Read-modify-write of one cell, common shape of `inc`, `dec`, `d_a`, `m_a`. -/
def upd (g : Grid T) (i j : Nat) (f : T → T) : Res (Grid T) :=
  g.rd i j >>= fun old => g.wr i j (f old)

/-- `inc`, `/repo/include/algo/grid.hpp:65-68`. -/
def inc [Add T] (g : Grid T) (x y : Int) (v : T) : Res (Grid T) :=
  g.upd (uidx x g.os) (uidx y g.os) (· + v)
/-- `dec`, `/repo/include/algo/grid.hpp:70-73`. -/
def dec [Sub T] (g : Grid T) (x y : Int) (v : T) : Res (Grid T) :=
  g.upd (uidx x g.os) (uidx y g.os) (· - v)
/-- `d_a`, `/repo/include/algo/grid.hpp:75-79`. -/
def d_a [Div T] (g : Grid T) (x y : Int) (v : T) : Res (Grid T) :=
  g.upd (uidx x g.os) (uidx y g.os) (· / v)
/-- `m_a`, `/repo/include/algo/grid.hpp:81-85`. -/
def m_a [Mul T] (g : Grid T) (x y : Int) (v : T) : Res (Grid T) :=
  g.upd (uidx x g.os) (uidx y g.os) (· * v)

/-- `overlay_set`, `/repo/include/algo/grid.hpp:87-97`. -/
def overlaySet (g : Grid T) (v : T) : Res (Grid T) :=
  loop (fun p g =>
      if p.1 < g.os ∨ p.2 < g.os ∨ p.1 ≥ g.xr - g.os ∨ p.2 ≥ g.yr - g.os then
        g.wr p.1 p.2 v
      else .ok g)
    (idx2 0 g.xr 0 g.yr) g

/-- Loop over the logical cells, common shape of the scalar assignment
operators `/repo/include/algo/grid.hpp:172-215`. -/
def mapInterior (g : Grid T) (f : T → T) : Res (Grid T) :=
  loop (fun p g => g.upd (p.1 + g.os) (p.2 + g.os) f) (idx2 0 g.xs 0 g.ys) g

/-- `operator= (T value)`, `/repo/include/algo/grid.hpp:172-179`. -/
def assign (g : Grid T) (v : T) : Res (Grid T) :=
  loop (fun p g => g.wr (p.1 + g.os) (p.2 + g.os) v) (idx2 0 g.xs 0 g.ys) g
/-- `operator+=`, `/repo/include/algo/grid.hpp:181-188`. -/
def addAssign [Add T] (g : Grid T) (v : T) : Res (Grid T) := g.mapInterior (· + v)
/-- `operator-=`, `/repo/include/algo/grid.hpp:190-197`. -/
def subAssign [Sub T] (g : Grid T) (v : T) : Res (Grid T) := g.mapInterior (· - v)
/-- `operator*=`, `/repo/include/algo/grid.hpp:199-206`. -/
def mulAssign [Mul T] (g : Grid T) (v : T) : Res (Grid T) := g.mapInterior (· * v)
/-- `operator/=`, `/repo/include/algo/grid.hpp:208-215`. -/
def divAssign [Div T] (g : Grid T) (v : T) : Res (Grid T) := g.mapInterior (· / v)

/-- `copy`, `/repo/include/algo/grid.hpp:153-162`. -/
def copy (g rhs : Grid T) : Res (Grid T) :=
  if g.xr = rhs.xr ∧ g.yr = rhs.yr then
    loop (fun p g => rhs.rd p.1 p.2 >>= fun v => g.wr p.1 p.2 v)
      (idx2 0 g.xr 0 g.yr) g
  else .fatal

/-- `T **operator()()`, `/repo/include/algo/grid.hpp:222-233`: a fresh
`x_size × y_size` array (`os = 0`) with the logical cells. -/
def interior (junk : Nat → Nat → T) (g : Grid T) : Res (Grid T) :=
  loop (fun p r => g.rd (p.1 + g.os) (p.2 + g.os) >>= fun v => r.wr p.1 p.2 v)
    (idx2 0 g.xs 0 g.ys) (Grid.new junk g.xs g.ys 0)

/-- Body of the overlay loops: the four assignments, in order, of
`/repo/include/algo/grid.hpp:105-109` (resp. 123-127 and 141-145).
The arguments are the six index pairs as they occur there:
`rhs[a₁][a₂] += lhs[b₁][b₂]; lhs[c₁][c₂] += rhs[e₁][e₂];
 rhs[e₁][e₂] = lhs[f₁][f₂]; lhs[b₁][b₂] = rhs[a₁][a₂]`.
The parameter `Grid<T> rhsgrid` is a shallow copy that shares the cells with the
caller's grid, so its modification is a result; both grids are assumed not to
be the same object. -/
def exch [Add T] (a b c e f : Nat × Nat) (s : Grid T × Grid T) :
    Res (Grid T × Grid T) := do
  let (l, r) := s
  let v₁ ← l.rd b.1 b.2
  let r ← r.upd a.1 a.2 (· + v₁)
  let v₂ ← r.rd e.1 e.2
  let l ← l.upd c.1 c.2 (· + v₂)
  let v₃ ← l.rd f.1 f.2
  let r ← r.wr e.1 e.2 v₃
  let v₄ ← r.rd a.1 a.2
  let l ← l.wr b.1 b.2 v₄
  return (l, r)

/-- `overlay_y`, `/repo/include/algo/grid.hpp:99-115`. -/
def overlayY [Add T] (l r : Grid T) : Res (Grid T × Grid T) :=
  if l.xr = r.xr then
    let os := l.os
    loop (fun p s =>
        let d := p.1; let i := p.2; let y := s.1.yr
        exch (i, 2*os-d-1) (i, y-1-d) (i, y-2*os+d) (i, d) (i, y-2*os+d) s)
      (idx2 0 os os (l.xr - os)) (l, r)
  else .fatal

/-- `overlay_x`, `/repo/include/algo/grid.hpp:117-133`. -/
def overlayX [Add T] (l r : Grid T) : Res (Grid T × Grid T) :=
  if l.yr = r.yr then
    let os := l.os
    loop (fun p s =>
        let d := p.1; let i := p.2; let x := s.1.xr
        exch (2*os-d-1, i) (x-1-d, i) (x-2*os+d, i) (d, i) (x-2*os+d, i) s)
      (idx2 0 os os (l.yr - os)) (l, r)
  else .fatal

/-- `overlay_xy`, `/repo/include/algo/grid.hpp:135-151`, with the indices as
written there: `x_real_size` for both indices of the left grid in lines
141-142 and 145, `y_real_size` for both in line 144. -/
def overlayXY [Add T] (l r : Grid T) : Res (Grid T × Grid T) :=
  if l.xr = r.xr ∧ l.yr = r.yr then
    let os := l.os
    loop (fun p s =>
        let d := p.1; let e := p.2; let x := s.1.xr; let y := s.1.yr
        exch (2*os-d-1, 2*os-e-1) (x-1-d, x-1-e) (x-2*os+d, x-2*os+e) (d, e)
          (y-2*os+d, y-2*os+e) s)
      (idx2 0 os 0 os) (l, r)
  else .fatal

end Grid

/-- `Grid3D<T>`, `/repo/include/algo/grid3d.hpp:26-41`. -/
structure Grid3D (T : Type _) where
  r : Grid T
  phi : Grid T
  z : Grid T

namespace Grid3D

variable {T : Type _}

/-- `overlay_x`, `/repo/include/algo/grid3d.hpp:43-48`. -/
def overlayX [Add T] (a b : Grid3D T) : Res (Grid3D T × Grid3D T) := do
  let (ar, br) ← a.r.overlayX b.r
  let (ap, bp) ← a.phi.overlayX b.phi
  let (az, bz) ← a.z.overlayX b.z
  return (⟨ar, ap, az⟩, ⟨br, bp, bz⟩)

/-- `overlay_y`, `/repo/include/algo/grid3d.hpp:50-55`. -/
def overlayY [Add T] (a b : Grid3D T) : Res (Grid3D T × Grid3D T) := do
  let (ar, br) ← a.r.overlayY b.r
  let (ap, bp) ← a.phi.overlayY b.phi
  let (az, bz) ← a.z.overlayY b.z
  return (⟨ar, ap, az⟩, ⟨br, bp, bz⟩)

/-- `overlay_set`, `/repo/include/algo/grid3d.hpp:64-69`. -/
def overlaySet (a : Grid3D T) (v : T) : Res (Grid3D T) := do
  let r ← a.r.overlaySet v
  let p ← a.phi.overlaySet v
  let z ← a.z.overlaySet v
  return ⟨r, p, z⟩

/-- `operator= (T)`, `/repo/include/algo/grid3d.hpp:71-78`. -/
def assign (a : Grid3D T) (v : T) : Res (Grid3D T) := do
  let r ← a.r.assign v
  let p ← a.phi.assign v
  let z ← a.z.assign v
  return ⟨r, p, z⟩

/-- `operator[] (int index)`, `/repo/include/algo/grid3d.hpp:80-89`: indices
above 2 abort, negative indices dereference an uninitialised pointer. -/
def comp (a : Grid3D T) (k : Int) : Res (Grid T) :=
  if k > 2 then .fatal
  else if k = 0 then .ok a.r
  else if k = 1 then .ok a.phi
  else if k = 2 then .ok a.z
  else .ub

end Grid3D

end Pico
