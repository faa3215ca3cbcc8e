import Verif.Model.Pic
import Verif.Model.External
import Verif.Model.CollidePass

/-!
# The whole simulation step of builds with external fields and collisions  (`/repo/src/SMB.cpp:1231-1308`)

As `Model/Pic.lean`, with the parts that `ENABLE_EXTERNAL_FIELDS` and `ENABLE_COULOMB_COLLISIONS` add.
-/

namespace Pico
namespace Pic

open SMB Yee

/-- A push with external fields, `/repo/src/pusher/pusherBoris.cpp:59-65`, `/repo/src/pusher/pusherVay.cpp:45-51`,
`/repo/src/pusher/pusherHC.cpp:48-54` and the rest of the pushers: `x` are the grids of the external fields. -/
noncomputable def pushExt (kind : Pusher.Kind) (P : Pusher.Par) (junk : Bool) (pi : ℝ) (g : Geom ℝ) (m x : Mem ℝ) (r z : ℝ) (v : Vec3 ℝ) :
    Res (Vec3 ℝ) :=
  Interp.getE pi g m r z >>= fun e => Interp.getH pi g m r z >>= fun b =>
  Interp.getE pi g x r z >>= fun ex => Interp.getH pi g x r z >>= fun bx => Pusher.pushV kind P junk (e.add ex) (b.add bx) v

/-- The options of a build: external fields (profiles and parameters after construction), collisions (method, constants, masses and
charges of electrons and ions), and the names of the species, by which the collisions sort them. -/
structure Full where
  env : Env
  ext : Option (Ext.Obj ℝ)
  coll : Option (Coll.Method × Coll.Phys × Coll.Kinds)
  name : Nat → String

/-- The state of a run: besides that of `Pic` the grids of the external fields and the cell lists of the collisions of all domains. -/
structure FState where
  s : State
  X : Nat → Nat → Mem ℝ
  maps : Nat → Nat → Coll.Maps

/-- The cells of domain `(i, j)` as the collisions know them, `/repo/src/SMB.cpp:73-123`. -/
noncomputable def Full.place (F : Full) (i j : Nat) : Coll.Place :=
  ⟨(F.env.geom i j).dr, (F.env.geom i j).dz, (F.env.geom i j).r0, (F.env.geom i j).z0, (F.env.geom i j).nr, (F.env.geom i j).nz⟩

/-- The species of domain `(i, j)`, `/repo/src/domain.cpp:54-60` (`species_p`). -/
def Full.species (F : Full) (D : Doms) (i j : Nat) : List Coll.Species := (D i j).map fun sp => ⟨F.name sp.id, sp.parts.map (·.tag)⟩

/-- `apply_external_fields`, `/repo/src/SMB.cpp:1254-1263`. -/
def Full.applied (F : Full) (i j : Nat) (x x' : Mem ℝ) : Prop :=
  match F.ext with
  | none => x' = x
  | some o => Ext.apply (domPar F.env.p F.env.domR F.env.domZ i j) o x = .ok x'

/-- `push_particles` for one particle, `/repo/src/SMB.cpp:1289`. -/
def Full.pushed (F : Full) (i j : Nat) (m x : Mem ℝ) (id : Nat) (a : Part ℝ) (v : Vec3 ℝ) : Prop :=
  ∃ junk, (match F.ext with
    | none => Pusher.push F.env.kind (F.env.pushPar id) junk F.env.e.pi (F.env.geom i j) m a.posR a.posZ (vel a)
    | some _ => pushExt F.env.kind (F.env.pushPar id) junk F.env.e.pi (F.env.geom i j) m x a.posR a.posZ (vel a)) = .ok v

/-- `collide` of domain `(i, j)`, `/repo/src/SMB.cpp:1291-1293`: heap and lists before and after. -/
def Full.collided (F : Full) (i j : Nat) (D : Doms) (h : Nat → Part ℝ) (m : Coll.Maps) (h' : Nat → Part ℝ) (m' : Coll.Maps) : Prop :=
  match F.coll with
  | none => h' = h ∧ m' = m
  | some (M, P, K) => Coll.Pass M P K (F.place i j) (F.species D i j) h m h' m'

/-- Fields, push and collisions, `/repo/src/SMB.cpp:1231-1293`: `M1` are the solvers after the field step, `X`, `maps` the external
fields and the cell lists afterwards, `H i j` the heap with the velocities that domain `(i, j)` has given its particles.  `h1` is the heap
after the push of all particles.  The domains work side by side; no domain reads or writes particles of another
(`C102_only`), so the heap that a domain meets is taken to be that after the push. -/
def Speeds (F : Full) (S : FState) (M1 : Solvers ℝ) (X : Nat → Nat → Mem ℝ) (maps : Nat → Nat → Coll.Maps) (H : Nat → Nat → Nat → Part ℝ) : Prop :=
  ∃ h1 : Nat → Part ℝ, solveMaxwell (domPar F.env.p F.env.domR F.env.domZ) F.env.domR F.env.domZ S.s.M = .ok M1 ∧
    (∀ i j, i < F.env.domR → j < F.env.domZ → F.applied i j (S.X i j) (X i j)) ∧
    (∀ i j, i < F.env.domR → j < F.env.domZ → ∀ sp ∈ S.s.D i j, ∀ o ∈ sp.parts,
      ∃ v, F.pushed i j (M1 i j) (X i j) sp.id (S.s.heap o.tag) v ∧ h1 o.tag = setVel (S.s.heap o.tag) v) ∧
    ∀ i j, i < F.env.domR → j < F.env.domZ → F.collided i j S.s.D h1 (S.maps i j) (H i j) (maps i j)

/-- The rest of a pass: move, hand-over and currents, `/repo/src/SMB.cpp:1295-1330`; `M1` are the solvers after the field step, `H i j` the
heap with the velocities that domain `(i, j)` has given its particles. -/
def Finishes (F : Full) (S : FState) (M1 : Solvers ℝ) (H : Nat → Nat → Nat → Part ℝ) (S' : FState) : Prop :=
  (∀ i j, i < F.env.domR → j < F.env.domZ → ∀ sp ∈ S.s.D i j, ∀ o ∈ sp.parts,
      Part.Advance F.env.p.dt (F.env.geom i j) (F.env.walls i j) (H i j o.tag) (S'.s.heap o.tag)) ∧
    (∀ a, (∀ i j, i < F.env.domR → j < F.env.domZ → ∀ sp ∈ S.s.D i j, ∀ o ∈ sp.parts, o.tag ≠ a) → S'.s.heap a = S.s.heap a) ∧
    collect (geoOf F.env.p F.env.domR F.env.domZ) (cellsOf S'.s.heap S.s.D) = .ok S'.s.D ∧
    solveCurrent F.env.dist F.env.p F.env.domR F.env.domZ F.env.e (depositsOf F.env S'.s.heap S'.s.D) M1 = .ok S'.s.M

/-- One pass of the main loop, `/repo/src/PiCoPiC.cpp:326-335`: fields, push, collisions, move, hand-over, currents. -/
def FStep (F : Full) (S S' : FState) : Prop := ∃ M1 H, Speeds F S M1 S'.X S'.maps H ∧ Finishes F S M1 H S'

/-- `n` passes of the main loop. -/
inductive FRun (F : Full) (S : FState) : Nat → FState → Prop
  | start : FRun F S 0 S
  | step {n : Nat} {S' S'' : FState} : FRun F S n S' → FStep F S' S'' → FRun F S (n + 1) S''

end Pic
end Pico
