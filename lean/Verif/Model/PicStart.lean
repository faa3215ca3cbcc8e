import Verif.Model.PicBeam
import Verif.Model.Placement
import Verif.Model.Velocity

/-!
# From the configuration to the first state of a run
(`/repo/src/SMB.cpp:36-171,1324-1336`, `/repo/src/domain.cpp:86-94`, `/repo/include/maxwellSolver.hpp:47-69`)

One process.  The state that the constructors and `distribute` leave behind when the main loop begins.
-/

namespace Pico
namespace Pic

open SMB Yee

/-- What the configuration says about a species (`/repo/include/cfg.hpp:90-104`): `amount` is the number of macroparticles, a
`double`; charge and mass are in `Env`. -/
structure Species where
  id : Nat
  amount : ℝ
  left : ℝ
  right : ℝ
  temperature : ℝ

/-- `--with-plasma-spatial-distribution`, `/repo/src/specieP.cpp:106-127`. -/
inductive Spatial
  | flat
  | random
  | centered
  | regular

/-- `--with-plasma-velocity-distribution`, `/repo/src/specieP.cpp:333-344`. -/
inductive Speedy
  | thermal
  | rectangular
  | eigen

/-- Absorbing layers: thickness at the left, outer and right wall, smallest and largest conductivity. -/
structure Layers where
  left : Nat
  outer : Nat
  right : Nat
  s0 : ℝ
  s1 : ℝ

/-- Build, configuration and random numbers.  `beams` are the identifiers of the beams; `q` is `EL_CHARGE`, `mnzl` is `MNZL`, `eps0` is
`EPSILON0`.  `ur`, `uz`: random numbers of the placement; `us`, `ws`: those of the sampling of energies; `rs`: those of the directions; for
each domain and species. -/
structure Setup where
  env : Env
  spatial : Spatial
  speedy : Speedy
  species : List Species
  beams : List Nat
  layers : Option Layers
  eps0 : ℝ
  q : ℝ
  mnzl : ℝ
  ur : Nat → Nat → Nat → Nat → ℝ
  uz : Nat → Nat → Nat → Nat → ℝ
  us : Nat → Nat → Nat → Nat → ℝ
  ws : Nat → Nat → Nat → List (ℝ × ℝ)
  rs : Nat → Nat → Nat → Nat → ℝ × ℝ × ℝ

/-- The number of macroparticles of a species in a domain, `/repo/src/SMB.cpp:132` and `/repo/src/specieP.cpp:43-56`.  `(int)` of a number
that does not fit is undefined.  In exact arithmetic the size of a domain divided by the cell size is the number of cells. -/
def Amount (X : Setup) (i j : Nat) (s : Species) (n : Nat) : Prop :=
  (0 ≤ s.amount / X.env.domR / X.env.domZ ∧ s.amount / X.env.domR / X.env.domZ < 2 ^ 31) ∧
  match X.spatial with
  | .flat | .random => n = ⌊s.amount / X.env.domR / X.env.domZ⌋₊
  | .centered | .regular =>
    Place.NearestDivide ⌊s.amount / X.env.domR / X.env.domZ⌋₊ (((X.env.geom i j).nr : ℝ) * (X.env.geom i j).nz) n

/-- `ld_local`, `/repo/src/SMB.cpp:134-135`. -/
noncomputable def leftOf (X : Setup) (i j : Nat) (s : Species) : ℝ :=
  Place.localDensity s.left s.right (X.env.p.nz * X.env.p.dz) (X.env.geom i j).dz (X.env.geom i j).z0

/-- `rd_local`, `/repo/src/SMB.cpp:136`. -/
noncomputable def rightOf (X : Setup) (i j : Nat) (s : Species) : ℝ :=
  Place.localDensity s.left s.right (X.env.p.nz * X.env.p.dz) (X.env.geom i j).dz ((X.env.geom i j).z0 + (X.env.geom i j).nz)

/-- `fullyfill_spatial_distribution`, `/repo/src/specieP.cpp:84-128`: placement and weights.  For no particles at all the intervals of the
regular placement are infinite and its loops do nothing. -/
def Placed (X : Setup) (i j : Nat) (s : Species) (n : Nat) (ps : List (Part ℝ)) : Prop :=
  match X.spatial with
  | .flat => ∃ ur uz, Place.FlatNumbers n ur uz ∧
      Place.fill s.id X.mnzl X.env.e.pi (X.env.geom i j) (X.env.walls i j) (leftOf X i j s) (rightOf X i j s) n ur uz = .ok ps
  | .random =>
      Place.fill s.id X.mnzl X.env.e.pi (X.env.geom i j) (X.env.walls i j) (leftOf X i j s) (rightOf X i j s) n (X.ur i j s.id) (X.uz i j s.id) = .ok ps
  | .centered => ∃ qs, Place.centered s.id X.mnzl (X.env.geom i j) (X.env.walls i j) (Place.whole (X.env.geom i j)) n = .ok qs ∧
      Place.setWeight X.env.e.pi (X.env.geom i j) (X.env.walls i j) (Place.whole (X.env.geom i j)) (leftOf X i j s) (rightOf X i j s) n qs = .ok ps
  | .regular => ∃ qs, (n = 0 → qs = []) ∧
      (n ≠ 0 → Place.RegularPlacement s.id X.mnzl (X.env.geom i j) (X.env.walls i j) (Place.whole (X.env.geom i j)) n qs) ∧
      Place.setWeight X.env.e.pi (X.env.geom i j) (X.env.walls i j) (Place.whole (X.env.geom i j)) (leftOf X i j s) (rightOf X i j s) n qs = .ok ps

/-- The constants of the velocity distributions. -/
noncomputable def Setup.cst (X : Setup) (id : Nat) : Vel.Cst := ⟨X.env.c, X.env.lim, X.q, X.env.mass id⟩

/-- `velocity_distribution` for `m` particles, `/repo/src/specieP.cpp:333-438`.  A sampling that does not end relates to nothing. -/
def Speeds0 (X : Setup) (i j : Nat) (s : Species) (n m : Nat) (vs : List (Option (Vec3 ℝ))) : Prop :=
  match X.speedy with
  | .thermal => ∃ es, Vel.sample n s.temperature (X.us i j s.id) (X.ws i j s.id) = some (.ok es) ∧
      Vel.thermal (X.cst s.id) es ((List.range m).map (X.rs i j s.id)) = .ok vs
  | .rectangular => Vel.rectangular (X.cst s.id) s.temperature ((List.range m).map (X.rs i j s.id)) = .ok vs
  | .eigen => Vel.eigen (X.cst s.id) s.temperature m = .ok vs

/-- `distribute` for one species of a domain, `/repo/src/domain.cpp:86-94`: place, bind the cell numbers, give velocities.  Velocities
that are not numbers relate to nothing. -/
def Distributed (X : Setup) (i j : Nat) (s : Species) (out : List (Part ℝ)) : Prop :=
  ∃ n ps qs vs, Amount X i j s n ∧ Placed X i j s n ps ∧ List.Forall₂ (fun p q => Part.bindCell (X.env.geom i j) p = .ok q) ps qs ∧
    Speeds0 X i j s n qs.length (vs.map some) ∧ vs.length = qs.length ∧ out = List.zipWith setVel qs vs

/-- What `set_pml` of domain `(i, j)` reads, `/repo/src/SMB.cpp:82-109`. -/
def layersOf (E : Env) (l : Layers) (i j : Nat) : Pml ℝ :=
  let t := domPml { geoOf E.p E.domR E.domZ with pmlZ0 := l.left, pmlR := l.outer, pmlZ := l.right } i j
  let d := domDims (geoOf E.p E.domR E.domZ) i j
  ⟨t.1, t.2.1, t.2.2, l.s0, l.s1, E.p.nr * E.p.dr, E.p.nz * E.p.dz, E.p.nr, E.p.nz, d.r0, d.z0⟩

/-- A new solver with its current: `/repo/include/maxwellSolver.hpp:47-69`, `/repo/src/maxwellSolver/maxwellSolverYee.cpp:22-55`,
`/repo/include/current.hpp:45-53`: all fields and currents zero, `epsilon` constant, `sigma` zero but for the layers. -/
noncomputable def newSolver (X : Setup) (i j : Nat) : Res (Mem ℝ) :=
  match X.layers with
  | none => .ok fun c _ _ => if c = .eps then X.eps0 else 0
  | some l => setPml (domPar X.env.p X.env.domR X.env.domZ i j) (layersOf X.env l i j) fun c _ _ => if c = .eps then X.eps0 else 0

/-- `S` is a state in which the main loop begins: `/repo/src/SMB.cpp:124-167` (species and beams of every domain), `distribute`
(`/repo/src/SMB.cpp:1324-1336`; for beams it does nothing, `/repo/include/beamP.hpp:60-62`).  New objects have different addresses. -/
structure Starts (X : Setup) (S : State) : Prop where
  lists : ∀ i j, (S.D i j).map Sp.id = X.species.map Species.id ++ X.beams
  plasma : ∀ i j, i < X.env.domR → j < X.env.domZ → ∀ sp ∈ S.D i j, ∀ s ∈ X.species, s.id = sp.id →
    Distributed X i j s (sp.parts.map fun o => S.heap o.tag)
  beam : ∀ i j, i < X.env.domR → j < X.env.domZ → ∀ sp ∈ S.D i j, sp.id ∈ X.beams → sp.parts = []
  fresh : ((idx2 0 X.env.domR 0 X.env.domZ).flatMap fun q => (S.D q.1 q.2).flatMap fun sp => sp.parts.map (·.tag)).Nodup
  solver : ∀ i j, i < X.env.domR → j < X.env.domZ → newSolver X i j = .ok (S.M i j)

end Pic
end Pico
