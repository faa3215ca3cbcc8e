import Verif.Model.Scatter

/-!
# A whole collision step of a domain  (`/repo/src/collisions.cpp`, `/repo/src/collisions/*.cpp`)

`operator()` of the three collision classes: sorting, shuffling, totals, the loop over the cells with all its pairs and, for
TA77S, the correction of the velocities.  Particles are objects on a heap, the vectors hold addresses.
-/

namespace Pico
namespace Coll

/-- The objects behind the addresses. -/
abbrev Heap := Nat → Part ℝ

/-- Assignment to the object behind an address. -/
def put (h : Heap) (t : Nat) (q : Part ℝ) : Heap := fun s => if s = t then q else h s

/-- `mass_el`, `mass_ion`, `charge_el`, `charge_ion`, `/repo/include/collisions.hpp`. -/
structure Kinds where
  massEl : ℝ
  massIon : ℝ
  chargeEl : ℝ
  chargeIon : ℝ

/-- Mass and charge of the last species with one of two names, `/repo/src/collisions.cpp:30-48`; `none`: the members stay
uninitialised. -/
def lastNamed (a b : String) (sp : List (String × ℝ × ℝ)) : Option (ℝ × ℝ) :=
  sp.foldl (fun r s => if s.1 = a ∨ s.1 = b then some s.2 else r) none

/-- The constructor, `/repo/src/collisions.cpp:23-48`.  A pointer that is not set is used in every step
(`/repo/src/collisions.cpp:222-223`): `ub`. -/
def kindsOf (sp : List (String × ℝ × ℝ)) : Res Kinds :=
  match lastNamed "electrons" "Electrons" sp, lastNamed "ions" "Ions" sp with
  | some e, some i => .ok ⟨e.1, i.1, e.2, i.2⟩
  | _, _ => .ub

/-- The arguments of `collide_single` besides the particles: masses, charges, densities, Debye length. -/
structure Args where
  ma : ℝ
  mb : ℝ
  qa : ℝ
  qb : ℝ
  na : ℝ
  nb : ℝ
  debye : ℝ

/-- The random numbers of one collision (the generators are not modelled: every value is possible).  TA77S: `x` standard normal,
`phi`, `y` uniform.  SK98: `x` the deflection.  P12: `x` is `s12`, `y` and `z` uniform, `normal` as in `p12Core`. -/
structure Rnd where
  x : ℝ
  y : ℝ
  z : ℝ
  phi : ℝ
  normal : Bool

/-- Which of the three classes the build selects, `/repo/src/domain.cpp:54-60`. -/
inductive Method
  | ta77s
  | sk98
  | p12

/-- Constants of a build: `mnzl` is `MNZL`, `/repo/include/constant.hpp`; `dt` is the time step. -/
structure Phys where
  k : Const
  mnzl : ℝ
  dt : ℝ

/-- `collide_single` of the three classes, `/repo/src/collisions/collisionsTA77S.cpp:31-220`,
`/repo/src/collisions/collisionsSK98.cpp:29-244`, `/repo/src/collisions/collisionsP12.cpp:29-328`.  In the latter two the arguments
other than the masses have an effect only through the deflection and `s12`. -/
noncomputable def single (M : Method) (P : Phys) (a : Args) (r : Rnd) (pa pb : Part ℝ) : Res (Part ℝ × Part ℝ) :=
  match M with
  | .ta77s => collideTAFull P.k P.dt a.ma a.mb a.qa a.qb a.na a.nb a.debye r.x r.phi r.y pa pb
  | .sk98 => collideSK P.k.c P.mnzl a.ma a.mb r.x r.phi pa pb
  | .p12 => collideP12 P.k.c P.mnzl a.ma a.mb r.x r.y r.phi r.z r.normal pa pb

/-- The heap and the number of collisions so far, which selects the random numbers. -/
abbrev St := Heap × Nat

/-- One collision of the objects behind two entries of the vectors; an index beyond the vector is undefined behaviour. -/
noncomputable def hit (M : Method) (P : Phys) (rnd : Nat → Rnd) (a : Args) (x y : Option Nat) (s : St) : Res St :=
  match x, y with
  | some x, some y => single M P a (rnd s.2) (s.1 x) (s.1 y) >>= fun q => .ok (put (put s.1 x q.1) y q.2, s.2 + 1)
  | _, _ => .ub

/-- One pair of a cell, `/repo/src/collisions/collisionsTA77S.cpp:245-414`: `els`, `ions` are the vectors of the cell, `ne`, `ni` the
densities. -/
noncomputable def onePair (M : Method) (P : Phys) (rnd : Nat → Rnd) (K : Kinds) (ne ni debye : ℝ) (els ions : List Nat) (pr : Pair) (s : St) :
    Res St :=
  match pr with
  | .ii a b => hit M P rnd ⟨K.massIon, K.massIon, K.chargeIon, K.chargeIon, ni, ni, debye⟩ ions[a]? ions[b]? s
  | .ee a b => hit M P rnd ⟨K.massEl, K.massEl, K.chargeEl, K.chargeEl, ne, ne, debye⟩ els[a]? els[b]? s
  | .ei a b => hit M P rnd ⟨K.massEl, K.massIon, K.chargeEl, K.chargeIon, ne, ni, debye⟩ els[a]? ions[b]? s

/-- The size of the cells, the first cell of the domain and its number of cells. -/
structure Place where
  dr : ℝ
  dz : ℝ
  r0 : Nat
  z0 : Nat
  nr : Nat
  nz : Nat

/-- The collisions of one cell, `/repo/src/collisions/collisionsTA77S.cpp:228-415`.  Temperatures and densities come from the totals
collected before the first collision (`before`). -/
noncomputable def collideCell (M : Method) (P : Phys) (rnd : Nat → Rnd) (K : Kinds) (g : Place) (els ions : Nat → Nat → List Nat) (before : Heap)
    (c : Nat × Nat) (s : St) : Res St :=
  cellDebye P.k g.dr g.dz K.massEl K.massIon g.r0 c.1 ((els c.1 c.2).map before) ((ions c.1 c.2).map before) >>= fun d =>
  match d with
  | none => .ok s
  | some debye =>
    loop (onePair M P rnd K (cellDensity P.k g.dr g.dz g.r0 c.1 ((els c.1 c.2).map before))
      (cellDensity P.k g.dr g.dz g.r0 c.1 ((ions c.1 c.2).map before)) debye (els c.1 c.2) (ions c.1 c.2))
      (cellPairs float32 (ions c.1 c.2).length (els c.1 c.2).length) s

/-- `collide`, `/repo/src/collisions/collisionsTA77S.cpp:222-416`, `/repo/src/collisions/collisionsSK98.cpp:246-440`,
`/repo/src/collisions/collisionsP12.cpp:330-532` (the mean values of P12 have no effect). -/
noncomputable def collide (M : Method) (P : Phys) (rnd : Nat → Rnd) (K : Kinds) (g : Place) (els ions : Nat → Nat → List Nat) (h : Heap) : Res St :=
  loop (collideCell M P rnd K g els ions h)
    (visited K.massEl K.massIon g.nr g.nz (fun i j => (els i j).map h) (fun i j => (ions i j).map h)) (h, 0)

/-- Assignment to several objects. -/
def putAll : List Nat → List (Part ℝ) → Heap → Heap
  | t :: ts, q :: qs, h => putAll ts qs (put h t q)
  | _, _, h => h

/-- `correct_velocities` of one cell: ions, then electrons, `/repo/src/collisions/collisionsTA77S.cpp:419-566`.  `before` is the
heap when the totals were collected.  The code sums over both lists before it changes the ions, which makes no difference, as no
particle is in both lists. -/
noncomputable def correctCell (K : Kinds) (els ions : Nat → Nat → List Nat) (before : Heap) (c : Nat × Nat) (h : Heap) : Heap :=
  let is := ions c.1 c.2
  let es := els c.1 c.2
  let h1 := putAll is (correct K.massIon (collectTotals K.massIon (is.map before)) (is.map h)) h
  putAll es (correct K.massEl (collectTotals K.massEl (es.map before)) (es.map h1)) h1

/-- `correct_velocities`, `/repo/src/collisions/collisionsTA77S.cpp:419-566`. -/
noncomputable def correctAll (K : Kinds) (g : Place) (els ions : Nat → Nat → List Nat) (before h : Heap) : Heap :=
  (idx2 0 g.nr 0 g.nz).foldl (fun h c => correctCell K els ions before c h) h

/-- The lists of the cells after `clear`, `sort_to_cells` and `random_sort`, `/repo/src/collisions.cpp:63-120`; `m` are the lists
left by the step before. -/
def Sorted (g : Place) (sp : List Species) (h : Heap) (m m' : Maps) (els ions : Nat → Nat → List Nat) : Prop :=
  ∃ m1, (clear g.nr g.nz m >>= sortToCells h g.r0 g.z0 sp) = .ok m1 ∧ Shuffled g.nr g.nz m1 m' ∧
    ∀ i j, i < g.nr → j < g.nz → m'.el.get i j = .ok (els i j) ∧ m'.ion.get i j = .ok (ions i j)

/-- `collide` and, in TA77S only, `correct_velocities`, `/repo/src/collisions/collisionsTA77S.cpp:568-576`,
`/repo/src/collisions/collisionsSK98.cpp:442-451`, `/repo/src/collisions/collisionsP12.cpp:571-579`. -/
noncomputable def collideAll (M : Method) (P : Phys) (rnd : Nat → Rnd) (K : Kinds) (g : Place) (els ions : Nat → Nat → List Nat) (h : Heap) : Res Heap :=
  collide M P rnd K g els ions h >>= fun s => match M with
    | .ta77s => .ok (correctAll K g els ions h s.1)
    | _ => .ok s.1

/-- The whole collision step of a domain: the heap and the lists of the cells before and after it, for some shuffling and some random
numbers. -/
def Pass (M : Method) (P : Phys) (K : Kinds) (g : Place) (sp : List Species) (h : Heap) (m : Maps) (h' : Heap) (m' : Maps) : Prop :=
  ∃ els ions rnd, Sorted g sp h m m' els ions ∧ collideAll M P rnd K g els ions h = .ok h'

end Coll
end Pico
