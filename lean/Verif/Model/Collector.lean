import Verif.Model.SMB

/-!
# Particle hand-over between domains
`/repo/src/SMB.cpp:194-344` (`SMB::particles_runaway_collector`, without the MPI
blocks) and the identifiers of species, `/repo/src/algo/common.cpp:219-226`.
-/

namespace Pico
namespace SMB

/-- A particle: its cell numbers `cell_r`, `cell_z` read back as `int`
(`/repo/src/SMB.cpp:239-241`) and everything else (`tag`), which is not touched. -/
structure Prt where
  r : Int
  z : Int
  tag : Nat
  deriving DecidableEq, Repr

/-- Species of one domain: identifier and particle list
(`/repo/include/specieP.hpp`, fields `id`, `particles`). -/
structure Sp where
  id : Nat
  parts : List Prt
  deriving DecidableEq, Repr

/-- `species_p` of each domain. -/
abbrev Doms := Nat → Nat → List Sp

/-- What happens to one particle. -/
inductive Action where
  | keep
  | drop
  | move (i j : Nat)
  deriving DecidableEq, Repr

/-- Decision for one particle of domain `(i, j)`, the lambda of
`/repo/src/SMB.cpp:235-341`.

* `amtR`, `amtZ` are `sim_domain->geometry.cell_amount[0..1]`; the divisions are
  `size_t` divisions (the `ceil` of an integer does nothing), so a zero divisor is
  undefined behaviour.
* For a negative cell number the quotients are wrapped values that are not used.
* A cell number below the block's own `cell_dims[0..1]` wraps to an index far
  outside the domain matrix: undefined behaviour.
* `__domains(i_dst, j_dst)` outside the matrix is undefined behaviour. -/
def classify (g : Geo) (i j amtR amtZ : Nat) (o : Prt) : Res Action :=
  if amtR = 0 ∨ amtZ = 0 then .ub
  else if o.r < 0 ∨ o.z < 0 then .ok .drop
  else if o.r ≥ (g.offR + g.nr : Nat) then .ok .drop
  else if o.z ≥ (g.offZ + g.nz : Nat) then .ok .drop
  else if o.r < g.offR ∨ o.z < g.offZ then .ub
  else
    let di := (o.r.toNat - g.offR) / amtR
    let dj := (o.z.toNat - g.offZ) / amtZ
    if di ≠ i ∨ dj ≠ j then
      if di < g.domR ∧ dj < g.domZ then .ok (.move di dj) else .ub
    else .ok .keep

/-- `push_back` into every species with the same id, `/repo/src/SMB.cpp:324-335`. -/
def pushTo (id : Nat) (o : Prt) (sps : List Sp) : List Sp :=
  sps.map fun sp => if sp.id = id then { sp with parts := sp.parts ++ [o] } else sp

/-- Update of one domain. -/
def setDom (D : Doms) (i j : Nat) (v : List Sp) : Doms :=
  fun a b => if a = i ∧ b = j then v else D a b

/-- The predicate applied to one particle, with its side effects; the second
component collects the particles that `remove_if` keeps. -/
def collectOne (g : Geo) (i j amtR amtZ id : Nat) (o : Prt) (s : Doms × List Prt) :
    Res (Doms × List Prt) :=
  classify g i j amtR amtZ o >>= fun
    | .keep => .ok (s.1, s.2 ++ [o])
    | .drop => .ok s
    | .move di dj => .ok (setDom s.1 di dj (pushTo id o (s.1 di dj)), s.2)

/-- `particles.erase(remove_if(...))` for the `k`-th species of domain `(i, j)`,
`/repo/src/SMB.cpp:228-343`.  Particles are pushed only into other domains, so the
list being traversed is the one at the start of the loop. -/
def collectSp (g : Geo) (i j : Nat) (k : Nat) (D : Doms) : Res Doms :=
  match (D i j)[k]? with
  | none => .ub
  | some sp =>
    let d := domDims g i j
    loop (collectOne g i j (d.r1 - d.r0) (d.z1 - d.z0) sp.id) sp.parts (D, []) >>= fun s =>
      .ok (setDom s.1 i j ((s.1 i j).set k { sp with parts := s.2 }))

/-- All species of one domain, `/repo/src/SMB.cpp:224-226`. -/
def collectDom (g : Geo) (p : Nat × Nat) (D : Doms) : Res Doms :=
  loop (collectSp g p.1 p.2) (List.range (D p.1 p.2).length) D

/-- The four colour sweeps, `/repo/src/SMB.cpp:219-346`, sequential order. -/
def collect (g : Geo) (D : Doms) : Res Doms :=
  loop (collectDom g) (sweep g.domR g.domZ) D

/-- `hash_from_string`, `/repo/src/algo/common.cpp:219-226`: the characters as
(ASCII) numbers; the result is truncated to `unsigned short` by the assignment and
the final mask does nothing. -/
def hashStr (salt : Nat) (s : List Nat) : Nat :=
  s.foldl (fun ret c => (ret ^^^ ((ret <<< 5) + c + (ret >>> 2))) % 65536) salt

/-- Identifier of a particle species, `/repo/src/cfg.cpp:183`, `/repo/include/cfg.hpp:38`. -/
def specieId (name : String) : Nat := hashStr 1394 (name.toList.map Char.toNat)

end SMB
end Pico
