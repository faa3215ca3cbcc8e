import Verif.Model.Collector
import Verif.Model.Mpi

/-!
# Particle hand-over between processes
`/repo/src/SMB.cpp:194-562` (`SMB::particles_runaway_collector`) with the MPI blocks compiled in, and the split of the area
among the processes, `/repo/src/PiCoPiC.cpp:213-234`.
-/

namespace Pico
namespace SMB

/-- Geometry of process `id` of `procs`, `/repo/src/PiCoPiC.cpp:217-228` (walls and layers are not used here). -/
def procGeo (base : Geo) (procs id : Nat) : Geo :=
  { base with
    nz := base.nz / procs
    offZ := base.nz / procs * id
    domZ := base.domZ / procs }

/-- What happens to one particle. -/
inductive ActionM where
  | keep
  | drop
  | minus
  | plus
  | move (i j : Nat)
  deriving DecidableEq, Repr

/-- Decision for one particle, `/repo/src/SMB.cpp:235-341`; the tests for the neighbouring processes come before the one for
the outer radius.  See `classify` for the conventions. -/
def classifyM (g : Geo) (i j amtR amtZ : Nat) (o : Prt) : Res ActionM :=
  if amtR = 0 ∨ amtZ = 0 then .ub
  else if o.r < 0 ∨ o.z < 0 then .ok .drop
  else if o.z < g.offZ then .ok .minus
  else if o.z ≥ (g.offZ + g.nz : Nat) then .ok .plus
  else if o.r ≥ (g.offR + g.nr : Nat) then .ok .drop
  else if o.r < g.offR then .ub
  else
    let di := (o.r.toNat - g.offR) / amtR
    let dj := (o.z.toNat - g.offZ) / amtZ
    if di ≠ i ∨ dj ≠ j then
      if di < g.domR ∧ dj < g.domZ then .ok (.move di dj) else .ub
    else .ok .keep

/-- Domains and the two queues, `/repo/src/SMB.cpp:210-211`. -/
structure MState where
  doms : Doms
  minus : List Prt
  plus : List Prt

/-- The predicate applied to one particle, with its side effects, `/repo/src/SMB.cpp:235-341`; the second component collects
the particles that stay. -/
def collectOneM (g : Geo) (i j amtR amtZ id : Nat) (o : Prt) (s : MState × List Prt) : Res (MState × List Prt) :=
  classifyM g i j amtR amtZ o >>= fun
    | .keep => .ok (s.1, s.2 ++ [o])
    | .drop => .ok s
    | .minus => .ok ({ s.1 with minus := s.1.minus ++ [o] }, s.2)
    | .plus => .ok ({ s.1 with plus := s.1.plus ++ [o] }, s.2)
    | .move di dj => .ok ({ s.1 with doms := setDom s.1.doms di dj (pushTo id o (s.1.doms di dj)) }, s.2)

/-- One species of one domain, `/repo/src/SMB.cpp:228-343`. -/
def collectSpM (g : Geo) (i j : Nat) (k : Nat) (S : MState) : Res MState :=
  match (S.doms i j)[k]? with
  | none => .ub
  | some sp =>
    let d := domDims g i j
    loop (collectOneM g i j (d.r1 - d.r0) (d.z1 - d.z0) sp.id) sp.parts (S, []) >>= fun s =>
      .ok { s.1 with doms := setDom s.1.doms i j ((s.1.doms i j).set k { sp with parts := s.2 }) }

/-- All species of one domain, `/repo/src/SMB.cpp:224-226`. -/
def collectDomM (g : Geo) (p : Nat × Nat) (S : MState) : Res MState :=
  loop (collectSpM g p.1 p.2) (List.range (S.doms p.1 p.2).length) S

/-- The local part of the hand-over, `/repo/src/SMB.cpp:210-346`, sequential order. -/
def collectM (g : Geo) (D : Doms) : Res MState :=
  loop (collectDomM g) (sweep g.domR g.domZ) ⟨D, [], []⟩

/-- A received particle is put into its domain, `/repo/src/SMB.cpp:468-489` and `:525-546`.  `sid` is the number of the
species the particle carries (`specie_id`).  The size of domain `(0, 0)` is used; a cell below the block wraps around to a
domain number far outside the matrix. -/
def insertOne (g : Geo) (sid : Prt → Nat) (o : Prt) (D : Doms) : Res Doms :=
  let d := domDims g 0 0
  if d.r1 - d.r0 = 0 ∨ d.z1 - d.z0 = 0 then .ub
  else if o.r < g.offR ∨ o.z < g.offZ then .ub
  else
    let di := (o.r.toNat - g.offR) / (d.r1 - d.r0)
    let dj := (o.z.toNat - g.offZ) / (d.z1 - d.z0)
    if di < g.domR ∧ dj < g.domZ then .ok (setDom D di dj (pushTo (sid o) o (D di dj))) else .ub

/-- All received particles, first those from the previous process, `/repo/src/SMB.cpp:433-548`. -/
def insertAll (g : Geo) (sid : Prt → Nat) (fromPrev fromNext : List Prt) (D : Doms) : Res Doms :=
  loop (insertOne g sid) (fromPrev ++ fromNext) D

end SMB

namespace Mpi

variable {M : Type _}

/-- Messages of the particle exchange: the number of particles, then the particles, `/repo/src/SMB.cpp:377-428`. -/
inductive Msg (M : Type _) where
  | count (c : Nat)
  | item (m : M)

/-- Blocking operations of the particle exchange.  The number of receives depends on the number received before. -/
inductive HOp (M : Type _) where
  | send (dst : Nat) (msg : Msg M)
  | recvCount (src : Nat)
  | recvItem (src : Nat)

/-- What a process sends to a neighbour, `/repo/src/SMB.cpp:377-401` and `:404-428`. -/
def packet (dst : Nat) (l : List M) : List (HOp M) :=
  .send dst (.count l.length) :: l.map fun m => .send dst (.item m)

/-- Operations of process `k` of `n`, `/repo/src/SMB.cpp:375-548`: both sends first, then the receives from the previous and
from the next process. -/
def hprog (n : Nat) (plus minus : Nat → List M) (k : Nat) : List (HOp M) :=
  (if k + 1 < n then packet (k + 1) (plus k) else []) ++
  (if 0 < k ∧ k < n then packet (k - 1) (minus k) else []) ++
  (if 0 < k ∧ k < n then [.recvCount (k - 1)] else []) ++
  (if k + 1 < n then [.recvCount (k + 1)] else [])

/-- Remaining operations, buffered messages (source, destination), particles received (receiver, source). -/
structure HState (M : Type _) where
  rest : Nat → List (HOp M)
  chan : Nat → Nat → List (Msg M)
  got : Nat → Nat → List M

/-- Before the exchange, after the barrier of `/repo/src/SMB.cpp:355`. -/
def hinit (n : Nat) (plus minus : Nat → List M) : HState M := ⟨hprog n plus minus, fun _ _ => [], fun _ _ => []⟩

/-- All processes have reached the barrier of `/repo/src/SMB.cpp:551`. -/
def HFinal (s : HState M) : Prop := ∀ k, s.rest k = []

/-- One step of some process, or of two for a direct transfer, with `cap` messages buffered per ordered pair (see `Mpi.Step`).
A number that meets the receive of a particle, or the reverse, would be an error of the library: no step. -/
inductive HStep (cap : Nat) : HState M → HState M → Prop where
  | send (s : HState M) (k l : Nat) (msg : Msg M) (r : List (HOp M)) :
      s.rest k = .send l msg :: r → (s.chan k l).length < cap →
      HStep cap s ⟨set1 s.rest k r, set2 s.chan k l (s.chan k l ++ [msg]), s.got⟩
  | recvCount (s : HState M) (k l c : Nat) (ch : List (Msg M)) (r : List (HOp M)) :
      s.rest l = .recvCount k :: r → s.chan k l = .count c :: ch →
      HStep cap s ⟨set1 s.rest l (List.replicate c (.recvItem k) ++ r), set2 s.chan k l ch, s.got⟩
  | recvItem (s : HState M) (k l : Nat) (m : M) (ch : List (Msg M)) (r : List (HOp M)) :
      s.rest l = .recvItem k :: r → s.chan k l = .item m :: ch →
      HStep cap s ⟨set1 s.rest l r, set2 s.chan k l ch, set2 s.got l k (s.got l k ++ [m])⟩
  | rdvCount (s : HState M) (k l c : Nat) (r r' : List (HOp M)) :
      k ≠ l → s.rest k = .send l (.count c) :: r → s.rest l = .recvCount k :: r' → s.chan k l = [] →
      HStep cap s ⟨set1 (set1 s.rest k r) l (List.replicate c (.recvItem k) ++ r'), s.chan, s.got⟩
  | rdvItem (s : HState M) (k l : Nat) (m : M) (r r' : List (HOp M)) :
      k ≠ l → s.rest k = .send l (.item m) :: r → s.rest l = .recvItem k :: r' → s.chan k l = [] →
      HStep cap s ⟨set1 (set1 s.rest k r) l r', s.chan, set2 s.got l k (s.got l k ++ [m])⟩

/-- States after `m` steps. -/
inductive HRun (cap n : Nat) (plus minus : Nat → List M) : Nat → HState M → Prop where
  | start : HRun cap n plus minus 0 (hinit n plus minus)
  | step {m : Nat} {s s' : HState M} : HRun cap n plus minus m s → HStep cap s s' → HRun cap n plus minus (m + 1) s'

end Mpi

namespace SMB

/-- One hand-over of all processes: local part, exchange with some schedule, insertion.  `/repo/src/SMB.cpp:194-562`.
`D k` are the domains of process `k`. -/
def HandOver (base : Geo) (procs cap : Nat) (sid : Prt → Nat) (D D' : Nat → Doms) : Prop :=
  ∃ Q : Nat → MState, (∀ k, k < procs → collectM (procGeo base procs k) (D k) = .ok (Q k)) ∧
  ∃ m s, Mpi.HRun cap procs (fun k => (Q k).plus) (fun k => (Q k).minus) m s ∧ Mpi.HFinal s ∧
    ∀ k, k < procs → insertAll (procGeo base procs k) sid (if 0 < k then s.got k (k - 1) else [])
      (if k + 1 < procs then s.got k (k + 1) else []) (Q k).doms = .ok (D' k)

end SMB
end Pico
