import Verif.Model.Grid

/-!
# Exchange of overlay columns between processes
`/repo/src/SMB.cpp:598-781` (MPI part of `current_overlay`; the field variants have the
same structure).

Each of `n` processes is a list of blocking operations.  Messages between one ordered
pair of processes are delivered in order.  `cap` is the number of messages the MPI
library buffers per ordered pair before `MPI_Send` blocks (`0`: rendezvous).
The final `MPI_Barrier` is the state in which all lists are exhausted.
-/

namespace Pico
namespace Mpi

variable {M : Type _}

/-- A blocking operation. -/
inductive Op (M : Type _) where
  | send (dst : Nat) (msg : M)
  | recv (src : Nat)

/-- Operations of process `k` of `n`: `plus k` are the items packed for the next
process (`domains_plus`), `minus k` those for the previous one; one item per domain
row, `/repo/src/SMB.cpp:676-705`. -/
def prog (n : Nat) (plus minus : Nat → List M) (k : Nat) : List (Op M) :=
  (if k + 1 < n then
    (plus k).map (.send (k + 1)) ++ (plus k).map (fun _ => .recv (k + 1)) else []) ++
  (if 0 < k ∧ k < n then
    (minus k).map (.send (k - 1)) ++ (minus k).map (fun _ => .recv (k - 1)) else [])

/-- Global state: remaining operations, buffered messages (source, destination),
messages received (receiver, source). -/
structure State (M : Type _) where
  rest : Nat → List (Op M)
  chan : Nat → Nat → List M
  got : Nat → Nat → List M

/-- Before the exchange. -/
def init (n : Nat) (plus minus : Nat → List M) : State M :=
  ⟨prog n plus minus, fun _ _ => [], fun _ _ => []⟩

/-- All processes have reached the barrier. -/
def Final (s : State M) : Prop := ∀ k, s.rest k = []

/-- Update of one entry. -/
def set1 {α : Type _} (f : Nat → α) (k : Nat) (v : α) : Nat → α := fun a => if a = k then v else f a

/-- Update of one entry of a matrix. -/
def set2 {α : Type _} (f : Nat → Nat → α) (k l : Nat) (v : α) : Nat → Nat → α :=
  fun a b => if a = k ∧ b = l then v else f a b

/-- One step of some process (or of two, for a rendezvous). -/
inductive Step (cap : Nat) : State M → State M → Prop where
  /-- `MPI_Send` returns after the message was buffered. -/
  | send (s : State M) (k l : Nat) (msg : M) (r : List (Op M)) :
      s.rest k = .send l msg :: r → (s.chan k l).length < cap →
      Step cap s ⟨set1 s.rest k r, set2 s.chan k l (s.chan k l ++ [msg]), s.got⟩
  /-- `MPI_Recv` takes the oldest buffered message. -/
  | recv (s : State M) (k l : Nat) (msg : M) (ch : List M) (r : List (Op M)) :
      s.rest l = .recv k :: r → s.chan k l = msg :: ch →
      Step cap s ⟨set1 s.rest l r, set2 s.chan k l ch, set2 s.got l k (s.got l k ++ [msg])⟩
  /-- Direct transfer between a blocked sender and a waiting receiver. -/
  | rdv (s : State M) (k l : Nat) (msg : M) (r r' : List (Op M)) :
      k ≠ l → s.rest k = .send l msg :: r → s.rest l = .recv k :: r' → s.chan k l = [] →
      Step cap s ⟨set1 (set1 s.rest k r) l r', s.chan, set2 s.got l k (s.got l k ++ [msg])⟩

/-- States reachable from the start of the exchange. -/
inductive Reach (cap n : Nat) (plus minus : Nat → List M) : State M → Prop where
  | start : Reach cap n plus minus (init n plus minus)
  | step {s s' : State M} : Reach cap n plus minus s → Step cap s s' → Reach cap n plus minus s'

/-! ## Packing and adding the columns -/

variable {T : Type _}

/-- Column `q` (0..3) of `item_plus` of a domain: logical column
`y_size + o_s - 4 + q`, all allocated rows, `/repo/src/SMB.cpp:625-645`
(one component).  `a` is the real row number. -/
def packPlus (g : Grid T) (q a : Nat) : Res T :=
  g.get ((a : Int) - g.os) ((g.ys : Int) + g.os - 4 + q)

/-- Column `q` of `item_minus`: logical column `q - o_s`, `/repo/src/SMB.cpp:658-676`. -/
def packMinus (g : Grid T) (q a : Nat) : Res T := g.get ((a : Int) - g.os) ((q : Int) - g.os)

/-- Adding a received item to the first domain, `/repo/src/SMB.cpp:722-744`.  Each
(row, column) is incremented once, row by row. -/
def addMinus [Add T] (g : Grid T) (item : Nat → Nat → T) : Res (Grid T) :=
  loop (fun p h => h.inc ((p.1 : Int) - g.os) ((p.2 : Int) - g.os) (item p.2 p.1))
    (idx2 0 g.xr 0 4) g

/-- Adding a received item to the last domain, `/repo/src/SMB.cpp:759-778`: the
columns in the order 3, 2, 1, 0. -/
def addPlus [Add T] (g : Grid T) (item : Nat → Nat → T) : Res (Grid T) :=
  loop (fun p h => h.inc ((p.1 : Int) - g.os) ((g.ys : Int) + g.os - 1 - (p.2 : Int))
    (item (3 - p.2) p.1)) (idx2 0 g.xr 0 4) g

end Mpi
end Pico
