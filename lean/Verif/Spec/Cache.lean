import Verif.Model.Cache

/-! # C132 — what a store of arrays is expected to do -/

namespace Pico
namespace Cache

variable {K : Type}

/-- A key that is a plain name of a file. -/
def Simple (k : Key) : Prop := k ≠ [] ∧ k ≠ ['.'] ∧ k ≠ ['.', '.'] ∧ '/' ∉ k

/-- A list of numbers as an array. -/
def flat (l : List K) : Arr K := ⟨[l.length], l⟩

/-- What users of the caches do; `i` tells which cache.  `restart` ends the process and makes the cache anew, `crash` does so while `n` of the numbers of `v`
have been written. -/
inductive Ev (K : Type)
  | store (i : Nat) (k : Key) (v : List K)
  | get (i : Nat) (k : Key)
  | restart (i : Nat)
  | crash (i : Nat) (k : Key) (v : List K) (n : Nat)

def Ev.cache : Ev K → Nat
  | .store i _ _ | .get i _ | .restart i | .crash i _ _ _ => i

/-- Only plain names are used as keys. -/
def Ev.Plain : Ev K → Prop
  | .store _ k _ | .get _ k | .crash _ k _ _ => Simple k
  | .restart _ => True

/-- The expected store: for every cache and every key the numbers stored last, whatever happened since, and what a `get` answers: these numbers, or none.  Only a
crash loses a part of what is being stored. -/
def expected (m : Nat → Key → Option (List K)) : List (Ev K) → List (List K)
  | [] => []
  | .store i k v :: es => expected (fun j x => if j = i ∧ x = k then some v else m j x) es
  | .get i k :: es => (m i k).getD [] :: expected m es
  | .restart _ :: es => expected m es
  | .crash i k v n :: es => expected (fun j x => if j = i ∧ x = k then some (v.take n) else m j x) es

/-- What happens: the answers of `get_cache`, `fatal` if there was an exception. -/
def happens (w : World K) (cs : Nat → Tiny) : List (Ev K) → Res (List (Arr K))
  | [] => .ok []
  | .store i k v :: es =>
    let o := store w (cs i) k (flat v)
    if o.2.2 then happens o.1 (fun j => if j = i then o.2.1 else cs j) es else .fatal
  | .get i k :: es =>
    let o := get w (cs i) k
    match o.1.heap[o.2.2]? with
    | none => .ub
    | some a => happens o.1 (fun j => if j = i then o.2.1 else cs j) es >>= fun l => .ok (a :: l)
  | .restart i :: es => create w (cs i).path >>= fun o => happens o.1 (fun j => if j = i then o.2 else cs j) es
  | .crash i k v n :: es => create (interrupted w (cs i) k (flat v) n) (cs i).path >>= fun o => happens o.1 (fun j => if j = i then o.2 else cs j) es

/-- The caches were just made, in different directories; in these directories there are files, but no directories with plain names, and nothing on the way is a file. -/
structure Fresh (w : World K) (cs : Nat → Tiny) : Prop where
  empty : ∀ i k, (cs i).mem k = none
  apart : ∀ i j, (cs i).path = (cs j).path → i = j
  dirs : ∀ i n, w.isDir ((cs i).path.take n) = true
  leaves : ∀ i k, Simple k → w.isDir ((cs i).path ++ [k]) = false
  free : ∀ i n, w.files ((cs i).path.take n) = none

end Cache
end Pico
