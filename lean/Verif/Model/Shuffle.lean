import Verif.Model.Pairing

/-!
# `random_sort` with its random numbers  (`/repo/src/collisions.cpp:110-120`)

`std::random_shuffle` is a function of the C++ library; the one of the GNU library is modelled.  `std::rand` gives for every seed a sequence of
numbers.  With several threads other domains draw from the same generator in between; every cell may then see any sequence of numbers, which is
why the sequences are a parameter (`stream`), and `seeded` is the case of one thread.
-/

namespace Pico
namespace Coll

/-- `std::iter_swap` of the elements number `i` and `j`. -/
def swapAt {α : Type _} (l : List α) (i j : Nat) : List α :=
  match l[i]?, l[j]? with
  | some x, some y => (l.set i y).set j x
  | _, _ => l

/-- `std::random_shuffle(first, last)` of the GNU library: for every element from the second on, swap it with the element number
`rand() % (its number + 1)`. -/
def shuffle {α : Type _} (rand : Nat → Nat) (l : List α) : List α :=
  (List.range (l.length - 1)).foldl (fun l k => swapAt l (k + 1) (rand k % (k + 2))) l

/-- `random_sort`, `/repo/src/collisions.cpp:111-120`; the sequence continues with the ions where the electrons have left it. -/
def randomSort (stream : Nat → Nat → Nat → Nat) (nr nz : Nat) (m : Maps) : Res Maps :=
  loop (fun p m =>
    m.el.get p.1 p.2 >>= fun e => m.el.set p.1 p.2 (shuffle (stream p.1 p.2) e) >>= fun el =>
    m.ion.get p.1 p.2 >>= fun i => m.ion.set p.1 p.2 (shuffle (fun k => stream p.1 p.2 (e.length - 1 + k)) i) >>= fun ion =>
    .ok ⟨el, ion⟩) (idx2 0 nr 0 nz) m

/-- `std::srand(std::time(0))` in every cell: the sequence is that of the second of the clock. -/
def seeded (rand : Nat → Nat → Nat) (clock : Nat → Nat → Nat) (i j : Nat) : Nat → Nat := rand (clock i j)

end Coll
end Pico
