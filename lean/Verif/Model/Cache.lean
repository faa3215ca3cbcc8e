import Verif.Model.Base

/-!
# The cache of the analysis library

`/repo/lib/python/picopic/tinycache.py`: the class `TinyCache`, a store for arrays in memory and in files of a directory.

Simplified: the working directory is the root of the file system; there are no links, permissions, limits of names or of space.  Numbers are exact
(`tofile` and `fromfile` keep all bits of a double).
-/

namespace Pico
namespace Cache

abbrev Key := List Char
/-- A place in the file system: the names from the root. -/
abbrev Path := List (List Char)

/-- A `numpy` array of doubles: its sizes and its elements in the order of memory. -/
structure Arr (K : Type) where
  sizes : List Nat
  data : List K
  deriving DecidableEq

/-- Directories, files and the arrays of the Python processes.  Arrays are shared: who changes one, changes it for all who hold it. -/
structure World (K : Type) where
  isDir : Path → Bool
  files : Path → Option (List K)
  heap : List (Arr K)

/-- The object: `self.path` and `self.__cache__`, `tinycache.py:26-33`. -/
structure Tiny where
  path : Path
  mem : Key → Option Nat

variable {K : Type}

/-- The names in a path, separated by `/`. -/
def split : List Char → List (List Char)
  | [] => [[]]
  | c :: cs => if c = '/' then [] :: split cs else match split cs with
    | [] => [[c]]
    | w :: ws => (c :: w) :: ws

/-- How the file system follows a path from the place `p`. -/
def walk (isDir : Path → Bool) (p : Path) : List (List Char) → Option Path
  | [] => some p
  | c :: cs =>
    if isDir p = false then none
    else if c = [] ∨ c = ['.'] then walk isDir p cs
    else if c = ['.', '.'] then walk isDir p.dropLast cs
    else walk isDir (p ++ [c]) cs

/-- `TinyCache(path)`, `tinycache.py:27-33`; `path` is an absolute path. `os.makedirs` fails if there is a file on the way. -/
def create (w : World K) (path : Path) : Res (World K × Tiny) :=
  if (List.range (path.length + 1)).any fun n => (w.files (path.take n)).isSome then .fatal
  else .ok ({ w with isDir := fun q => w.isDir q || q.isPrefixOf path }, ⟨path, fun _ => none⟩)

/-- `__cache_path__`, `tinycache.py:35-36`: `os.path.join` takes a key that begins with `/` alone. -/
def place (w : World K) (c : Tiny) (k : Key) : Option Path :=
  walk w.isDir (if k.head? = some '/' then [] else c.path) (split k)

/-- What the file of a key has, if there is one. -/
def fileOf (w : World K) (c : Tiny) (k : Key) : Option (List K) := (place w c k).bind w.files

/-- `__contains__`, `tinycache.py:39-45`. -/
def contains (w : World K) (c : Tiny) (k : Key) : Bool := (c.mem k).isSome || (fileOf w c k).isSome

/-- `get_cache`, `tinycache.py:48-59`: the array in memory, or a new array with the elements of the file, or a new empty array. -/
def get (w : World K) (c : Tiny) (k : Key) : World K × Tiny × Nat :=
  match c.mem k with
  | some r => (w, c, r)
  | none => match fileOf w c k with
    | some l => ({ w with heap := w.heap ++ [⟨[l.length], l⟩] }, { c with mem := fun x => if x = k then some w.heap.length else c.mem x }, w.heap.length)
    | none => ({ w with heap := w.heap ++ [⟨[0], []⟩] }, c, w.heap.length)

/-- `tofile`, `tinycache.py:67`: the elements without the sizes; `none` if it raises an exception. -/
def toFile (w : World K) (c : Tiny) (k : Key) (l : List K) : Option (World K) :=
  match place w c k with
  | none => none
  | some p => if w.isDir p then none else some { w with files := fun q => if q = p then some l else w.files q }

/-- `update_cache`, `tinycache.py:62-67`, with an array of doubles, which `numpy.asarray` does not copy.  The memory is updated before the file; the flag tells
whether there was no exception. -/
def update (w : World K) (c : Tiny) (k : Key) (r : Nat) : World K × Tiny × Bool :=
  let c' : Tiny := { c with mem := fun x => if x = k then some r else c.mem x }
  match w.heap[r]? with
  | none => (w, c, false)
  | some a => match toFile w c k a.data with
    | none => (w, c', false)
    | some w' => (w', c', true)

/-- The caller makes an array. -/
def make (w : World K) (a : Arr K) : World K × Nat := ({ w with heap := w.heap ++ [a] }, w.heap.length)

/-- The caller changes an array in place. -/
def assign (w : World K) (r : Nat) (a : Arr K) : World K := { w with heap := w.heap.set r a }

/-- `update_cache` with an array made for it. -/
def store (w : World K) (c : Tiny) (k : Key) (a : Arr K) : World K × Tiny × Bool :=
  let m := make w a
  update m.1 c k m.2

/-- The process ends while `update_cache` is writing: the file has only the first `n` elements. -/
def interrupted (w : World K) (c : Tiny) (k : Key) (a : Arr K) (n : Nat) : World K := (toFile w c k (a.data.take n)).getD w

/-- The statements at the end of the module, `tinycache.py:70-85`, which every import executes. -/
def onImport (w : World K) (num150 : K) : Res (World K) :=
  create w ["tmp".toList, "tinycache".toList] >>= fun (w, c) =>
  let (w, c, done) := store w c "test".toList ⟨[], [num150]⟩
  if done then .ok (get w c "test".toList).1 else .fatal

end Cache
end Pico
