import Verif.Model.Config

/-!
# Showing parts of the recorded configuration  (`/repo/tools/parse_metadata.py:120-194`)

Options `--comment`, `--bo` and `--subtree`.  `--phys-info` is in `Model/PhysInfo.lean`.  Finding the file and reading the record from it is
in `Model/MetaReader.lean`; here the record is the value it denotes.  The layout of the printed text (`json.dumps`, colours) is not
modelled: the tool shows a value.
-/

namespace Pico
namespace Subtree

open Config

variable {K : Type}

/-- How the tool ends. -/
inductive Shown (K : Type) where
  /-- Prints the value. -/
  | value (v : Json K)
  /-- Prints a message and ends with code 1. -/
  | refused
  /-- Ends with a trace of the interpreter. -/
  | crash
  /-- Gives the text to `eval`, and it is no chain of `["…"]`: it runs as a program. -/
  | program (t : List Char)

/-- `/repo/tools/parse_metadata.py:124-141`.  `args`. -/
structure Args where
  comment : Bool := false
  bo : Bool := false
  /-- `None` is the empty text: both are false. -/
  subtree : List Char := []

/-- `config[k]`: a missing key of a `dict` is a `KeyError`, a text as index of anything else is a `TypeError`. -/
def index (v : Json K) (k : String) : Shown K :=
  match v with
  | .obj l =>
    match look l k with
    | some w => .value w
    | none => .refused
  | _ => .crash

/-- `/repo/tools/parse_metadata.py:174`.  `.replace('[', '["').replace(']', '"]')`. -/
def replaced : List Char → List Char
  | [] => []
  | c :: t =>
    if c = '[' then '[' :: '"' :: replaced t
    else if c = ']' then '"' :: ']' :: replaced t
    else c :: replaced t

/-- The inside of a text literal of Python up to its closing quote, and what follows.  Literals with escapes or ends of lines are not
modelled. -/
def literal : List Char → Option (List Char × List Char)
  | [] => none
  | c :: t =>
    if c = '"' then some ([], t)
    else if c = '\\' ∨ c = '\n' ∨ c = '\r' then none
    else (literal t).map fun p => (c :: p.1, p.2)

/-- The keys of a chain `["a"]["b"]…` (of at most `n` keys). -/
def chain : Nat → List Char → Option (List String)
  | _, [] => some []
  | 0, _ :: _ => none
  | n + 1, '[' :: '"' :: t =>
    match literal t with
    | some (k, ']' :: r) => (chain n r).map fun p => String.ofList k :: p
    | _ => none
  | _ + 1, _ :: _ => none

/-- `config["a"]["b"]…`, from left to right. -/
def walk : Json K → List String → Shown K
  | v, [] => .value v
  | v, k :: p =>
    match index v k with
    | .value w => walk w p
    | r => r

/-- `/repo/tools/parse_metadata.py:172-177`.  `eval('config' + …)`. -/
def evaluate (v : Json K) (t : List Char) : Shown K :=
  match chain (replaced t).length (replaced t) with
  | some p => walk v p
  | none => .program (replaced t)

/-- `/repo/tools/parse_metadata.py:161-190`. -/
def shown (a : Args) (config : Json K) : Shown K :=
  let b : Args := if a.comment then { a with bo := false, subtree := [] } else a
  match if a.comment then index config "comment" else .value config with
  | .value c =>
    let s := if b.bo then [] else b.subtree
    match if s.isEmpty then .value c else evaluate c s with
    | .value c => if b.bo then index c "build_options" else .value c
    | r => r
  | r => r

end Subtree
end Pico
