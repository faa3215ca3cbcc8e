import Mathlib.Data.List.Basic

/-!
# Running notebooks with other values of variables  (`/repo/tools/nbrun.sh`)

The copy of the notebook after the loop over the arguments (lines 25-30).  Only lines of source code are modelled, in the form in which
notebooks store them.  The conversion to a script and its execution are not modelled.  Arguments are without blanks (the shell would take
them as several words), patterns of file names, and characters with a special meaning for `sed` (`&`, `|`, backslashes; in names also those
of regular expressions).
-/

namespace Pico
namespace Nbrun

/-- A line of source code; the last one of a cell has no end of line. -/
structure Line where
  text : List Char
  last : Bool := false
  deriving DecidableEq

/-- A text inside of quotes in JSON. -/
def esc : List Char → List Char
  | [] => []
  | c :: t =>
    if c = '"' then '\\' :: '"' :: esc t
    else if c = '\\' then '\\' :: '\\' :: esc t
    else if c = '\t' then '\\' :: 't' :: esc t
    else c :: esc t

/-- What follows the text of the line. -/
def ending (last : Bool) : List Char := if last then ['"'] else ['\\', 'n', '"', ',']

/-- A line of code as it is stored in a notebook. -/
def stored (l : Line) : List Char := ' ' :: ' ' :: ' ' :: ' ' :: '"' :: (esc l.text ++ ending l.last)

/-- What follows a given beginning. -/
def after : List Char → List Char → Option (List Char)
  | [], s => some s
  | _ :: _, [] => none
  | c :: p, d :: s => if c = d then after p s else none

/-- `/repo/tools/nbrun.sh:29`.  `.*\\n"`: as long as possible; what follows. -/
def closing : List Char → Option (List Char)
  | [] => none
  | c :: t =>
    match closing t with
    | some r => some r
    | none => after ['\\', 'n', '"'] (c :: t)

/-- `/repo/tools/nbrun.sh:29`.  The pattern `"${VAR}[[:blank:]]*=.*\\n"` at the beginning of a text; what follows the match. -/
def found (v s : List Char) : Option (List Char) :=
  match after ('"' :: v) s with
  | some t =>
    match t.dropWhile (fun c => c = ' ' || c = '\t') with
    | '=' :: t => closing t
    | _ => none
  | none => none

/-- `/repo/tools/nbrun.sh:29`.  `sed "s|…|\"${VAR}=${VAL}\\n\"|g"` in one line, from its `k`-th character on. -/
def sed (v x : List Char) : Nat → List Char → List Char
  | _, [] => []
  | k + 1, _ :: t => sed v x k t
  | 0, c :: t =>
    match found v (c :: t) with
    | some r => '"' :: (v ++ '=' :: (x ++ ['\\', 'n', '"'])) ++ sed v x (t.length - r.length) t
    | none => c :: sed v x 0 t

/-- `/repo/tools/nbrun.sh:26`.  `cut -d'=' -f1` (a text without the separator is printed as it is). -/
def name (a : List Char) : List Char := a.takeWhile (· ≠ '=')

/-- `/repo/tools/nbrun.sh:27`.  `cut -d'=' -f2`. -/
def value (a : List Char) : List Char :=
  match a.dropWhile (· ≠ '=') with
  | [] => a
  | _ :: t => t.takeWhile (· ≠ '=')

/-- `/repo/tools/nbrun.sh:25-30`.  All arguments, one after the other, in a line of the copy. -/
def substituted (args : List (List Char)) (s : List Char) : List Char :=
  args.foldl (fun s a => sed (name a) (value a) 0 s) s

end Nbrun
end Pico
