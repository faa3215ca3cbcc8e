import Verif.Model.Nbrun

/-!
# What running a notebook with other values means
-/

namespace Pico
namespace Nbrun

/-- The line gives a value to `v`: its name, spaces and an equals sign. -/
def Assigns (v t : List Char) : Prop := ∃ n r, t = v ++ (List.replicate n ' ' ++ '=' :: r)

/-- A name of a variable. -/
def IsName (v : List Char) : Prop := v ≠ [] ∧ ∀ c ∈ v, c.isAlphanum = true ∨ c = '_'

/-- A value that can be written in an argument. -/
def IsValue (x : List Char) : Prop := ∀ c ∈ x, c ∉ ['"', '\\', '\t', '=', '&', '|', ' ', '\n']

/-- The argument `v=x`. -/
def arg (a : List Char × List Char) : List Char := a.1 ++ '=' :: a.2

/-- No text in double quotes begins like an assignment to `v`. -/
def NotQuoted (v t : List Char) : Prop := ∀ a b, t = a ++ '"' :: b → ¬ Assigns v b

end Nbrun
end Pico
