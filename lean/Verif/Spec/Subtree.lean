import Verif.Model.Subtree
import Verif.Spec.Config

/-!
# Asking for parts of the recorded configuration
-/

namespace Pico
namespace Subtree

open Config

/-- The text that asks for a path: `[a][b]…`. -/
def asked (p : List String) : List Char := p.flatMap fun k => '[' :: (k.toList ++ [']'])

/-- A key as they occur in configurations: without brackets, quotes, escapes and ends of lines. -/
def Plain (k : String) : Prop := ∀ c ∈ k.toList, c ∉ ['[', ']', '"', '\\', '\n', '\r']

end Subtree
end Pico
