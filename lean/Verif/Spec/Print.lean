import Verif.Model.Print
import Verif.Spec.Conv

/-!
# Specification vocabulary: printed images
-/

namespace TinyDIP.Print

open TinyDIP TinyDIP.Cli

variable {α : Type}

/-- The layout of a printed image. The sizes are listed from the outermost (slowest) to the innermost; `outer`
are the coordinates already chosen. The innermost dimension is one line of elements, each followed by the
separator; every other dimension is the list of its parts, each followed by an end of line, and one more end of
line. -/
def layout (el : α → Str) (sep : Str) (f : List Nat → α) : List Nat → List Nat → Str
  | [], _ => []
  | [n], outer => (List.range n).flatMap fun i => el (f (i :: outer)) ++ sep
  | n :: m :: more, outer =>
    ((List.range n).flatMap fun i => layout el sep f (m :: more) (i :: outer) ++ ['\n']) ++ ['\n']

/-- Different elements have different texts, without ends of lines, and the separator starts with a character
that occurs in none of them and contains no end of line. -/
def Legible (el : α → Str) (sep : Str) : Prop :=
  (∀ a b, el a = el b → a = b) ∧ (∀ a, '\n' ∉ el a) ∧
    ∃ c cs, sep = c :: cs ∧ '\n' ∉ sep ∧ ∀ a, c ∉ el a

end TinyDIP.Print
