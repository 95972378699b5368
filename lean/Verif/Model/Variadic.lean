import Verif.Model.Image

/-!
# Selecting one of several arguments (basic_functions.h 624-656)

The packs are lists; the elements have types of their own, which play no part.
-/

namespace TinyDIP.Variadic

open TinyDIP

variable {α : Type}

/-- basic_functions.h 624-631 `get_from_variadic_template<index>(first, inputs...)`; `none`: the call does not compile. -/
def pickValue : Nat → List α → Option α
  | _, [] => none
  | index, first :: inputs => if index > 1 then pickValue (index - 1) inputs else some first

/-- basic_functions.h 633-637 `first_of`. -/
def firstOf (inputs : List α) : Option α := pickValue 1 inputs

/-- basic_functions.h 639-656 `get_from_variadic_template_t<index, Ts...>`; `none`: there is no member `type`. The index is
a `size_t`, so that `0 - 1` is the greatest one. -/
def pickType : Nat → List α → Option α
  | _, [] => none
  | index, t :: ts => if index = 1 then some t else pickType (wsub index 1) ts

end TinyDIP.Variadic
