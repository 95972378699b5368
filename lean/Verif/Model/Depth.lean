/-!
# The depth of nested containers (basic_functions.h 223-254 and 466-533)

These functions are computed by the compiler, from types. A type is modelled by what matters to them: whether it is a range
and what its elements are. A text is a range of characters.
-/

namespace TinyDIP.Depth

/-- The types: numbers and other types that are not ranges, by their name; texts; containers with elements of a type, by
the name of the container. Simplification: no type is a range of itself, as `std::filesystem::path` is. -/
inductive Ty where
  | single (name : String)
  | text
  | container (name : String) (element : Ty)
  deriving DecidableEq, Repr

/-- `std::ranges::range_value_t`; no type that is not a range has one. Used in basic_functions.h 476, 490, 505. -/
def valueType : Ty → Option Ty
  | .single _ => none
  | .text => some (.single "char")
  | .container _ t => some t

/-- basic_functions.h 466-477 `recursive_depth<T>()`; the depth of the characters of a text is zero. -/
def depth : Ty → Nat
  | .single _ => 0
  | .text => 0 + 1
  | .container _ t => depth t + 1

/-- basic_functions.h 479-491 `recursive_depth<T_Base, T>()`. -/
def depthTo (base : Ty) : Ty → Nat
  | .single _ => 0
  | .text => if .text = base then 0 else 0 + 1
  | .container c t => if .container c t = base then 0 else depthTo base t + 1

/-- basic_functions.h 495: `recursive_depth<T...>()` of a pack. Two types select the version with a target type (481, 488);
no version takes another number. -/
def depthPack : List Ty → Option Nat
  | [t] => some (depth t)
  | [b, t] => some (depthTo b t)
  | _ => none

/-- The types of the elements of every type of a pack. basic_functions.h 505. -/
def valueTypes : List Ty → Option (List Ty)
  | [] => some []
  | t :: ts =>
    match valueType t, valueTypes ts with
    | some u, some us => some (u :: us)
    | _, _ => none

/-- basic_functions.h 493-508, the body of `is_recursive_invocable<unwrap_level, F, T...>()` and its `requires` clause;
`accepts` is `std::invocable<F, T...>`. `none`: the clause fails, or a type that is not a range is unwrapped. -/
def isInvocable (accepts : List Ty → Bool) : Nat → List Ty → Option Bool
  | 0, ts =>
    match depthPack ts with
    | none => none
    | some d => if 0 ≤ d then some (accepts ts) else none
  | n + 1, ts =>
    match depthPack ts with
    | none => none
    | some d =>
      if n + 1 ≤ d then
        match valueTypes ts with
        | none => none
        | some us => isInvocable accepts n us
      else none

/-- basic_functions.h 510-513, the concept `recursive_invocable`: not satisfied when the call is not valid. Simplification:
a failure in an inner call, which is a compilation error, is not satisfied either. -/
def recursiveInvocable (accepts : List Ty → Bool) (level : Nat) (ts : List Ty) : Bool :=
  (isInvocable accepts level ts).getD false

/-- Matching a type against `Container1<Ts1...>`, all of whose parameters are types: `std::array`, with a number, does not
match. basic_functions.h 233, 239. -/
def matched : Ty → Option Ty
  | .container c t => if c = "array" then none else some t
  | t => valueType t

/-- basic_functions.h 223-254 `recursive_unwrap_type_t<unwrap_level, T>` of one type; `none`: no member `type`. -/
def unwrapType : Nat → Ty → Option Ty
  | 0, t => some t
  | 1, t => matched t
  | n + 2, t =>
    match matched t with
    | none => none
    | some u => unwrapType (n + 1) u

end TinyDIP.Depth
