import Verif.Model.Depth

/-!
# The type of the result of a function applied inside containers (basic_functions.h 256-371)

Simplification: allocators and
character traits are no part of a type.
-/

namespace TinyDIP.Depth

/-- `Container<result>` for the container of a type that matches `Container<Ts...>`; a text is a `std::basic_string` of
characters. basic_functions.h 269. -/
def rebuild : Ty → Ty → Option Ty
  | .single _, _ => none
  | .text, r => some (if r = .single "char" then .text else .container "basic_string" r)
  | .container c _, r => if c = "array" then none else some (.container c r)

/-- basic_functions.h 256-273 `recursive_invoke_result_t<unwrap_level, F, T>`; `f` is `std::invoke_result_t<F, T>`, where
`F` can be called. `none`: no member `type`. -/
def invokeResult (f : Ty → Option Ty) : Nat → Ty → Option Ty
  | 0, t => f t
  | n + 1, t =>
    match matched t with
    | none => none
    | some u =>
      match invokeResult f n u with
      | none => none
      | some r => rebuild t r

/-- basic_functions.h 275-313 `recursive_variadic_invoke_result_t<unwrap_level, F, T1, Ts...>`; the pack is a list. -/
def variadicResult (f : List Ty → Option Ty) : Nat → List Ty → Option Ty
  | 0, ts => f ts
  | _ + 1, [] => none
  | n + 1, t :: ts =>
    match matched t, valueTypes ts with
    | some u, some us =>
      match variadicResult f n (u :: us) with
      | none => none
      | some r => rebuild t r
    | _, _ => none

/-- The elements of a type that matches `Container<T, N>`, i.e. of a `std::array`. basic_functions.h 320-324. -/
def arrayElement : Ty → Option Ty
  | .container c t => if c = "array" then some t else none
  | _ => none

/-- basic_functions.h 316-371 `recursive_array_invoke_result_t<unwrap_level, F, Container<T, N>, Ts...>`. Simplification:
the length `N`, which is kept, is no part of a type. -/
def arrayResult (f : List Ty → Option Ty) : Nat → List Ty → Option Ty
  | _, [] => none
  | 0, t :: ts =>
    match arrayElement t with
    | none => none
    | some _ => f (t :: ts)
  | 1, t :: ts =>
    match arrayElement t, valueTypes ts with
    | some u, some us =>
      match f (u :: us) with
      | none => none
      | some r => some (.container "array" r)
    | _, _ => none
  | n + 2, t :: ts =>
    match arrayElement t, valueTypes ts with
    | some u, some us =>
      match arrayResult f (n + 1) (u :: us) with
      | none => none
      | some r => some (.container "array" r)
    | _, _ => none

end TinyDIP.Depth
