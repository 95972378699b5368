/-!
# Outcomes of modelled C++ calls

Not a model of one file: the outcome type used by every modelled function.
`ok a` is a normal return, `throw e` a C++ exception, `ub` undefined behaviour.
-/

namespace TinyDIP

/-- The exception classes thrown by the modelled code (`std::runtime_error`, `std::out_of_range`,
`std::logic_error`, `std::invalid_argument`). image.h 102-168, image_operations.h 250-274 and all other
`throw` statements. -/
inductive Exc
  | runtime
  | outOfRange
  | logic
  | invalidArg
  deriving DecidableEq, Repr

/-- Outcome of a modelled call. Not from the repository: the way every modelled call of image.h,
image_operations.h and the other files ends. -/
inductive Res (α : Type)
  | ok (a : α)
  | throw (e : Exc)
  | ub
  deriving DecidableEq, Repr

namespace Res

/-- Sequencing: an exception or undefined behaviour ends the computation. Not from the repository: the
meaning of consecutive statements in the modelled files (*.h, *.cpp). -/
@[inline] def bind {α : Type} {β : Type} (r : Res α) (f : α → Res β) : Res β :=
  match r with
  | ok a => f a
  | throw e => throw e
  | ub => ub

/-- Not from the repository: notation for sequencing. -/
instance : Monad Res where
  pure := ok
  bind := bind

@[simp] theorem pure_eq {α : Type} (a : α) : (pure a : Res α) = ok a := rfl
@[simp] theorem ok_bind {α β : Type} (a : α) (f : α → Res β) : (ok a >>= f) = f a := id rfl
@[simp] theorem throw_bind {α β : Type} (e : Exc) (f : α → Res β) :
    ((throw e : Res α) >>= f) = throw e := id rfl
@[simp] theorem ub_bind {α β : Type} (f : α → Res β) : ((ub : Res α) >>= f) = ub := id rfl

/-- Not from the repository: the laws of sequencing. -/
instance : LawfulMonad Res := LawfulMonad.mk'
  (id_map := by intro α x; cases x <;> rfl)
  (pure_bind := by intros; rfl)
  (bind_assoc := by intro α β γ x f g; cases x <;> rfl)

/-- The call returned normally. Not from the repository. -/
def isOk {α : Type} : Res α → Bool
  | ok _ => true
  | _ => false

/-- The call threw an exception. Not from the repository. -/
def isThrow {α : Type} : Res α → Bool
  | throw _ => true
  | _ => false

end Res

/-- `std::size_t` is modelled by natural numbers with explicit reduction modulo `W = 2^64`. Not from the
repository: the width of `std::size_t`. -/
def W : Nat := 2 ^ 64

/-- Unsigned 64-bit addition, multiplication and subtraction (wrap-around). Not from the repository: C++
arithmetic on `std::size_t`. -/
def wadd (a b : Nat) : Nat := (a + b) % W

/-- Unsigned 64-bit multiplication. Not from the repository: C++ arithmetic on `std::size_t`. -/
def wmul (a b : Nat) : Nat := (a * b) % W

/-- Unsigned 64-bit subtraction. Not from the repository: C++ arithmetic on `std::size_t`. -/
def wsub (a b : Nat) : Nat := (a + (W - b % W)) % W

/-- `std::vector::operator[]` read: undefined behaviour when out of range. Not from the repository: element
access as used throughout image.h and image_operations.h. -/
def vget {α : Type} (l : List α) (i : Nat) : Res α :=
  match l[i]? with
  | some a => .ok a
  | none => .ub

/-- `std::vector::operator[]` write: undefined behaviour when out of range. Not from the repository: element
access as used throughout image.h and image_operations.h. -/
def vset {α : Type} (l : List α) (i : Nat) (v : α) : Res (List α) :=
  if i < l.length then .ok (l.set i v) else .ub

/-- A `for` loop over the given iterations, in order; stops at the first exception or undefined behaviour.
Not from the repository: the `for` statements of the modelled files. -/
def loop {σ : Type} {β : Type} (body : σ → β → Res σ) : List β → σ → Res σ
  | [], s => .ok s
  | b :: bs, s =>
    match body s b with
    | .ok s' => loop body bs s'
    | .throw e => .throw e
    | .ub => .ub

/-- `for (i = 0; i < n; ++i)`. Not from the repository: the `for` statements of the modelled files. -/
def forUp {σ : Type} (n : Nat) (body : σ → Nat → Res σ) (s : σ) : Res σ :=
  loop body (List.range n) s

/-- Iterations of `for (y = 0; y < h; ++y) for (x = 0; x < w; ++x)`, in program order, as pairs `(x, y)`.
Not from the repository: the nested loops of image_operations.h, e.g. 1950-1953. -/
def iterYX (w h : Nat) : List (Nat × Nat) :=
  (List.range h).flatMap fun y => (List.range w).map fun x => (x, y)

/-- Iterations of `for (x = 0; x < w; ++x) for (y = 0; y < h; ++y)`, in program order, as pairs `(x, y)`.
Not from the repository: the nested loops of image_operations.h. -/
def iterXY (w h : Nat) : List (Nat × Nat) :=
  (List.range w).flatMap fun x => (List.range h).map fun y => (x, y)

/-- A loop over pixel coordinates in the given order. Not from the repository: the nested loops of
image_operations.h. -/
def pixFor {σ : Type} (order : List (Nat × Nat)) (body : σ → Nat → Nat → Res σ) (s : σ) : Res σ :=
  loop (fun s p => body s p.1 p.2) order s

end TinyDIP
