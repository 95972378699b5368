import Verif.Model.Recursive

/-!
# Specification of the nested-container algorithms
-/

namespace TinyDIP.Rec

variable {α β : Type}

/-- The leaves of a nested container, from left to right. -/
def leaves : (n : Nat) → Nest α n → List α
  | 0, v => [v]
  | n + 1, l => (l : List (Nest α n)).flatMap fun e => leaves n e

/-- The innermost containers, from left to right. -/
def rows : (n : Nat) → Nest α (n + 1) → List (List α)
  | 0, l => [l]
  | n + 1, l => (l : List (Nest α (n + 1))).flatMap fun e => rows n e

/-- Equal sizes at every level. -/
def SameShape : (n : Nat) → Nest α n → Nest β n → Prop
  | 0, _, _ => True
  | n + 1, a, b => List.Forall₂ (fun x y => SameShape n x y) a b

/-- Equal sizes at every level but the innermost one. -/
def SameOuterShape : (n : Nat) → Nest α (n + 1) → Nest β (n + 1) → Prop
  | 0, _, _ => True
  | n + 1, a, b => List.Forall₂ (fun x y => SameOuterShape n x y)
      (a : List (Nest α (n + 1))) (b : List (Nest β (n + 1)))

/-- Every container at every level has `k` elements. -/
def Uniform (k : Nat) : (n : Nat) → Nest α n → Prop
  | 0, _ => True
  | n + 1, l => (l : List (Nest α n)).length = k ∧ ∀ e ∈ (l : List (Nest α n)), Uniform k n e

/-- No container at any level is empty. -/
def NoEmpty : (n : Nat) → Nest α n → Prop
  | 0, _ => True
  | n + 1, l => (l : List (Nest α n)) ≠ [] ∧ ∀ e ∈ (l : List (Nest α n)), NoEmpty n e

/-- `comp` is a strict weak order. -/
structure WeakOrder (comp : β → β → Bool) : Prop where
  asymm : ∀ a b, comp a b = true → comp b a = false
  trans : ∀ a b c, comp a b = false → comp b c = false → comp a c = false

/-- The operation is associative and commutative. -/
structure CommSemi (op : β → β → β) : Prop where
  assoc : ∀ a b c, op (op a b) c = op a (op b c)
  comm : ∀ a b, op a b = op b a

end TinyDIP.Rec
