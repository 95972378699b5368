import Verif.Model.Variadic

/-!
# Property C231: selecting one of several arguments

Full statement of C231: with the index `i` counted from one, `get_from_variadic_template<i>` returns argument number `i`,
`get_from_variadic_template_t<i, ...>` is its type, and an index that is zero or greater than the number of arguments is
rejected by both. `first_of` returns the first argument.

With the index zero the first argument is returned, although there is no type.
-/

namespace TinyDIP.Props

open TinyDIP Variadic

variable {α : Type}

/-! ## C231 -/

/-- An index from one on selects the argument with this number, or none beyond the end, for values and types alike. Missing:
the index zero, see `C231_zero_violation`. -/
theorem C231_pick_partial (l : List α) (i : Nat) (hi : i + 1 < 2 ^ 64) : pickValue (i + 1) l = l[i]? ∧
    pickType (i + 1) l = l[i]? ∧ firstOf l = l.head? := by
  have first : firstOf l = l.head? := by cases l <;> rfl
  refine ⟨?_, ?_, first⟩
  · clear first hi
    induction l generalizing i with
    | nil => rfl
    | cons a l ih =>
      cases i with
      | zero => rfl
      | succ i =>
        rw [pickValue, if_pos (by omega)]
        exact ih i
  · clear first
    induction l generalizing i with
    | nil => rfl
    | cons a l ih =>
      cases i with
      | zero => rfl
      | succ i =>
        have e : wsub (i + 1 + 1) 1 = i + 1 := by
          unfold wsub
          simp only [W] at *
          omega
        rw [pickType, if_neg (by omega), e]
        exact ih i (by omega)

theorem pickType_far (l : List α) : ∀ k, l.length < k → k < 2 ^ 64 → pickType k l = none := by
  induction l with
  | nil => exact fun k _ _ => rfl
  | cons a l ih =>
    intro k hk hl
    rw [List.length_cons] at hk
    have e : wsub k 1 = k - 1 := by
      unfold wsub
      simp only [W] at *
      omega
    rw [pickType, if_neg (by omega), e]
    exact ih _ (by omega) (by omega)

/-- Violation: the index zero selects the first argument, for every non-empty pack, while there is no type with this
index. -/
theorem C231_zero_violation (a : α) (l : List α) (h : l.length < 2 ^ 32) : pickValue 0 (a :: l) = some a ∧
    pickType 0 (a :: l) = none := by
  refine ⟨rfl, ?_⟩
  have e : wsub 0 1 = 2 ^ 64 - 1 := by decide
  rw [pickType, if_neg (by omega), e]
  exact pickType_far l _ (by omega) (by omega)

example : pickValue 2 ["a", "b", "c"] = some "b" ∧ pickType 3 ["a", "b", "c"] = some "c" ∧
    pickValue 4 ["a", "b", "c"] = none ∧ pickType 4 ["a", "b", "c"] = none := by decide

end TinyDIP.Props
