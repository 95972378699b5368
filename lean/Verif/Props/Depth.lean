import Verif.Model.Depth

/-!
# Property C228: the depth of nested containers and functions for their elements

Full statement of C228: `recursive_depth<T>()` is the number of times the elements of `T` can be taken, with a target type
the number of times until that type is reached, `recursive_unwrap_type_t<n, T>` is the type found `n` levels inside, and
`recursive_invocable<n, F, T...>` holds exactly if `F` accepts what is
found `n` levels inside all types.

For two types the last part is false: the first is taken for a target type. No type is found inside an array.
-/

namespace TinyDIP.Props

open TinyDIP.Depth

/-- Specification: `Inside n t u` — `u` is found in `t` after taking the elements `n` times. -/
inductive Inside : Nat → Ty → Ty → Prop
  | here (t : Ty) : Inside 0 t t
  | chars : Inside 1 .text (.single "char")
  | step {n : Nat} {c : String} {t u : Ty} : Inside n t u → Inside (n + 1) (.container c t) u

/-! ## C228 -/

theorem inside_depth {n : Nat} {t u : Ty} (h : Inside n t u) : depth t = n + depth u := by
  induction h with
  | here t => simp
  | chars => rfl
  | step _ ih => simp only [depth, ih]; omega

theorem inside_unique {n : Nat} {t u v : Ty} (h : Inside n t u) (h' : Inside n t v) : u = v := by
  induction h with
  | here t => cases h'; rfl
  | chars => cases h'; rfl
  | step _ ih => cases h' with | step h' => exact ih h'

/-- The depth is the number of levels: exactly for the numbers up to the depth something is found inside, at the depth it is
no range, before it is one. -/
theorem C228_depth (t : Ty) : (∀ n, (∃ u, Inside n t u) ↔ n ≤ depth t) ∧
    (∀ n u, Inside n t u → (valueType u = none ↔ n = depth t)) := by
  have zero : ∀ u : Ty, valueType u = none ↔ depth u = 0 := by
    intro u
    cases u <;> simp [valueType, depth]
  refine ⟨fun n => ⟨fun ⟨u, h⟩ => by have := inside_depth h; omega, ?_⟩, fun n u h => ?_⟩
  · induction t generalizing n with
    | single s =>
      intro h
      obtain rfl : n = 0 := by simpa [depth] using h
      exact ⟨_, .here _⟩
    | text =>
      intro h
      match n, h with
      | 0, _ => exact ⟨_, .here _⟩
      | 1, _ => exact ⟨_, .chars⟩
      | n + 2, h => simp [depth] at h
    | container c t ih =>
      intro h
      cases n with
      | zero => exact ⟨_, .here _⟩
      | succ n =>
        obtain ⟨u, hu⟩ := ih n (by simpa [depth] using h)
        exact ⟨u, .step hu⟩
  · rw [zero, inside_depth h]
    omega

/-- With a target type: the number of levels to the first occurrence of it, the depth if there is none. -/
theorem C228_target (base t : Ty) : (∀ n, Inside n t base → (∀ m, Inside m t base → n ≤ m) → depthTo base t = n) ∧
    ((∀ n, ¬ Inside n t base) → depthTo base t = depth t) := by
  induction t with
  | single s =>
    refine ⟨fun n h _ => ?_, fun _ => rfl⟩
    cases h
    rfl
  | text =>
    refine ⟨fun n h hm => ?_, fun h => ?_⟩
    · cases h with
      | here => simp [depthTo]
      | chars => simp [depthTo]
    · have : Ty.text ≠ base := by
        rintro rfl
        exact h 0 (.here _)
      simp [depthTo, depth, this]
  | container c t ih =>
    by_cases e : Ty.container c t = base
    · refine ⟨fun n h hm => ?_, fun h => absurd (e ▸ .here _) (h 0)⟩
      have := hm 0 (e ▸ .here _)
      rw [depthTo, if_pos e]
      omega
    · refine ⟨fun n h hm => ?_, fun h => ?_⟩
      · cases h with
        | here => exact absurd rfl e
        | @step n _ _ _ h =>
          rw [depthTo, if_neg e, ih.1 n h fun m hm' => by have := hm _ (.step hm'); omega]
      · rw [depthTo, if_neg e, ih.2 fun n hn => h _ (.step hn)]
        rfl

/-- One type: the concept holds exactly if the function accepts what is found `n` levels inside. Missing: two types, see
`C228_two_violation`. -/
theorem C228_one_partial (accepts : List Ty → Bool) (n : Nat) (t : Ty) :
    recursiveInvocable accepts n [t] = true ↔ ∃ u, Inside n t u ∧ accepts [u] = true := by
  unfold recursiveInvocable
  induction n generalizing t with
  | zero =>
    rw [isInvocable]
    simp only [depthPack, Nat.zero_le, if_true, Option.getD_some]
    exact ⟨fun h => ⟨t, .here _, h⟩, fun ⟨u, h, a⟩ => by cases h; exact a⟩
  | succ n ih =>
    rw [isInvocable]
    cases t with
    | single s =>
      simp only [depthPack, depth]
      refine ⟨fun h => by simp at h, fun ⟨u, h, _⟩ => by cases h⟩
    | text =>
      simp only [depthPack, depth, valueTypes, valueType]
      by_cases hn : n + 1 ≤ 0 + 1
      · rw [if_pos hn]
        obtain rfl : n = 0 := by omega
        rw [ih]
        exact ⟨fun ⟨u, h, a⟩ => ⟨u, by cases h; exact .chars, a⟩, fun ⟨u, h, a⟩ => ⟨u, by cases h; exact .here _, a⟩⟩
      · rw [if_neg hn]
        refine ⟨fun h => by simp at h, fun ⟨u, h, _⟩ => ?_⟩
        cases h
        exact absurd (by omega) hn
    | container c t =>
      simp only [depthPack, depth, valueTypes, valueType]
      by_cases hn : n + 1 ≤ depth t + 1
      · rw [if_pos hn, ih]
        exact ⟨fun ⟨u, h, a⟩ => ⟨u, .step h, a⟩, fun ⟨u, h, a⟩ => by cases h with | step h => exact ⟨u, h, a⟩⟩
      · rw [if_neg hn]
        refine ⟨fun h => by simp at h, fun ⟨u, h, _⟩ => ?_⟩
        have := inside_depth h
        simp only [depth] at this
        omega

/-- Violation: for two containers of the same type the concept never holds at a level above zero, whatever the function
accepts; for example for a function that accepts everything and two vectors of numbers. -/
theorem C228_two_violation (accepts : List Ty → Bool) (n : Nat) (t : Ty) :
    recursiveInvocable accepts (n + 1) [t, t] = false := by
  have h : depthTo t t = 0 := by
    cases t <;> simp [depthTo]
  unfold recursiveInvocable
  rw [isInvocable]
  simp only [depthPack, h]
  rw [if_neg (by omega)]
  rfl

/-- Violation: for three types and more it holds at no level. -/
theorem C228_three_violation (accepts : List Ty → Bool) (n : Nat) (s t u : Ty) (us : List Ty) :
    recursiveInvocable accepts n (s :: t :: u :: us) = false := by
  cases n <;> rfl

/-- Specification: no level of the type is a `std::array`. -/
def NoArray : Ty → Prop
  | .container c t => c ≠ "array" ∧ NoArray t
  | _ => True

theorem matched_eq {t : Ty} (h : NoArray t) : matched t = valueType t := by
  cases t with
  | container c t => exact if_neg h.1
  | _ => rfl

theorem inside_succ {n : Nat} {t u : Ty} : Inside (n + 1) t u ↔ ∃ v, valueType t = some v ∧ Inside n v u := by
  constructor
  · intro h
    cases h with
    | chars => exact ⟨_, rfl, .here _⟩
    | step h => exact ⟨_, rfl, h⟩
  · rintro ⟨v, e, h⟩
    cases t with
    | single s => simp [valueType] at e
    | text =>
      simp only [valueType, Option.some.injEq] at e
      subst e
      cases h
      exact .chars
    | container c t =>
      simp only [valueType, Option.some.injEq] at e
      subst e
      exact .step h

/-- `recursive_unwrap_type_t` is the type found `n` levels inside, and there is none exactly beyond the depth. Missing:
arrays, see `C228_array_violation`. -/
theorem C228_unwrap_partial (n : Nat) (t u : Ty) (h : NoArray t) :
    (unwrapType n t = some u ↔ Inside n t u) ∧ (unwrapType n t = none ↔ depth t < n) := by
  have key : ∀ (n : Nat) (t : Ty), NoArray t → ∀ u, unwrapType n t = some u ↔ Inside n t u := by
    intro n
    induction n with
    | zero =>
      intro t _ u
      simp only [unwrapType, Option.some.injEq]
      exact ⟨fun e => e ▸ .here _, fun h => by cases h; rfl⟩
    | succ n ih =>
      intro t h u
      have up : unwrapType (n + 1) t = (valueType t).bind (unwrapType n) := by
        rw [← matched_eq h]
        cases n with
        | zero => cases e : matched t <;> simp [unwrapType, e]
        | succ n => cases e : matched t <;> simp [unwrapType, e]
      rw [up, inside_succ, Option.bind_eq_some_iff]
      refine exists_congr fun v => and_congr_right fun e => ih v ?_ u
      cases t with
      | single s => simp [valueType] at e
      | text =>
        simp only [valueType, Option.some.injEq] at e
        subst e
        trivial
      | container c t =>
        simp only [valueType, Option.some.injEq] at e
        subst e
        exact h.2
  refine ⟨key n t h u, ?_⟩
  have d := (C228_depth t).1 n
  cases e : unwrapType n t with
  | none =>
    refine ⟨fun _ => ?_, fun _ => rfl⟩
    refine Nat.lt_of_not_le fun hc => ?_
    obtain ⟨v, hv⟩ := d.2 hc
    rw [(key n t h v).2 hv] at e
    exact absurd e (by simp)
  | some v =>
    refine ⟨fun h => absurd h (by simp), fun hd => ?_⟩
    have := d.1 ⟨v, (key n t h v).1 e⟩
    omega

/-- Violation: an array has levels, but no type inside. -/
theorem C228_array_violation (n : Nat) (t : Ty) : unwrapType (n + 1) (.container "array" t) = none ∧
    Inside 1 (.container "array" t) t ∧ depth (.container "array" t) = depth t + 1 := by
  refine ⟨?_, .step (.here _), rfl⟩
  cases n <;> rfl

example : unwrapType 2 (.container "vector" (.container "list" .text)) = some .text ∧
    unwrapType 4 (.container "vector" (.container "list" .text)) = none ∧
    NoArray (.container "vector" (.container "list" .text)) := by
  refine ⟨by decide, by decide, by decide, by decide, trivial⟩

example : depth (.container "vector" (.container "list" (.single "int"))) = 2 := by decide

/-- A vector of texts has two levels, so that a function for all levels is applied to characters. -/
example : depth (.container "vector" .text) = 2 ∧ depthTo .text (.container "vector" .text) = 1 := by decide

example : Inside 2 (.container "vector" .text) (.single "char") := .step .chars

example : recursiveInvocable (fun ts => ts == [.single "int"]) 1 [.container "vector" (.single "int")] = true ∧
    recursiveInvocable (fun _ => true) 1 [.container "vector" (.single "int"), .container "vector" (.single "int")] =
      false := by decide

end TinyDIP.Props
