import Verif.Model.InvokeType
import Verif.Props.Depth
import Mathlib.Data.List.Forall2

/-!
# Property C229: the type of the result of a function applied inside containers

Full statement of C229: a function applied `n` levels inside nested containers (`recursive_transform<n>`) gives a value of a
type with the same `n` outer containers, inside of which is the type of the function's result; there is such a type exactly
if the function accepts what is found `n` levels inside.

For arrays mixed with other containers this is false.
-/

namespace TinyDIP.Props

open TinyDIP.Depth

/-- Specification: the names of the `n` outer containers. -/
def outer : Nat → Ty → List String
  | n + 1, .container c t => c :: outer n t
  | _ + 1, .text => ["basic_string"]
  | _, _ => []

/-! ## C229 -/

/-- The type of the result, for types without `std::array`. Missing: arrays, which have a template of their own. -/
theorem C229_result_partial (f : Ty → Option Ty) : ∀ (n : Nat) (t : Ty), NoArray t →
    (∀ u v, Inside n t u → f u = some v → ∃ r, invokeResult f n t = some r) ∧
    (∀ r, invokeResult f n t = some r → ∃ u v, Inside n t u ∧ f u = some v ∧ Inside n r v ∧ outer n r = outer n t) := by
  intro n
  induction n with
  | zero =>
    intro t _
    refine ⟨fun u v h e => ?_, fun r e => ⟨t, r, .here _, e, .here _, ?_⟩⟩
    · cases h
      exact ⟨v, e⟩
    · cases r <;> cases t <;> rfl
  | succ n ih =>
    intro t ht
    cases t with
    | single s =>
      refine ⟨fun u v h => (by cases h), fun r e => ?_⟩
      simp [invokeResult, matched, valueType] at e
    | text =>
      obtain ⟨a, b⟩ := ih (.single "char") trivial
      refine ⟨fun u v h e => ?_, fun r e => ?_⟩
      · cases h
        obtain ⟨r, er⟩ := a _ v (.here _) e
        exact ⟨_, by simp only [invokeResult, matched, valueType]; rw [show f (.single "char") = some r from er]; rfl⟩
      · simp only [invokeResult, matched, valueType] at e
        cases ei : invokeResult f n (.single "char") with
        | none => rw [ei] at e; simp at e
        | some r' =>
          rw [ei] at e
          obtain ⟨u, v, h, ef, hr, _⟩ := b r' ei
          cases h
          cases hr
          simp only [rebuild, Option.some.injEq] at e
          refine ⟨_, r', .chars, ef, ?_, ?_⟩
          · subst e
            split
            · next h => rw [h]; exact .chars
            · exact .step (.here _)
          · subst e
            split
            · rfl
            · cases r' <;> rfl
    | container c t =>
      obtain ⟨a, b⟩ := ih t ht.2
      refine ⟨fun u v h e => ?_, fun r e => ?_⟩
      · cases h with
        | step h =>
          obtain ⟨r, er⟩ := a u v h e
          exact ⟨.container c r, by simp only [invokeResult, matched, if_neg ht.1, er, rebuild]⟩
      · simp only [invokeResult, matched, if_neg ht.1] at e
        cases ei : invokeResult f n t with
        | none => rw [ei] at e; simp at e
        | some r' =>
          rw [ei] at e
          simp only [rebuild, if_neg ht.1, Option.some.injEq] at e
          subst e
          obtain ⟨u, v, h, ef, hr, ho⟩ := b r' ei
          exact ⟨u, v, .step h, ef, .step hr, by rw [outer, outer, ho]⟩

theorem rebuild_inside {n : Nat} {t r r' v : Ty} (e : rebuild t r = some r') (h : Inside n r v) : Inside (n + 1) r' v := by
  refine inside_succ.2 ⟨r, ?_, h⟩
  cases t with
  | single s => simp [rebuild] at e
  | text =>
    simp only [rebuild, Option.some.injEq] at e
    subst e
    split
    · next h => rw [h]; rfl
    · rfl
  | container c t =>
    simp only [rebuild] at e
    split at e
    · simp at e
    · simp only [Option.some.injEq] at e
      subst e
      rfl

theorem rebuild_outer {n : Nat} {t u r r' : Ty} (e : rebuild t r = some r') (m : matched t = some u)
    (h : outer n r = outer n u) : outer (n + 1) r' = outer (n + 1) t := by
  cases t with
  | single s => simp [rebuild] at e
  | text =>
    simp only [rebuild, Option.some.injEq] at e
    simp only [matched, valueType, Option.some.injEq] at m
    subst e m
    split
    · rfl
    · rw [outer, h, outer]
      cases n <;> rfl
  | container c t =>
    simp only [rebuild, matched] at e m
    split at e
    · simp at e
    · next hc =>
      rw [if_neg hc] at m
      simp only [Option.some.injEq] at e m
      subst e m
      rw [outer, outer, h]

theorem valueTypes_inside {n : Nat} : ∀ {ts us : List Ty},
    List.Forall₂ (Inside (n + 1)) ts us ↔ ∃ vs, valueTypes ts = some vs ∧ List.Forall₂ (Inside n) vs us := by
  intro ts
  induction ts with
  | nil =>
    intro us
    constructor
    · intro h
      cases h
      exact ⟨[], rfl, .nil⟩
    · rintro ⟨vs, e, h⟩
      simp only [valueTypes, Option.some.injEq] at e
      subst e
      cases h
      exact .nil
  | cons t ts ih =>
    intro us
    constructor
    · intro h
      cases h with
      | cons h hs =>
        obtain ⟨v, e, hv⟩ := inside_succ.1 h
        obtain ⟨vs, es, hvs⟩ := ih.1 hs
        exact ⟨v :: vs, by simp only [valueTypes, e, es], .cons hv hvs⟩
    · rintro ⟨vs, e, h⟩
      cases ev : valueType t with
      | none => simp [valueTypes, ev] at e
      | some v =>
        cases es : valueTypes ts with
        | none => simp [valueTypes, ev, es] at e
        | some ws =>
          simp only [valueTypes, ev, es, Option.some.injEq] at e
          subst e
          cases h with
          | cons h hs => exact .cons (inside_succ.2 ⟨v, ev, h⟩) (ih.2 ⟨ws, es, hs⟩)

theorem noArray_value {t u : Ty} (h : NoArray t) (e : valueType t = some u) : NoArray u := by
  cases t with
  | single s => simp [valueType] at e
  | text =>
    simp only [valueType, Option.some.injEq] at e
    subst e
    trivial
  | container c t =>
    simp only [valueType, Option.some.injEq] at e
    subst e
    exact h.2

/-- Several arguments: the containers are those of the first type, and there is a type exactly if the function accepts what
is found `n` levels inside all of them. Missing: a first type with arrays. -/
theorem C229_several_partial (f : List Ty → Option Ty) : ∀ (n : Nat) (t : Ty) (ts : List Ty), NoArray t →
    (∀ us v, List.Forall₂ (Inside n) (t :: ts) us → f us = some v → ∃ r, variadicResult f n (t :: ts) = some r) ∧
    (∀ r, variadicResult f n (t :: ts) = some r → ∃ us v, List.Forall₂ (Inside n) (t :: ts) us ∧ f us = some v ∧
      Inside n r v ∧ outer n r = outer n t) := by
  have same : ∀ (l : List Ty), List.Forall₂ (Inside 0) l l := by
    intro l
    induction l with
    | nil => exact .nil
    | cons t ts ih => exact .cons (.here _) ih
  have eq : ∀ (l us : List Ty), List.Forall₂ (Inside 0) l us → l = us := by
    intro l us h
    induction h with
    | nil => rfl
    | cons h _ ih => cases h; rw [ih]
  intro n
  induction n with
  | zero =>
    intro t ts _
    refine ⟨fun us v h e => ⟨v, by rw [variadicResult, eq _ _ h, e]⟩, fun r e => ⟨_, r, same _, e, .here _, ?_⟩⟩
    cases r <;> cases t <;> rfl
  | succ n ih =>
    intro t ts ht
    refine ⟨fun us v h e => ?_, fun r e => ?_⟩
    · obtain ⟨vs, ev, hv⟩ := valueTypes_inside.1 h
      cases e1 : valueType t with
      | none => simp [valueTypes, e1] at ev
      | some u =>
        cases e2 : valueTypes ts with
        | none => simp [valueTypes, e1, e2] at ev
        | some ws =>
          simp only [valueTypes, e1, e2, Option.some.injEq] at ev
          subst ev
          obtain ⟨r, er⟩ := (ih u ws (noArray_value ht e1)).1 us v hv e
          have m : matched t = some u := (matched_eq ht).trans e1
          have : ∃ r', rebuild t r = some r' := by
            cases t with
            | single s => simp [valueType] at e1
            | text => exact ⟨_, rfl⟩
            | container c t => exact ⟨_, if_neg ht.1⟩
          obtain ⟨r', er'⟩ := this
          exact ⟨r', by simp only [variadicResult, m, e2, er, er']⟩
    · cases e1 : matched t with
      | none => simp [variadicResult, e1] at e
      | some u =>
        cases e2 : valueTypes ts with
        | none => simp [variadicResult, e1, e2] at e
        | some ws =>
          cases e3 : variadicResult f n (u :: ws) with
          | none => simp [variadicResult, e1, e2, e3] at e
          | some r' =>
            simp only [variadicResult, e1, e2, e3] at e
            have ev : valueType t = some u := (matched_eq ht).symm.trans e1
            obtain ⟨us, v, h, ef, hr, ho⟩ := (ih u ws (noArray_value ht ev)).2 r' e3
            exact ⟨us, v, valueTypes_inside.2 ⟨u :: ws, by simp only [valueTypes, ev, e2], h⟩, ef, rebuild_inside e hr,
              rebuild_outer e e1 ho⟩

/-- Specification: the `n` outer levels are arrays. -/
def Arrays : Nat → Ty → Prop
  | 0, _ => True
  | n + 1, .container c t => c = "array" ∧ Arrays n t
  | _ + 1, _ => False

theorem arrayElement_eq {t u : Ty} : arrayElement t = some u ↔ t = .container "array" u := by
  cases t with
  | container c t => by_cases h : c = "array" <;> simp [arrayElement, h]
  | _ => simp [arrayElement]

/-- Arrays: from level one on there is a type exactly if the levels of the first type are arrays and the function accepts
what is found `n` levels inside all types. Missing: arrays mixed with other containers, see `C229_mixed_violation`. -/
theorem C229_array_partial (f : List Ty → Option Ty) : ∀ (n : Nat) (t : Ty) (ts : List Ty),
    (∀ us v, Arrays (n + 1) t → List.Forall₂ (Inside (n + 1)) (t :: ts) us → f us = some v →
      ∃ r, arrayResult f (n + 1) (t :: ts) = some r) ∧
    (∀ r, arrayResult f (n + 1) (t :: ts) = some r → Arrays (n + 1) t ∧ ∃ us v,
      List.Forall₂ (Inside (n + 1)) (t :: ts) us ∧ f us = some v ∧ Inside (n + 1) r v ∧ Arrays (n + 1) r) := by
  have same : ∀ (l : List Ty), List.Forall₂ (Inside 0) l l := by
    intro l
    induction l with
    | nil => exact .nil
    | cons t ts ih => exact .cons (.here _) ih
  have eq : ∀ (l us : List Ty), List.Forall₂ (Inside 0) l us → l = us := by
    intro l us h
    induction h with
    | nil => rfl
    | cons h _ ih => cases h; rw [ih]
  have split : ∀ {n : Nat} {t : Ty} {ts us : List Ty}, Arrays (n + 1) t → List.Forall₂ (Inside (n + 1)) (t :: ts) us →
      ∃ u ws, t = .container "array" u ∧ Arrays n u ∧ valueTypes ts = some ws ∧
        List.Forall₂ (Inside n) (u :: ws) us := by
    intro n t ts us ha h
    cases t with
    | container c u =>
      obtain ⟨rfl, hu⟩ := ha
      obtain ⟨vs, ev, hv⟩ := valueTypes_inside.1 h
      cases e2 : valueTypes ts with
      | none => simp [valueTypes, valueType, e2] at ev
      | some ws =>
        simp only [valueTypes, valueType, e2, Option.some.injEq] at ev
        subst ev
        exact ⟨u, ws, rfl, hu, rfl, hv⟩
    | single s => exact absurd ha id
    | text => exact absurd ha id
  intro n
  induction n with
  | zero =>
    intro t ts
    refine ⟨fun us v ha h e => ?_, fun r e => ?_⟩
    · obtain ⟨u, ws, rfl, _, e2, hv⟩ := split ha h
      rw [← eq _ _ hv] at e
      exact ⟨_, by simp only [arrayResult, arrayElement, if_true, e2, e]; rfl⟩
    · cases e1 : arrayElement t with
      | none => simp [arrayResult, e1] at e
      | some u =>
        cases e2 : valueTypes ts with
        | none => simp [arrayResult, e1, e2] at e
        | some ws =>
          cases e3 : f (u :: ws) with
          | none => simp [arrayResult, e1, e2, e3] at e
          | some v =>
            simp only [arrayResult, e1, e2, e3, Option.some.injEq] at e
            subst e
            have ht := arrayElement_eq.1 e1
            subst ht
            exact ⟨⟨rfl, trivial⟩, u :: ws, v, valueTypes_inside.2 ⟨u :: ws, by simp only [valueTypes, valueType, e2],
              same _⟩, e3, .step (.here _), rfl, trivial⟩
  | succ n ih =>
    intro t ts
    refine ⟨fun us v ha h e => ?_, fun r e => ?_⟩
    · obtain ⟨u, ws, rfl, hu, e2, hv⟩ := split ha h
      obtain ⟨r, er⟩ := (ih u ws).1 us v hu hv e
      exact ⟨.container "array" r, by simp only [arrayResult, arrayElement, if_true, e2, er]⟩
    · cases e1 : arrayElement t with
      | none => simp [arrayResult, e1] at e
      | some u =>
        cases e2 : valueTypes ts with
        | none => simp [arrayResult, e1, e2] at e
        | some ws =>
          cases e3 : arrayResult f (n + 1) (u :: ws) with
          | none => simp [arrayResult, e1, e2, e3] at e
          | some r' =>
            simp only [arrayResult, e1, e2, e3, Option.some.injEq] at e
            subst e
            have ht := arrayElement_eq.1 e1
            subst ht
            obtain ⟨ha, us, v, h, ef, hr, har⟩ := (ih u ws).2 r' e3
            exact ⟨⟨rfl, ha⟩, us, v, valueTypes_inside.2 ⟨u :: ws, by simp only [valueTypes, valueType, e2], h⟩, ef,
              .step hr, rfl, har⟩

/-- Violation: for an array inside a vector, or a vector inside an array, there is no type two levels inside and deeper,
whatever the function accepts. -/
theorem C229_mixed_violation (f : Ty → Option Ty) (g : List Ty → Option Ty) (n : Nat) (t : Ty) (ts : List Ty) :
    invokeResult f (n + 2) (.container "vector" (.container "array" t)) = none ∧
    variadicResult g (n + 2) (.container "vector" (.container "array" t) :: ts) = none ∧
    arrayResult g (n + 2) (.container "array" (.container "vector" t) :: ts) = none := by
  refine ⟨by simp [invokeResult, matched], ?_, ?_⟩
  · cases e : valueTypes ts <;> simp [variadicResult, matched, e]
  · cases n <;> cases e : valueTypes ts <;> simp [arrayResult, arrayElement, e]

example : arrayResult (fun ts => if ts = [.single "int"] then some (.single "long") else none) 2
      [.container "array" (.container "array" (.single "int"))] =
    some (.container "array" (.container "array" (.single "long"))) := by decide

example : variadicResult (fun ts => if ts = [.single "int", .single "int"] then some (.single "long") else none) 1
      [.container "vector" (.single "int"), .container "list" (.single "int")] =
    some (.container "vector" (.single "long")) := by decide

example : invokeResult (fun t => if t = .single "int" then some (.single "double") else none) 2
      (.container "vector" (.container "list" (.single "int"))) =
    some (.container "vector" (.container "list" (.single "double"))) := by decide

example : invokeResult (fun t => if t = .single "int" then some (.single "double") else none) 1
    (.container "vector" (.container "list" (.single "int"))) = none := by decide

/-- A function from characters to numbers, applied inside a text. -/
example : invokeResult (fun _ => some (.single "int")) 1 .text = some (.container "basic_string" (.single "int")) := by
  decide

end TinyDIP.Props
