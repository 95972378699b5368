import Verif.Model.PrintMat
import Verif.Props.Print
import Verif.Lemmas.LinAlg
import Mathlib.LinearAlgebra.Matrix.Notation

/-!
# Property C224: printing a matrix

Full statement of C224: the printed matrix is one line for each row, every element followed by a tab, and different
matrices print different texts. The second part is not true for matrices without rows.
-/

namespace TinyDIP.Props

open TinyDIP TinyDIP.Cli TinyDIP.Print

variable {α : Type}

/-! ## C224 -/

/-- The text of a list of rows. -/
def rowsText (el : α → Str) (rows : List (List α)) : Str :=
  rows.flatMap fun row => row.flatMap (fun a => el a ++ "\t".toList) ++ "\n".toList

theorem forUp_text {n : Nat} (g : Fin n → Str) (body : Str → Nat → Res Str)
    (h : ∀ s (i : Fin n), body s i = .ok (s ++ g i)) (s : Str) :
    forUp n body s = .ok (s ++ (List.finRange n).flatMap g) := by
  obtain ⟨s', e, h'⟩ := forUp_inv (n := n) (body := body)
    (fun k t => t = s ++ ((List.finRange n).take k).flatMap g)
    (fun k t hk ht => ⟨_, h t ⟨k, hk⟩, by
      rw [ht, List.take_succ_eq_append_getElem (by simpa using hk)]
      simp⟩) s (by simp)
  rw [e, h', List.take_of_length_le (by simp)]

/-- One line for each row, every element followed by a tab. -/
theorem C224_layout {m n : Nat} {A : Mat α} {M : Matrix (Fin m) (Fin n) α} (hA : A.Is M) (el : α → Str) :
    insertMat A el = .ok (rowsText el (List.ofFn fun r => List.ofFn fun c => M r c)) := by
  unfold insertMat
  rw [hA.rows]
  rw [forUp_text (n := m) (fun r => (List.finRange n).flatMap (fun c => el (M r c) ++ "\t".toList) ++ "\n".toList)]
  · simp only [rowsText, List.ofFn_eq_map, List.flatMap_map, List.nil_append]
  · intro s r
    rw [hA.cols]
    rw [forUp_text (n := n) (fun c => el (M r c) ++ "\t".toList)]
    · simp only [Res.ok_bind, List.append_assoc]
      rfl
    · intro s c
      rw [hA.entry r c]
      simp only [Res.ok_bind, List.append_assoc]
      rfl

theorem rowsText_unique {el : α → Str} (hl : Legible el "\t".toList) : ∀ L L' : List (List α),
    rowsText el L = rowsText el L' → L = L' := by
  have step : ∀ (row : List α) (l : List (List α)), rowsText el (row :: l) =
      row.flatMap (fun a => el a ++ "\t".toList) ++ '\n' :: rowsText el l := by
    intro row l
    simp [rowsText]
  intro L
  induction L with
  | nil =>
    intro L' h
    cases L' with
    | nil => rfl
    | cons row l =>
      rw [step] at h
      simp [rowsText] at h
  | cons row l ih =>
    intro L' h
    cases L' with
    | nil =>
      rw [step] at h
      simp [rowsText] at h
    | cons row' l' =>
      rw [step, step] at h
      obtain ⟨h1, h2⟩ := row_unique hl _ _ h
      rw [h1, ih l' h2]

/-- Matrices with rows that print the same text are equal, whatever their sizes. -/
theorem C224_lossless_partial {m n m' n' : Nat} {A A' : Mat α} {M : Matrix (Fin m) (Fin n) α}
    {M' : Matrix (Fin m') (Fin n') α} (hA : A.Is M) (hA' : A'.Is M') (hm : 0 < m) (el : α → Str)
    (hl : Legible el "\t".toList) (h : insertMat A el = insertMat A' el) : A = A' := by
  rw [C224_layout hA, C224_layout hA'] at h
  have e := rowsText_unique hl _ _ (Res.ok.inj h)
  have e1 : m = m' := by simpa using congrArg List.length e
  subst e1
  have e2 := List.ofFn_injective e
  have e3 : n = n' := by simpa using congrArg List.length (congrFun e2 ⟨0, hm⟩)
  subst e3
  have e4 : M = M' := by
    funext r c
    exact congrFun (List.ofFn_injective (congrFun e2 r)) c
  subst e4
  exact hA.unique hA'

/-- A matrix without rows prints nothing, whatever its number of columns. -/
theorem C224_rows_violation (el : α → Str) : insertMat (⟨0, 3, []⟩ : Mat α) el = .ok [] ∧
    insertMat (⟨0, 5, []⟩ : Mat α) el = .ok [] ∧ (⟨0, 3, []⟩ : Mat α) ≠ ⟨0, 5, []⟩ :=
  ⟨rfl, rfl, by simp⟩

theorem square_is : (⟨2, 2, [1, 20, 300, 4]⟩ : Mat Nat).Is !![1, 20; 300, 4] := by
  refine ⟨rfl, rfl, rfl, by norm_num, ?_⟩
  intro i j
  fin_cases i <;> fin_cases j <;> rfl

example : insertMat (⟨2, 2, [1, 20, 300, 4]⟩ : Mat Nat) toStr = .ok "1\t20\t\n300\t4\t\n".toList := by decide +kernel

example := C224_layout square_is toStr

example := C224_lossless_partial square_is square_is (by norm_num) toStr legible_nat rfl

end TinyDIP.Props
