import Verif.Model.LinAlg
import Mathlib.Data.Matrix.Mul
import Mathlib.Data.Real.Basic

/-!
# Specification vocabulary for matrices

`A.Is M`: the object `A` is a well-formed container for the mathematical matrix `M` (Mathlib's
`Matrix`): the sizes agree, the element count is `m * n` and fits a `size_t`, and reading any entry
with `at(i, j)` gives the corresponding entry of `M`.
-/

namespace TinyDIP

variable {α : Type}

structure Mat.Is {m n : Nat} (A : Mat α) (M : Matrix (Fin m) (Fin n) α) : Prop where
  rows : A.rows = m
  cols : A.cols = n
  len : A.data.length = m * n
  fits : m * n < 2 ^ 64
  entry : ∀ (i : Fin m) (j : Fin n), A.get i j = .ok (M i j)

/-- `x` solves the `N × N` system `A x = b`. -/
def Solves [CommRing α] (N : Nat) (A : Nat → Nat → α) (b x : Nat → α) : Prop :=
  ∀ r < N, (Finset.range N).sum (fun c => A r c * x c) = b r

/-- The sum of the squares of the off-diagonal entries. -/
noncomputable def offSq {n : Nat} (F : Matrix (Fin n) (Fin n) ℝ) : ℝ :=
  Finset.univ.sum fun i => Finset.univ.sum fun j => if i = j then 0 else F i j ^ 2

end TinyDIP
