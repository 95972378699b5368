import Verif.Model.Image
import Mathlib.Algebra.Field.Defs
import Mathlib.Algebra.Order.Group.Abs

/-!
# Linear algebra (linear_algebra.h, image_operations.h)

Floating-point elements are modelled by the elements of a ring or field with exact arithmetic.
-/

namespace TinyDIP

variable {α : Type}

/-- linear_algebra.h:19-61, `linalg::Matrix`: sizes and row-major elements. -/
structure Mat (α : Type) where
  rows : Nat
  cols : Nat
  data : List α
  deriving DecidableEq, Repr

namespace Mat

/-- linear_algebra.h:22, the default constructor. -/
def empty : Mat α := ⟨0, 0, []⟩

/-- linear_algebra.h:24-27, `Matrix(rows, cols)`: `rows * cols` (a `size_t` product)
value-initialised elements. -/
def mk' (zero : α) (rows cols : Nat) : Mat α := ⟨rows, cols, List.replicate (wmul rows cols) zero⟩

/-- linear_algebra.h:29-37, `at(row, col)` (read): `data_[row * cols_ + col]`, unchecked. -/
def get (A : Mat α) (row col : Nat) : Res α := vget A.data (wadd (wmul row A.cols) col)

/-- linear_algebra.h:29-32, `at(row, col) = v`. -/
def set (A : Mat α) (row col : Nat) (v : α) : Res (Mat α) := do
  let d ← vset A.data (wadd (wmul row A.cols) col) v
  .ok ⟨A.rows, A.cols, d⟩

/-- linear_algebra.h:49-52, `empty()`. -/
def isEmpty (A : Mat α) : Bool := A.rows == 0 || A.cols == 0

/-- linear_algebra.h:82-97, `transpose`. -/
def transpose (zero : α) (A : Mat α) : Res (Mat α) :=
  forUp A.rows (fun T r =>
    forUp A.cols (fun T c => do
      let v ← A.get r c
      T.set c r v) T) (mk' zero A.cols A.rows)

/-- linear_algebra.h:99-124, `multiply`. -/
def multiply [Zero α] [Add α] [Mul α] (A B : Mat α) : Res (Mat α) :=
  if A.cols ≠ B.rows then .throw .runtime
  else
    forUp A.rows (fun C i =>
      forUp B.cols (fun C j => do
        let sum ← forUp A.cols (fun sum k => do
          let a ← A.get i k
          let b ← B.get k j
          .ok (sum + a * b)) 0
        C.set i j sum) C) (mk' 0 A.rows B.cols)

/-- linear_algebra.h:250-286, `invert`; `small d` is the test `std::abs(d) < 1e-9`. -/
def invert [Field α] (small : α → Bool) (M : Mat α) : Res (Mat α) :=
  if M.rows ≠ 3 ∨ M.cols ≠ 3 then .throw .runtime
  else do
    let m00 ← M.get 0 0
    let m01 ← M.get 0 1
    let m02 ← M.get 0 2
    let m10 ← M.get 1 0
    let m11 ← M.get 1 1
    let m12 ← M.get 1 2
    let m20 ← M.get 2 0
    let m21 ← M.get 2 1
    let m22 ← M.get 2 2
    let det := m00 * (m11 * m22 - m21 * m12) - m01 * (m10 * m22 - m12 * m20) +
      m02 * (m10 * m21 - m11 * m20)
    if small det then .ok empty
    else do
      let d := 1 / det
      let R := mk' 0 3 3
      let R ← R.set 0 0 ((m11 * m22 - m21 * m12) * d)
      let R ← R.set 0 1 ((m02 * m21 - m01 * m22) * d)
      let R ← R.set 0 2 ((m01 * m12 - m02 * m11) * d)
      let R ← R.set 1 0 ((m12 * m20 - m10 * m22) * d)
      let R ← R.set 1 1 ((m00 * m22 - m02 * m20) * d)
      let R ← R.set 1 2 ((m10 * m02 - m00 * m12) * d)
      let R ← R.set 2 0 ((m10 * m21 - m20 * m11) * d)
      let R ← R.set 2 1 ((m20 * m01 - m00 * m21) * d)
      R.set 2 2 ((m00 * m11 - m10 * m01) * d)

/-- The inner loop of `is_symmetry` (linear_algebra.h:304-332 and 361-389) for row `r`: whether some
column `c > r` has `differ (at(r, c)) (at(c, r))`. `cs` is the list of columns still to visit. -/
def rowViolates (differ : α → α → Bool) (A : Mat α) (r : Nat) : List Nat → Res Bool
  | [] => .ok false
  | c :: cs => do
    let v1 ← A.get r c
    let v2 ← A.get c r
    if differ v1 v2 then .ok true else rowViolates differ A r cs

/-- linear_algebra.h:304-336, the outer loop with early return. -/
def symRows (differ : α → α → Bool) (A : Mat α) : List Nat → Res Bool
  | [] => .ok true
  | r :: rs => do
    let v ← rowViolates differ A r (List.range' (r + 1) (A.cols - (r + 1)))
    if v then .ok false else symRows differ A rs

/-- linear_algebra.h:288-336, `is_symmetry`. `differ` is `!=` for integral and non-arithmetic
elements, `std::abs(a - b) > 1e-6` for floating elements. -/
def isSymmetry (differ : α → α → Bool) (A : Mat α) : Res Bool :=
  if A.rows ≠ A.cols then .ok false else symRows differ A (List.range A.rows)

/-- linear_algebra.h:338-391, `is_symmetry(policy, mat)`: `!std::any_of` over the rows. `order` is the
order in which the rows are examined; a parallel `any_of` may stop as soon as a violating row was
found. -/
def isSymmetryPolicy (differ : α → α → Bool) (order : List Nat) (A : Mat α) : Res Bool :=
  if A.rows ≠ A.cols then .ok false else symRows differ A order

/-- image_operations.h:268-290, `is_symmetry(Image)`. -/
def imageIsSymmetry (zero : α) (differ : α → α → Bool) (im : Image α) : Res Bool :=
  if im.dim ≠ 2 then .throw .runtime
  else do
    let m ← forUp im.height (fun m r =>
      forUp im.width (fun m c => do
        let v ← im.at2u c r
        m.set r c v) m) (mk' zero im.height im.width)
    isSymmetry differ m

end Mat

/-- image_operations.h:799-817, `determinant3x3`. -/
def determinant3x3 [Ring α] (mat : Image α) : Res α := do
  let a ← mat.at2 0 0
  let b ← mat.at2 1 0
  let c ← mat.at2 2 0
  let d ← mat.at2 0 1
  let e ← mat.at2 1 1
  let f ← mat.at2 2 1
  let g ← mat.at2 0 2
  let h ← mat.at2 1 2
  let i ← mat.at2 2 2
  .ok (a * (e * i - f * h) - b * (d * i - f * g) + c * (d * h - e * g))

/-! ### solve_linear_system

`std::array<std::array<T, N>, N>` and `std::array<T, N>` are modelled by functions of the indices;
every index the code uses is below `N` by its loop bounds, so no access can leave the arrays. -/

section Solve

variable [Field α] [LinearOrder α]

/-- `A[k][j] = v`. image_operations.h:3107. -/
def setEntry (A : Nat → Nat → α) (k j : Nat) (v : α) : Nat → Nat → α :=
  fun r c => if r = k ∧ c = j then v else A r c

/-- `b[k] = v`. image_operations.h:3109, 3120. -/
def setVec (b : Nat → α) (k : Nat) (v : α) : Nat → α := fun r => if r = k then v else b r

/-- image_operations.h:3080-3088: the search for the row with the largest entry in column `i`,
over the remaining rows `ks`; state `(max_row, max_val)`. -/
def pivotSearch (A : Nat → Nat → α) (i : Nat) (ks : List Nat) (s : Nat × α) : Nat × α :=
  ks.foldl (fun s k => if |A k i| > s.2 then (k, |A k i|) else s) s

/-- image_operations.h:3096-3100: `std::swap(A[i], A[max_row])`, `std::swap(b[i], b[max_row])`. -/
def swapRows (A : Nat → Nat → α) (i m : Nat) : Nat → Nat → α :=
  fun r c => if r = i then A m c else if r = m then A i c else A r c

/-- image_operations.h:3096-3100: `std::swap(b[i], b[max_row])`. -/
def swapVec (b : Nat → α) (i m : Nat) : Nat → α :=
  fun r => if r = i then b m else if r = m then b i else b r

/-- image_operations.h:3104-3109: one row `k` of the elimination with pivot row `i`. -/
def elimRow (N i k : Nat) (s : (Nat → Nat → α) × (Nat → α)) : (Nat → Nat → α) × (Nat → α) :=
  let factor := s.1 k i / s.1 i i
  let A := (List.range' i (N - i)).foldl (fun A j => setEntry A k j (A k j - factor * A i j)) s.1
  (A, setVec s.2 k (s.2 k - factor * s.2 i))

/-- image_operations.h:3102-3110: the elimination below the pivot. -/
def elimRows (N i : Nat) (s : (Nat → Nat → α) × (Nat → α)) : (Nat → Nat → α) × (Nat → α) :=
  (List.range' (i + 1) (N - (i + 1))).foldl (fun s k => elimRow N i k s) s

/-- image_operations.h:3078-3111: the loop over `i`; `none` when a pivot is below the threshold. -/
def elimLoop (N : Nat) (threshold : α) : List Nat → (Nat → Nat → α) × (Nat → α) →
    Option ((Nat → Nat → α) × (Nat → α))
  | [], s => some s
  | i :: is, s =>
    let p := pivotSearch s.1 i (List.range' (i + 1) (N - (i + 1))) (i, |s.1 i i|)
    if p.2 < threshold then none
    else
      let s := if p.1 ≠ i then (swapRows s.1 i p.1, swapVec s.2 i p.1) else s
      elimLoop N threshold is (elimRows N i s)

/-- image_operations.h:3113-3124: back substitution, `i` running down from `N - 1`. -/
def backSubst (N : Nat) (A : Nat → Nat → α) (b : Nat → α) : Nat → (Nat → α) → (Nat → α)
  | 0, x => x
  | i + 1, x =>
    let sum := (List.range' (i + 1) (N - (i + 1))).foldl (fun sum j => sum + A i j * x j) 0
    backSubst N A b i (setVec x i ((b i - sum) / A i i))

/-- image_operations.h:3071-3126, `solve_linear_system`. -/
def solveLinearSystem (N : Nat) (A : Nat → Nat → α) (b : Nat → α) (threshold : α) : Nat → α :=
  match elimLoop N threshold (List.range N) (A, b) with
  | none => fun _ => 0
  | some s => backSubst N s.1 s.2 N (fun _ => 0)

end Solve

end TinyDIP
