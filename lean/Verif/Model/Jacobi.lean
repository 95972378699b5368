import Verif.Model.LinAlg
import Verif.Model.Interp

/-!
# The Jacobi eigenvalue solver (linear_algebra.h)

Floating-point numbers are exact real numbers.
-/

namespace TinyDIP
namespace Mat

/-- linear_algebra.h:157-172: the search for the largest off-diagonal element; state
`(max_val, p, q)`, starting with `(0, 0, 1)`. -/
noncomputable def jacobiPivot (D : Mat ℝ) (n : Nat) : Res (ℝ × Nat × Nat) :=
  forUp n (fun s i =>
    loop (fun (s : ℝ × Nat × Nat) j => do
      let v ← D.get i j
      if |v| > s.1 then .ok (|v|, i, j) else .ok s) (List.range' (i + 1) (n - (i + 1))) s) (0, 0, 1)

/-- linear_algebra.h:179: the rotation angle. -/
noncomputable def jacobiAngle (app aqq apq : ℝ) : ℝ := 1 / 2 * atan2 (2 * apq) (aqq - app)

/-- linear_algebra.h:176-198: the update of `D`; returns also `cos θ`, `sin θ`. -/
noncomputable def jacobiRotateD (D : Mat ℝ) (n p q : Nat) : Res (Mat ℝ × ℝ × ℝ) := do
  let app ← D.get p p
  let aqq ← D.get q q
  let apq ← D.get p q
  let theta := jacobiAngle app aqq apq
  let c := Real.cos theta
  let s := Real.sin theta
  let D ← D.set p p (c * c * app + s * s * aqq - 2 * s * c * apq)
  let D ← D.set q q (s * s * app + c * c * aqq + 2 * s * c * apq)
  let D ← D.set q p 0
  let D ← D.set p q 0
  let D ← forUp n (fun D i =>
    if i ≠ p ∧ i ≠ q then do
      let aip ← D.get i p
      let aiq ← D.get i q
      let D ← D.set p i (c * aip - s * aiq)
      let D ← D.set i p (c * aip - s * aiq)
      let D ← D.set q i (s * aip + c * aiq)
      D.set i q (s * aip + c * aiq)
    else .ok D) D
  .ok (D, c, s)

/-- linear_algebra.h:200-207: the update of the eigenvector columns `p` and `q`. -/
def jacobiRotateV (V : Mat ℝ) (n p q : Nat) (c s : ℝ) : Res (Mat ℝ) :=
  forUp n (fun V i => do
    let e_ip ← V.get i p
    let e_iq ← V.get i q
    let V ← V.set i p (c * e_ip - s * e_iq)
    V.set i q (s * e_ip + c * e_iq)) V

/-- linear_algebra.h:155-208: the iterations. -/
noncomputable def jacobiLoop (n : Nat) (tolerance : ℝ) : Nat → Mat ℝ × Mat ℝ → Res (Mat ℝ × Mat ℝ)
  | 0, s => .ok s
  | k + 1, (D, V) => do
    let (max_val, p, q) ← jacobiPivot D n
    if max_val < tolerance then .ok (D, V)
    else do
      let (D, c, s) ← jacobiRotateD D n p q
      let V ← jacobiRotateV V n p q c s
      jacobiLoop n tolerance k (D, V)

/-- linear_algebra.h:126-217, `jacobi_eigen_solver`: the eigenvalues and the eigenvector matrix. -/
noncomputable def jacobiEigenSolver (A : Mat ℝ) (max_iterations : Nat) (tolerance : ℝ) :
    Res (List ℝ × Mat ℝ) :=
  if A.rows ≠ A.cols then .throw .runtime
  else do
    let n := A.rows
    let V ← forUp n (fun V i => V.set i i 1) (mk' 0 n n)
    let (D, V) ← jacobiLoop n tolerance max_iterations (A, V)
    let ev ← forUp n (fun ev i => do
      let v ← D.get i i
      .ok (ev ++ [v])) []
    .ok (ev, V)

/-- `std::distance(begin, std::min_element(begin, end))`: the first position of a smallest element (0 for an
empty range). linear_algebra.h 238. -/
noncomputable def minIdx (l : List ℝ) : Nat :=
  ((List.range l.length).foldl (fun m i => if l.getD i 0 < l.getD m 0 then i else m) 0)

/-- linear_algebra.h:219-248, `svd_solve_ah_zero` (100 iterations, tolerance 1e-9 are the defaults of
`jacobi_eigen_solver`). -/
noncomputable def svdSolveAhZero (A : Mat ℝ) (max_iterations : Nat) (tolerance : ℝ) :
    Res (List ℝ) := do
  let AT ← A.transpose 0
  let ATA ← multiply AT A
  let (ev, V) ← jacobiEigenSolver ATA max_iterations tolerance
  let k := minIdx ev
  forUp A.cols (fun h i => do
    let v ← V.get i k
    .ok (h ++ [v])) []

end Mat
end TinyDIP
