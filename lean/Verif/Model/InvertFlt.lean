import Verif.Model.LinAlg
import Verif.Model.Rounded

/-!
# Inverting a 3×3 matrix in double precision (linear_algebra.h)

Every product, difference, sum and quotient is rounded to a `double` with an unbounded exponent. The
operations are rounded one by one: a compiler that fuses a product and a sum is not modelled.
-/

namespace TinyDIP.Mat

open Rnd

/-- linear_algebra.h:250-286: `a * b - c * d` in `double`, as in the nine cofactors. -/
noncomputable def crossF (a b c d : ℝ) : ℝ := dbl (dbl (a * b) - dbl (c * d))

/-- linear_algebra.h:250-286, `invert<double>`. -/
noncomputable def invertF (M : Mat ℝ) : Res (Mat ℝ) :=
  if M.rows ≠ 3 ∨ M.cols ≠ 3 then .throw .runtime
  else do
    let m00 ← M.get 0 0
    let m01 ← M.get 0 1
    let m02 ← M.get 0 2
    let m10 ← M.get 1 0
    let m11 ← M.get 1 1
    let m12 ← M.get 1 2
    let m20 ← M.get 2 0
    let m21 ← M.get 2 1
    let m22 ← M.get 2 2
    let det := dbl (dbl (dbl (m00 * crossF m11 m22 m21 m12) - dbl (m01 * crossF m10 m22 m12 m20)) +
      dbl (m02 * crossF m10 m21 m11 m20))
    if |det| < dbl (1 / 10 ^ 9) then .ok empty
    else do
      let d := dbl (1 / det)
      let R := mk' 0 3 3
      let R ← R.set 0 0 (dbl (crossF m11 m22 m21 m12 * d))
      let R ← R.set 0 1 (dbl (crossF m02 m21 m01 m22 * d))
      let R ← R.set 0 2 (dbl (crossF m01 m12 m02 m11 * d))
      let R ← R.set 1 0 (dbl (crossF m12 m20 m10 m22 * d))
      let R ← R.set 1 1 (dbl (crossF m00 m22 m02 m20 * d))
      let R ← R.set 1 2 (dbl (crossF m10 m02 m00 m12 * d))
      let R ← R.set 2 0 (dbl (crossF m10 m21 m20 m11 * d))
      let R ← R.set 2 1 (dbl (crossF m20 m01 m00 m21 * d))
      R.set 2 2 (dbl (crossF m00 m11 m10 m01 * d))

end TinyDIP.Mat
