import Verif.Model.LinAlg
import Verif.Model.Rounded

/-!
# Matrix products in double precision (linear_algebra.h)

Every product and every sum is rounded to a `double` with an unbounded exponent, one by one.
-/

namespace TinyDIP.Mat

open Rnd

/-- linear_algebra.h:99-124, `multiply<double>`. -/
noncomputable def multiplyF (A B : Mat ℝ) : Res (Mat ℝ) :=
  if A.cols ≠ B.rows then .throw .runtime
  else
    forUp A.rows (fun C i =>
      forUp B.cols (fun C j => do
        let sum ← forUp A.cols (fun sum k => do
          let a ← A.get i k
          let b ← B.get k j
          .ok (dbl (sum + dbl (a * b)))) 0
        C.set i j sum) C) (mk' 0 A.rows B.cols)

/-- image_operations.h 7766-7789 `scale_homography<double>`: the sizes are converted to `double` and
divided. Sizes of zero (an infinite or undefined ratio) are not modelled: callers assume positive sizes. -/
noncomputable def scaleHomographyF (H : Mat ℝ)
    (w1Full h1Full w1Small h1Small w2Full h2Full w2Small h2Small : Nat) : Res (Mat ℝ) := do
  let S1 ← (mk' 0 3 3 : Mat ℝ).set 0 0 (dbl (dbl w1Full / dbl w1Small))
  let S1 ← S1.set 1 1 (dbl (dbl h1Full / dbl h1Small))
  let S1 ← S1.set 2 2 1
  let S2 ← (mk' 0 3 3 : Mat ℝ).set 0 0 (dbl (dbl w2Small / dbl w2Full))
  let S2 ← S2.set 1 1 (dbl (dbl h2Small / dbl h2Full))
  let S2 ← S2.set 2 2 1
  let temp ← multiplyF S2 H
  multiplyF temp S1

end TinyDIP.Mat
