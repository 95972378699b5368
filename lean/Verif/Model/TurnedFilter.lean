import Verif.Model.Filter
import Verif.Model.Interp
import Verif.Model.Arith

/-!
# Model of the Gaussian filter in turned directions

File: `image_operations.h` (5645-5719). Exact real numbers.
-/

namespace TinyDIP.Filter

open Arith

/-- image_operations.h 5645-5683, `imgaussfilt` with an angle: the picture is turned (with the default
bicubic interpolation), filtered, turned back and cut to the original size around the middle. -/
noncomputable def imgaussfiltTurned (input : Image ℝ) (sigma1 sigma2 radians : ℝ) (n1 n2 : Nat) (b : Boundary)
    (value : ℝ) : Res (Image ℝ) :=
  if input.dim ≠ 2 then .throw .runtime
  else if sigma1 ≤ 0 ∨ sigma2 ≤ 0 then .throw .runtime
  else do
    let rotated ← rotateShear 0 (bicubic .real 0) input radians
    let output ← imgaussfilt rotated sigma1 sigma2 n1 n2 b value
    let output ← rotateShear 0 (bicubic .real 0) output (-radians)
    subimage2d output 0 input.width input.height (output.width / 2) (output.height / 2) 0

/-- image_operations.h 5685-5718 for `RGB_DOUBLE` and `HSV` images: plane by plane, with the default constant
`ElementT{}`. -/
noncomputable def imgaussfiltTurned3 (input : Image (Px3 ℝ)) (sigma1 sigma2 radians : ℝ) (n1 n2 : Nat)
    (b : Boundary) : Res (Image (Px3 ℝ)) :=
  applyEach 0 0 (fun p => imgaussfiltTurned p sigma1 sigma2 radians n1 n2 b 0) input

end TinyDIP.Filter
