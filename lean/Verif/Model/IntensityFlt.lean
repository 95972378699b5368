import Verif.Model.Rounded

/-!
# Model: brightening in floating arithmetic

`increaseIntensity` (Color) with the rounding of every operation: `rgb2hsvD` and `hsv2rgbD` of `Rounded` for the
conversions.
-/

namespace TinyDIP.Rnd

open TinyDIP

/-- image_operations.h 6163-6173 `increase_intensity` of an RGB image, with a factor of type `double`; `acos` is the
library function, `p` the precision of `long double`. -/
noncomputable def increaseIntensityD (acos : ℝ → ℝ) (p : Nat) (input : Image RGB) (times : ℝ) : Res (Image RGB) := do
  let hsv ← Color.convertAll (fun px => .ok (rgb2hsvD acos px)) input
  let h ← getPlane (0 : ℝ) hsv 0
  let s ← getPlane (0 : ℝ) hsv 1
  let v ← getPlane (0 : ℝ) hsv 2
  let v' ← multipliesScalar (fun a b => dbl (a * b)) (0 : ℝ) v times
  let out ← constructPx3 (0 : ℝ) h s v'
  Color.convertAll (hsv2rgbD p) out

end TinyDIP.Rnd
