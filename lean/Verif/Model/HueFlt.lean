import Verif.Model.Rounded

/-!
# Model: grey levels as hues in floating arithmetic

`Grayscale2RGB` (Color) with the rounding of every operation: `hsv2rgbD` of `Rounded` for the conversion.
-/

namespace TinyDIP.Rnd

open TinyDIP

/-- image_operations.h 952-959 `Grayscale2RGB(GrayScale)`; `p` is the precision of `long double`. -/
noncomputable def grayscale2RGBD (p : Nat) (input : BitVec 8) : Res RGB :=
  hsv2rgbD p ⟨dbl (dbl ((input.toNat : ℝ) / 256) * 360), 1, 255⟩

/-- image_operations.h 962-968 `Grayscale2RGB(image)`. -/
noncomputable def grayscale2RGBImageD (p : Nat) (input : Image (BitVec 8)) : Res (Image RGB) :=
  Color.convertAll (grayscale2RGBD p) input

end TinyDIP.Rnd
