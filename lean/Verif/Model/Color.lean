import Verif.Model.Pixelwise
import Mathlib.Analysis.SpecialFunctions.Trigonometric.Inverse
import Mathlib.Analysis.Real.Sqrt
import Mathlib.Algebra.Order.Floor.Semiring

/-!
# Model: colour conversions (image_operations.h 855-969, 1149-1190, 1711-1733, 2072-2102, 6163-6173)

`double` and `long double` are modelled by exact real numbers.
-/

namespace TinyDIP.Color

open TinyDIP
open scoped Classical

/-- `static_cast<std::uint8_t>(r)` of a floating-point value: truncation; undefined when the truncated value
is not an 8-bit unsigned number. Used at image_operations.h 913-947, 1728. -/
noncomputable def toU8 (r : ℝ) : Res (BitVec 8) :=
  if -1 < r ∧ r < 256 then .ok (BitVec.ofNat 8 ⌊r⌋₊) else .ub

/-- The channel as a real number. Used at image_operations.h 857-859, 1715. -/
def real8 (b : BitVec 8) : ℝ := (b.toNat : ℝ)

/-- image_operations.h:863-865, `H1`, in degrees, from the channel values. -/
noncomputable def hueH1 (r g b : ℝ) : ℝ :=
  Real.arccos (0.5 * ((r - g) + (r - b)) / Real.sqrt ((r - g) ^ 2 + (r - b) * (g - b))) *
    (180.0 / Real.pi)

/-- image_operations.h:856-889, `rgb2hsv(RGB)`. The sort of the three channels gives `Max` and
`Min`; `H1` is not a number when they are equal, and not used then. -/
noncomputable def rgb2hsv (input : RGB) : Px3 ℝ :=
  let Max := max input.c0.toNat (max input.c1.toNat input.c2.toNat)
  let Min := min input.c0.toNat (min input.c1.toNat input.c2.toNat)
  let H1 := hueH1 (real8 input.c0) (real8 input.c1) (real8 input.c2)
  let h := if Max = Min then 0 else if input.c2.toNat ≤ input.c1.toNat then H1 else 360.0 - H1
  let s := if Max = 0 then 0 else 1.0 - ((Min : ℝ) / (Max : ℝ))
  ⟨h, s, (Max : ℝ)⟩

/-- image_operations.h:892-898, `rgb2hsv(RGB_DOUBLE)`: the channels are first truncated. -/
noncomputable def rgb2hsvDouble (input : Px3 ℝ) : Res (Px3 ℝ) := do
  let r ← toU8 input.c0
  let g ← toU8 input.c1
  let b ← toU8 input.c2
  .ok (rgb2hsv ⟨r, g, b⟩)

/-- image_operations.h:911-947: storing three truncated channels. -/
noncomputable def pack (r g b : ℝ) : Res RGB := do
  let r ← toU8 r
  let g ← toU8 g
  let b ← toU8 b
  .ok ⟨r, g, b⟩

/-- image_operations.h:901-948, `hsv2rgb(HSV)`. -/
noncomputable def hsv2rgb (input : Px3 ℝ) : Res RGB := do
  let H := input.c0
  let S := input.c1
  let Max := input.c2
  let hi ← toU8 (⌊H / 60.0⌋ : ℝ)
  let f := H / 60.0 - (hi.toNat : ℝ)
  let Min := Max * (1.0 - S)
  let q := Max * (1.0 - f * S)
  let t := Max * (1.0 - (1.0 - f) * S)
  match hi.toNat with
  | 0 => pack Max t Min
  | 1 => pack q Max Min
  | 2 => pack Min Max t
  | 3 => pack Min q Max
  | 4 => pack t Min Max
  | 5 => pack Max Min q
  | _ => .ok ⟨0, 0, 0⟩

/-- image_operations.h:952-959, `Grayscale2RGB(GrayScale)`. -/
noncomputable def grayscale2RGB (input : BitVec 8) : Res RGB :=
  hsv2rgb ⟨(input.toNat : ℝ) / 256.0 * 360, 1.0, 255.0⟩

/-- image_operations.h:2045-2057 (`pixelwise_transform`) and 962-968: the pixels are converted one
after another, for a conversion that may be undefined. -/
noncomputable def convertAll {α β : Type} (op : α → Res β) (input : Image α) : Res (Image β) := do
  let d ← input.data.mapM op
  Image.ofData d input.size

/-- image_operations.h:2072-2078, `rgb2hsv(image)`. -/
noncomputable def rgb2hsvImage (input : Image RGB) : Res (Image (Px3 ℝ)) :=
  convertAll (fun p => .ok (rgb2hsv p)) input

/-- image_operations.h:2089-2094, `hsv2rgb(image)`. -/
noncomputable def hsv2rgbImage (input : Image (Px3 ℝ)) : Res (Image RGB) := convertAll hsv2rgb input

/-- image_operations.h:962-968, `Grayscale2RGB(image)`. -/
noncomputable def grayscale2RGBImage (input : Image (BitVec 8)) : Res (Image RGB) :=
  convertAll grayscale2RGB input

/-- image_operations.h:1149-1168, `convert_image<RGB_DOUBLE or HSV>` of an RGB image. -/
noncomputable def im2double (input : Image RGB) : Res (Image (Px3 ℝ)) :=
  convertAll (fun p => .ok ⟨real8 p.c0, real8 p.c1, real8 p.c2⟩) input

/-- image_operations.h:1170-1189, `convert_image<RGB>`, and 1723-1727, `im2uint8(Image<RGB_DOUBLE>)`. -/
noncomputable def im2uint8 (input : Image (Px3 ℝ)) : Res (Image RGB) :=
  convertAll (fun p => pack p.c0 p.c1 p.c2) input

/-- image_operations.h:1717-1721, `im2double(Image<GrayScale>)`. -/
noncomputable def im2doubleGray (input : Image (BitVec 8)) : Res (Image ℝ) := input.cast real8

/-- image_operations.h:1729-1733, `im2uint8(Image<double>)`. -/
noncomputable def im2uint8Gray (input : Image ℝ) : Res (Image (BitVec 8)) := convertAll toU8 input

/-- image_operations.h:6163-6173, `increase_intensity` of an RGB image. -/
noncomputable def increaseIntensity (input : Image RGB) (times : ℝ) : Res (Image RGB) := do
  let hsv ← rgb2hsvImage input
  let h ← getPlane (0 : ℝ) hsv 0
  let s ← getPlane (0 : ℝ) hsv 1
  let v ← getPlane (0 : ℝ) hsv 2
  let v' ← multipliesScalar (· * ·) (0 : ℝ) v times
  let out ← constructPx3 (0 : ℝ) h s v'
  hsv2rgbImage out

end TinyDIP.Color
