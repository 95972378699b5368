import Verif.Model.Rounding
import Verif.Model.Interp
import Verif.Model.Color
import Verif.Model.Resample

/-!
# Functions in double precision

Functions whose result depends on how intermediate results are rounded, because it is truncated to an integer
or compared. They are the functions modelled with exact numbers in `Interp`, `Color` and `Sift`; here each
operation rounds to `double`. Products and sums are not contracted to fused operations. A pixel of 8 bits and
every other integer up to `2 ^ 53` is a `double`.
-/

namespace TinyDIP.Rnd

open TinyDIP Image

variable {α : Type}

/-- Rounding to `double`: every operation of image_operations.h on `double` operands, for example 2246. -/
noncomputable def dbl (x : ℝ) : ℝ := fl 53 x

/-! ### Nearest-neighbour resizing -/

/-- image_operations.h 2246-2247: the ratio of two sizes, each converted to `double`. -/
noncomputable def ratioD (old new : Nat) : ℝ := dbl (dbl old / dbl new)

/-- image_operations.h 2255-2256: the position read for pixel `x`. -/
noncomputable def sourceD (old new x : Nat) : Res Nat := toSize (dbl (dbl x * ratioD old new))

/-- image_operations.h 2239-2261, `resize_nearest_neighbor`; the OpenMP loop over pixels is run in the order
`order`. -/
noncomputable def resizeNearestD (zero : α) (order : List (Nat × Nat)) (im : Image α) (newWidth newHeight : Nat) :
    Res (Image α) :=
  loop (fun out p => do
    let sx ← sourceD im.width newWidth p.1
    let sy ← sourceD im.height newHeight p.2
    let v ← im.at2u sx sy
    out.set2u p.1 p.2 v) order (Image.ofSizes zero [newWidth, newHeight])

/-! ### Bicubic resizing -/

/-- image_operations.h 2343-2344: `std::clamp` on values of precision `p` and the conversion to `size_t`. -/
noncomputable def clampCoordP (p : Nat) (v : ℝ) (size : Nat) : Res Nat :=
  let top := fl p (fl p size - 1)
  if top < 0 then .ub
  else toSize (if v < 0 then 0 else if top < v then top else v)

/-- image_operations.h 2322-2323, 2329-2330: the position of pixel `x` in the input, in precision `p`. -/
noncomputable def mappingP (p : Nat) (old new x : Nat) : ℝ := fl p (fl p x * fl p (fl p old / fl p new))

/-- image_operations.h 2318-2351, `copyResizeBicubic`, with the positions computed in precision `p` (24 for
`float`, the default for one channel; 53 for `double`, the default for colours). `polate` is `bicubicPolate`;
for 8-bit elements it works on integers. The OpenMP loop over pixels is run in the order `order`. -/
noncomputable def copyResizeBicubicP (p : Nat) (polate : List α → ℝ → ℝ → Res α) (zero : α)
    (order : List (Nat × Nat)) (im : Image α) (width height : Nat) : Res (Image α) :=
  loop (fun out q => do
    let xm := mappingP p im.width width q.1
    let ym := mappingP p im.height height q.2
    let nd ← forUp 16 (fun nd k => do
      let cx ← clampCoordP p (fl p ((⌊xm⌋ : ℝ) + (((k % 4 : Nat) : ℝ) - 1))) im.width
      let cy ← clampCoordP p (fl p ((⌊ym⌋ : ℝ) + (((k / 4 : Nat) : ℝ) - 1))) im.height
      let v ← im.at2 cx cy
      vset nd k v) (List.replicate 16 zero)
    let v ← polate nd (fl p (xm - ⌊xm⌋)) (fl p (ym - ⌊ym⌋))
    out.set2 q.1 q.2 v) order (Image.ofSizes zero [width, height])

/-! ### Weighted means of 8-bit values -/

/-- image_operations.h 4829-4834 and 8148-8150: `a * (1.0 - t) + b * t`. -/
noncomputable def mixD (a b t : ℝ) : ℝ := dbl (dbl (a * dbl (1 - t)) + dbl (b * t))

/-- image_operations.h 8146-8148: one channel of the blended pixel in column `x` of a first image of width
`width`. -/
noncomputable def blendD (width x : Nat) (a b : BitVec 8) : Res (BitVec 8) :=
  let alpha := dbl (dbl x / dbl width)
  Color.toU8 (mixD a.toNat b.toNat alpha)

/-- image_operations.h 4784-4850, `bilinear_interpolate` for 8-bit pixels; `x` and `y` are `double`s. -/
noncomputable def bilinearD (im : Image (BitVec 8)) (x y : ℝ) : Res (BitVec 8) :=
  let width := dbl im.width
  let height := dbl im.height
  if x < 0 ∨ x > dbl (width - 1) ∨ y < 0 ∨ y > dbl (height - 1) then .ok 0
  else do
    let x1 ← toSize x
    let y1 ← toSize y
    let x2 := if wadd x1 1 ≥ im.width then x1 else wadd x1 1
    let y2 := if wadd y1 1 ≥ im.height then y1 else wadd y1 1
    let q11 ← im.at2 x1 y1
    let q21 ← im.at2 x2 y1
    let q12 ← im.at2 x1 y2
    let q22 ← im.at2 x2 y2
    let dx := dbl (x - dbl x1)
    let dy := dbl (y - dbl y1)
    let r1 := mixD q11.toNat q21.toNat dx
    let r2 := mixD q12.toNat q22.toNat dx
    .ok (Conv.u8.fromR (mixD r1 r2 dy))

/-! ### RGB and HSV -/

/-- image_operations.h 863-865, `H1`. `acos` is the library function; the other operations round. `pow` of an
integer and 2 is exact; the channels are at most 255, so the integer operations are exact. -/
noncomputable def hueD (acos : ℝ → ℝ) (r g b : ℝ) : ℝ :=
  dbl (acos (dbl (dbl (0.5 * ((r - g) + (r - b))) / dbl (Real.sqrt ((r - g) ^ 2 + (r - b) * (g - b))))) *
    dbl (180 / dbl Real.pi))

/-- image_operations.h 856-889, `rgb2hsv(RGB)`. -/
noncomputable def rgb2hsvD (acos : ℝ → ℝ) (input : RGB) : Px3 ℝ :=
  let Max := max input.c0.toNat (max input.c1.toNat input.c2.toNat)
  let Min := min input.c0.toNat (min input.c1.toNat input.c2.toNat)
  let H1 := hueD acos (Color.real8 input.c0) (Color.real8 input.c1) (Color.real8 input.c2)
  let h := if Max = Min then 0 else if input.c2.toNat ≤ input.c1.toNat then H1 else dbl (360 - H1)
  let s := if Max = 0 then 0 else dbl (1 - dbl ((Min : ℝ) / (Max : ℝ)))
  ⟨h, s, (Max : ℝ)⟩

/-- image_operations.h 901-948, `hsv2rgb(HSV)`; `p` is the precision of `long double`. -/
noncomputable def hsv2rgbD (p : Nat) (input : Px3 ℝ) : Res RGB := do
  let H := input.c0
  let S := input.c1
  let Max := input.c2
  let hi ← Color.toU8 (⌊fl p (H / 60)⌋ : ℝ)
  let f := fl p (fl p (H / 60) - (hi.toNat : ℝ))
  let Min := fl p (Max * fl p (1 - S))
  let q := fl p (Max * fl p (1 - fl p (f * S)))
  let t := fl p (Max * fl p (1 - fl p (fl p (1 - f) * S)))
  match hi.toNat with
  | 0 => Color.pack Max t Min
  | 1 => Color.pack q Max Min
  | 2 => Color.pack Min Max t
  | 3 => Color.pack Min q Max
  | 4 => Color.pack t Min Max
  | 5 => Color.pack Max Min q
  | _ => .ok ⟨0, 0, 0⟩

/-! ### Orientations -/

/-- image_operations.h 7081-7083: degrees of the angle `a` that `std::atan2` returned. -/
noncomputable def degreesD (a : ℝ) : ℝ := dbl (dbl (a * dbl (180 / dbl Real.pi)) + 180)

/-- image_operations.h 7111: the index into the 37 bins of `get_orientation_histogram`. -/
noncomputable def bin10D (a : ℝ) : Res Nat := toSize (dbl (degreesD a / 10))

/-- image_operations.h 7158-7159: the index into the 8 bins of `get_keypoint_descriptor`. -/
noncomputable def bin45D (a : ℝ) : Res Nat := do
  let b ← toSize (dbl (degreesD a / 45))
  .ok (if b = 8 then 7 else b)

/-! ### Normalising -/

/-- image_operations.h 2212-2228, `normalize`: what becomes of the pixel `v` of an image with values from `lo`
to `hi`. -/
noncomputable def normalizeD (lo hi v : ℝ) : ℝ := dbl (dbl (v - lo) / dbl (hi - lo))

/-! ### Rotation -/

/-- image_operations.h 5007: the quarter turn is recognised by comparing the angle, a `double`, with half of
`std::numbers::pi_v<long double>`; `p` is the precision of `long double`. -/
def quarterD (p : Nat) (radians : ℝ) : Prop := radians = fl p (fl p Real.pi / 2)

/-- image_operations.h 5033-5036: the size of the turned image, from the values of the cosine and the sine.
(5028-5029: sizes converted to `double`.) -/
noncomputable def turnedSizeD (w h : Nat) (cosine sine : ℝ) : Res Nat × Res Nat :=
  let height := dbl h
  let width := dbl w
  let newHeight := dbl (|dbl (height * cosine)| + |dbl (width * sine)|)
  let newWidth := dbl (|dbl (width * cosine)| + |dbl (height * sine)|)
  (toSize ⌈newWidth⌉, toSize ⌈newHeight⌉)

open Classical in
/-- image_operations.h 4995-5036: the width and the height of the image `rotate_detail_shear_transformation`
returns for an angle of type `double` from 0 to a full turn (4990-4994 bring other angles there); `cosine` and
`sine` are the library functions, `p` the precision of `long double`. -/
noncomputable def rotatedSizeD (p : Nat) (cosine sine : ℝ → ℝ) (w h : Nat) (radians : ℝ) : Res Nat × Res Nat :=
  if radians = 0 then (.ok w, .ok h)
  else if quarterD p radians then (.ok h, .ok w)
  else turnedSizeD w h (cosine radians) (sine radians)

end TinyDIP.Rnd
