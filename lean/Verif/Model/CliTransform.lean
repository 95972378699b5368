import Verif.Model.CliImage
import Verif.Model.Color
import Verif.Model.Resample
import Verif.Model.Transform
import Verif.Model.Arith
import Verif.Model.Fit

/-!
# Model of the image transformation commands

Files: `main.h` (bicubic_resize 1843-1894, dct2 2298-2346, getPlane 2870-2928, hsv2rgb 3062-3187,
idct2 3189-3237, im2double 3239-3356, im2uint8 3358-3474) and `main.cpp` (lanczos_resample 267-320).

Floating-point numbers are exact real numbers, so the stored values are a type of their own (`PayR`).
Stored values of other types, and images that are not two-dimensional or have no pixels, go to the
parameter `ext` where the operation is not modelled for them.
-/

namespace TinyDIP.Cli

open TinyDIP

variable {F : Type} {α : Type}

/-- The stored images whose pixels are modelled: real numbers, bytes, three bytes, three real numbers,
complex numbers; and lists of points and parameters of Gaussians. The `std::any` of main.h 369. -/
inductive PayR
  | real (im : Image ℝ)
  | bytes (im : Image (BitVec 8))
  | rgb (im : Image RGB)
  | tri (im : Image (Px3 ℝ))
  | cplx (im : Image ℂ)
  | points (l : List (Nat × Nat))
  | bump (p : Fit.GaussianParameters2D)
  | other

/-- `Image<RGB_DOUBLE>` (main.h 254, 274); the numbers of the scalar types are labels of the model. -/
def tyRgbDouble : Ty := .image (.scalar 12)

/-- `Image<GrayScale>`: `GrayScale` is `unsigned char`. base_types.h 103. -/
def tyByte : Ty := .image (.num .uchar)

/-- A library call inside a command: an exception leaves the operation. main.h 1437-1446. -/
def Act.ofRes : Res α → Act α
  | .ok r => .done r
  | .throw _ => .threw
  | .ub => .ub

/-- The result stored under the type `t`. main.h 1454-1470. -/
def Act.ofImage {β : Type} (t : Ty) (mk : β → PayR) : Res β → Act (Val PayR)
  | .ok r => .done (.atom t (mk r))
  | .throw _ => .threw
  | .ub => .ub

/-- Two-dimensional with at least one pixel. Not from the repository: the images the modelled library
functions are proved about. -/
def planar (im : Image α) : Bool := im.size.length == 2 && im.size.prod != 0

/-- image_operations.h 3813-3820 `dct2` of an 8-bit image: the pixels are converted to `double`. -/
noncomputable def dct2Byte (im : Image (BitVec 8)) : Res (Image ℝ) := do
  let c ← im.cast Color.real8
  dct2 c

/-- image_operations.h 3830-3837 `idct2` of an 8-bit image. -/
noncomputable def idct2Byte (im : Image (BitVec 8)) : Res (Image ℝ) := do
  let c ← im.cast Color.real8
  idct2 c

/-- main.h 2317-2322, the operation of `dct2` and `idct2`, with `f` and `fByte` the library functions:
single-channel images give `Image<double>`, colour images are treated plane by plane
(image_operations.h 3822-3828, 3839-3845), and planes of `double` make an `RGB` image an `RGB_DOUBLE` image
(1555-1576). -/
noncomputable def dctStored (f : Image ℝ → Res (Image ℝ)) (fByte : Image (BitVec 8) → Res (Image ℝ))
    (ext : Val PayR → Act (Val PayR)) (v : Val PayR) : Act (Val PayR) :=
  match v with
  | .atom (.image (.num .double)) (.real im) =>
    if planar im then .ofImage tyDouble .real (f im) else ext v
  | .atom (.image (.num .uchar)) (.bytes im) =>
    if planar im then .ofImage tyDouble .real (fByte im) else ext v
  | .atom (.image (.scalar 10)) (.rgb im) =>
    if planar im then .ofImage tyRgbDouble .tri (Arith.applyEach 0 0 fByte im) else ext v
  | .atom (.image (.scalar 11)) (.tri im) =>
    if planar im then .ofImage tyHsv .tri (Arith.applyEach 0 0 f im) else ext v
  | .atom (.image (.scalar 12)) (.tri im) =>
    if planar im then .ofImage tyRgbDouble .tri (Arith.applyEach 0 0 f im) else ext v
  | _ => ext v

/-- main.h 2298-2346 `handlers::dct2`. There is no overload with an execution policy, so a policy only
prints a warning (2330-2337). -/
noncomputable def dct2Cmd (io : FileIO PayR F) (ext : Val PayR → Act (Val PayR)) : HandlerU PayR F :=
  transformU io 2 isMasterImage fun _ policy => some fun v =>
    dispatchPolicy policy (fun _ => dctStored dct2 dct2Byte ext v) (dctStored dct2 dct2Byte ext v)

/-- main.h 3189-3237 `handlers::idct2`. -/
noncomputable def idct2Cmd (io : FileIO PayR F) (ext : Val PayR → Act (Val PayR)) : HandlerU PayR F :=
  transformU io 2 isMasterImage fun _ policy => some fun v =>
    dispatchPolicy policy (fun _ => dctStored idct2 idct2Byte ext v) (dctStored idct2 idct2Byte ext v)

/-- `std::numeric_limits<double>::max()`. Used at image_operations.h 2310-2311. -/
noncomputable def dblMax : ℝ := (2 - 2⁻¹ ^ 52) * 2 ^ 1023

/-- main.h 1867-1870: `copyResizeBicubic` on the stored image; the type is kept. -/
noncomputable def resizeVal (ext : Val PayR → Act (Val PayR)) (width height : Nat) (v : Val PayR) :
    Act (Val PayR) :=
  match v with
  | .atom (.image (.num .double)) (.real im) =>
    if planar im then .ofImage tyDouble .real (Resample.copyResizeBicubic (-dblMax) dblMax im width height)
    else ext v
  | .atom (.image (.num .uchar)) (.bytes im) =>
    if planar im then .ofImage tyByte .bytes (Resample.copyResizeBicubicU8 im width height) else ext v
  | .atom (.image (.scalar 10)) (.rgb im) =>
    if planar im then .ofImage tyRgb .rgb (Resample.copyResizeBicubicRGB im width height) else ext v
  | .atom (.image (.scalar 11)) (.tri im) =>
    if planar im then .ofImage tyHsv .tri
      (Arith.applyEach 0 0 (fun p => Resample.copyResizeBicubic (-dblMax) dblMax p width height) im)
    else ext v
  | .atom (.image (.scalar 12)) (.tri im) =>
    if planar im then .ofImage tyRgbDouble .tri
      (Arith.applyEach 0 0 (fun p => Resample.copyResizeBicubic (-dblMax) dblMax p width height) im)
    else ext v
  | _ => ext v

/-- main.h 1843-1894 `handlers::bicubic_resize`. -/
noncomputable def bicubicCmd (io : FileIO PayR F) (ext : Val PayR → Act (Val PayR)) : HandlerU PayR F :=
  transformU io 4 isMasterImage fun filtered policy =>
    match filtered with
    | _ :: _ :: wA :: hA :: _ =>
      match parseSize wA, parseSize hA with
      | some w, some h => some fun v => dispatchPolicy policy (fun _ => resizeVal ext w h v) (resizeVal ext w h v)
      | _, _ => none
    | _ => none

/-- `std::numeric_limits<double>::epsilon()`. Used at image_operations.h 2375. -/
noncomputable def dblEps : ℝ := 2⁻¹ ^ 52

/-- main.cpp 295: `lanczos_resample` on the stored image, its pixels in the order `pts`; the type is kept.
The three planes of a colour image are treated in the same order. -/
noncomputable def lanczosVal (ext : Val PayR → Act (Val PayR)) (pts : List (Nat × Nat)) (width height : Nat)
    (a : Int) (v : Val PayR) : Act (Val PayR) :=
  match v with
  | .atom (.image (.num .double)) (.real im) =>
    if planar im then .ofImage tyDouble .real (Resample.lanczosOrd .real 0 dblEps pts im width height a)
    else ext v
  | .atom (.image (.num .uchar)) (.bytes im) =>
    if planar im then .ofImage tyByte .bytes (Resample.lanczosOrd .u8 0 dblEps pts im width height a) else ext v
  | .atom (.image (.scalar 10)) (.rgb im) =>
    if planar im then .ofImage tyRgb .rgb
      (Arith.applyEach 0 0 (fun p => Resample.lanczosOrd .u8 0 dblEps pts p width height a) im)
    else ext v
  | .atom (.image (.scalar 11)) (.tri im) =>
    if planar im then .ofImage tyHsv .tri
      (Arith.applyEach 0 0 (fun p => Resample.lanczosOrd .real 0 dblEps pts p width height a) im)
    else ext v
  | .atom (.image (.scalar 12)) (.tri im) =>
    if planar im then .ofImage tyRgbDouble .tri
      (Arith.applyEach 0 0 (fun p => Resample.lanczosOrd .real 0 dblEps pts p width height a) im)
    else ext v
  | _ => ext v

/-- main.cpp 267-320 `handlers::lanczos_resample`; `order` is the order of the indices when an execution
policy is given. The radius is parsed as `std::size_t` and converted to `int` (295, 303). -/
noncomputable def lanczosCmd (io : FileIO PayR F) (ext : Val PayR → Act (Val PayR)) (order : List Nat) :
    HandlerU PayR F :=
  transformU io 4 isMasterImage fun filtered policy =>
    match filtered with
    | _ :: _ :: wA :: hA :: more =>
      match parseSize wA, parseSize hA with
      | some w, some h =>
        match (match more with
          | [] => some 3
          | aA :: _ => parseSize aA) with
        | some a => some fun v =>
          dispatchPolicy policy (fun _ => lanczosVal ext (splitIdx w order) w h (Gen.toInt32 a) v)
            (lanczosVal ext (iterYX w h) w h (Gen.toInt32 a) v)
        | none => none
      | _, _ => none
    | _ => none

/-- main.h 3257-3294: `im2double` on the stored value: colour and grey 8-bit images are converted, other
images are refused; containers go to `ext`. -/
noncomputable def im2doubleVal (ext : Val PayR → Act (Val PayR)) (v : Val PayR) : Act (Val PayR) :=
  match v with
  | .atom (.image (.scalar 10)) (.rgb im) => .ofImage tyRgbDouble .tri (Color.im2double im)
  | .atom (.image (.num .uchar)) (.bytes im) => .ofImage tyDouble .real (Color.im2doubleGray im)
  | .atom (.image _) _ => .threw
  | _ => ext v

/-- main.h 3239-3356 `handlers::im2double`. -/
noncomputable def im2doubleCmd (io : FileIO PayR F) (ext : Val PayR → Act (Val PayR)) : HandlerU PayR F :=
  transformU io 2 isMasterData fun _ policy => some fun v =>
    dispatchPolicy policy (fun _ => im2doubleVal ext v) (im2doubleVal ext v)

/-- main.h 3376-3413: `im2uint8` on the stored value. -/
noncomputable def im2uint8Val (ext : Val PayR → Act (Val PayR)) (v : Val PayR) : Act (Val PayR) :=
  match v with
  | .atom (.image (.scalar 12)) (.tri im) => .ofImage tyRgb .rgb (Color.im2uint8 im)
  | .atom (.image (.num .double)) (.real im) => .ofImage tyByte .bytes (Color.im2uint8Gray im)
  | .atom (.image _) _ => .threw
  | _ => ext v

/-- main.h 3358-3474 `handlers::im2uint8`. -/
noncomputable def im2uint8Cmd (io : FileIO PayR F) (ext : Val PayR → Act (Val PayR)) : HandlerU PayR F :=
  transformU io 2 isMasterData fun _ policy => some fun v =>
    dispatchPolicy policy (fun _ => im2uint8Val ext v) (im2uint8Val ext v)

/-- main.h 2889-2901: `getPlane` on the stored image; images of numbers are refused. -/
def planeVal (k : Nat) (ext : Val PayR → Act (Val PayR)) (v : Val PayR) : Act (Val PayR) :=
  match v with
  | .atom (.image (.scalar 10)) (.rgb im) => .ofImage tyByte .bytes (getPlane 0 im k)
  | .atom (.image (.scalar 11)) (.tri im) => .ofImage tyDouble .real (getPlane 0 im k)
  | .atom (.image (.scalar 12)) (.tri im) => .ofImage tyDouble .real (getPlane 0 im k)
  | .atom (.image (.num _)) _ => .threw
  | _ => ext v

/-- main.h 2870-2928 `handlers::getPlane`, as `getRplane`, `getGplane` and `getBplane` for the indices 0, 1
and 2. -/
def planeCmd (k : Nat) (io : FileIO PayR F) (ext : Val PayR → Act (Val PayR)) : HandlerU PayR F :=
  transformU io 2 isMasterImage fun _ policy => some fun v =>
    dispatchPolicy policy (fun _ => planeVal k ext v) (planeVal k ext v)

/-- main.h 3092-3127: `hsv2rgb` on the stored value; images of other types are refused. -/
noncomputable def hsv2rgbVal (ext : Val PayR → Act (Val PayR)) (v : Val PayR) : Act (Val PayR) :=
  match v with
  | .atom (.image (.scalar 11)) (.tri im) => .ofImage tyRgb .rgb (Color.hsv2rgbImage im)
  | .atom (.image _) _ => .threw
  | _ => ext v

/-- main.h 3062-3187 `handlers::hsv2rgb`. With a policy the pixels are converted independently of each
other (image_operations.h 2096-2102), to the same result. -/
noncomputable def hsv2rgbCmd (io : FileIO PayR F) (ext : Val PayR → Act (Val PayR)) : HandlerU PayR F :=
  transformU io 2 isMasterData fun _ policy => some fun v =>
    dispatchPolicy policy (fun _ => hsv2rgbVal ext v) (hsv2rgbVal ext v)

end TinyDIP.Cli
