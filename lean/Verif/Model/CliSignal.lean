import Verif.Model.CliTransform
import Verif.Model.Filter
import Verif.Model.Elementwise
import Verif.Model.Interp

/-!
# Model of the commands rotate, normalize, to_complex, dct3, gaussian_figure_2d and sift_generate_octave

Files: `main.h` (dct3 2348-2404, gaussian_figure_2d 2600-2632, normalize 3992-4121), `main.cpp` (rotate
634-690, sift_generate_octave 693-773, to_complex 858-993) and the library functions they call.

Floating-point numbers are exact real numbers. `dbl` is `std::from_chars` for `double`. Stored values of
types that are not modelled go to the parameter `ext`.
-/

namespace TinyDIP.Cli

open TinyDIP

variable {F : Type} {α : Type}

/-! ## rotate -/

/-- image_operations.h 4975-5072 `rotate_detail_shear_transformation` with the default interpolator
(`FloatingType` is `double`). -/
noncomputable def turn (cv : Conv α) (zero : α) (angle : ℝ) (im : Image α) : Res (Image α) :=
  rotateShear zero (bicubic cv zero) im angle

/-- main.cpp 655-667: the rotation on the stored image; colour images plane by plane
(image_operations.h 5075-5084). The type is kept. -/
noncomputable def rotateVal (ext : Val PayR → Act (Val PayR)) (angle : ℝ) (v : Val PayR) : Act (Val PayR) :=
  match v with
  | .atom (.image (.num .double)) (.real im) =>
    if planar im then .ofImage tyDouble .real (turn .real 0 angle im) else ext v
  | .atom (.image (.num .uchar)) (.bytes im) =>
    if planar im then .ofImage tyByte .bytes (turn .u8 0 angle im) else ext v
  | .atom (.image (.scalar 10)) (.rgb im) =>
    if planar im then .ofImage tyRgb .rgb (Arith.applyEach 0 0 (turn .u8 0 angle) im) else ext v
  | .atom (.image (.scalar 11)) (.tri im) =>
    if planar im then .ofImage tyHsv .tri (Arith.applyEach 0 0 (turn .real 0 angle) im) else ext v
  | .atom (.image (.scalar 12)) (.tri im) =>
    if planar im then .ofImage tyRgbDouble .tri (Arith.applyEach 0 0 (turn .real 0 angle) im) else ext v
  | _ => ext v

/-- main.cpp 634-690 `handlers::rotate`. There is no overload with an execution policy, so a policy only
prints a warning (674-681). -/
noncomputable def rotateCmd (io : FileIO PayR F) (dbl : Str → Option ℝ) (ext : Val PayR → Act (Val PayR)) :
    HandlerU PayR F :=
  transformU io 3 isMasterImage fun filtered policy =>
    match filtered with
    | _ :: _ :: a :: _ =>
      match dbl (sanitize a) with
      | some angle => some fun v => dispatchPolicy policy (fun _ => rotateVal ext angle v) (rotateVal ext angle v)
      | none => none
    | _ => none

/-! ## normalize -/

/-- main.h 4017-4050: `normalize` on the stored value. Only images of floating-point pixels have the
operation (image_operations.h 2212-2218); images of integers are refused, and so is every number in a
container. -/
noncomputable def normalizeVal (quot : ℝ → ℝ → ℝ) (ext : Val PayR → Act (Val PayR)) (v : Val PayR) :
    Act (Val PayR) :=
  match v with
  | .atom (.image (.num .double)) (.real im) =>
    .ofImage tyDouble .real (Resample.normalize quot im)
  | .atom (.image (.num _)) _ => .threw
  | .cont k (.num n) [] => .done (.cont k (.num n) [])
  | .cont _ (.num _) (_ :: _) => .threw
  | _ => ext v

/-- main.h 4060-4101: the same with an execution policy. There is no overload for images; an exception from
the function object of `std::transform` with a policy ends the process. -/
noncomputable def normalizeValPolicy (quot : ℝ → ℝ → ℝ) (ext : Val PayR → Act (Val PayR)) (v : Val PayR) :
    Act (Val PayR) :=
  match v with
  | .cont _ (.num _) (_ :: _) => .terminated
  | _ => normalizeVal quot ext v

/-- main.h 3992-4121 `handlers::normalize`. -/
noncomputable def normalizeCmd (io : FileIO PayR F) (quot : ℝ → ℝ → ℝ) (ext : Val PayR → Act (Val PayR)) :
    HandlerU PayR F :=
  transformU io 2 isMasterData fun _ policy => some fun v =>
    dispatchPolicy policy (fun _ => normalizeValPolicy quot ext v) (normalizeVal quot ext v)

/-! ## to_complex -/

/-- `Image<std::complex<double>>`; the number is a label of the model. main.h 257. -/
def tyComplex : Ty := .image (.scalar 13)

/-- image_operations.h 6352-6368 and 6370-6387 `to_complex`, single-channel images: each pixel becomes the
real part. With a policy the pixels are converted independently of each other. -/
noncomputable def toComplex (im : Image ℝ) : Res (Image ℂ) := Elem.imageFn (fun v : ℝ => (⟨v, 0⟩ : ℂ)) im

/-- main.cpp 879-913: `to_complex` on the stored value: images of `bool` are refused (879-883), complex
images are returned as they are (884-890). -/
noncomputable def toComplexVal (ext : Val PayR → Act (Val PayR)) (v : Val PayR) : Act (Val PayR) :=
  match v with
  | .atom (.image (.num .bool)) _ => .threw
  | .cont _ (.num .bool) _ => .threw
  | .atom (.image (.scalar 13)) (.cplx im) => .done (.atom tyComplex (.cplx im))
  | .atom (.image (.num .double)) (.real im) => .ofImage tyComplex .cplx (toComplex im)
  | _ => ext v

/-- main.cpp 858-993 `handlers::to_complex`. -/
noncomputable def toComplexCmd (io : FileIO PayR F) (ext : Val PayR → Act (Val PayR)) : HandlerU PayR F :=
  transformU io 2 isMasterData fun _ policy => some fun v =>
    dispatchPolicy policy (fun _ => toComplexVal ext v) (toComplexVal ext v)

/-! ## dct3 -/

/-- The images of a container, if all are images of `double`. main.h 303. -/
def realItems : List (Val PayR) → Option (List (Image ℝ))
  | [] => some []
  | .atom (.image (.num .double)) (.real im) :: rest => (realItems rest).map (im :: ·)
  | _ :: _ => none

/-- A `std::vector<Image<double>>` as stored value. main.h 303. -/
def imageVector (l : List (Image ℝ)) : Val PayR :=
  .cont .vector tyDouble (l.map fun im => .atom tyDouble (.real im))

/-- main.h 2368-2380: `dct3` on the stored container. The operation needs random access and floating-point
pixels (image_operations.h 41-44), so lists and containers of other images are refused. -/
noncomputable def dct3Val (ext : Val PayR → Act (Val PayR)) (v : Val PayR) : Act (Val PayR) :=
  match v with
  | .cont .list _ _ => .threw
  | .cont _ (.image (.num .double)) items =>
    match realItems items with
    | some l => .ofRes (do .ok (imageVector (← dct3 l)))
    | none => ext v
  | .cont _ (.image (.num _)) _ => .threw
  | _ => ext v

/-- main.h 2348-2404 `handlers::dct3`. There is no overload with an execution policy. -/
noncomputable def dct3Cmd (io : FileIO PayR F) (ext : Val PayR → Act (Val PayR)) : HandlerU PayR F :=
  transformU io 2 isImageContainer fun _ policy => some fun v =>
    dispatchPolicy policy (fun _ => dct3Val ext v) (dct3Val ext v)

/-! ## gaussian_figure_2d -/

/-- main.h 2600-2632 `handlers::gaussian_figure_2d`. Policy words are not removed from the arguments. -/
noncomputable def gaussianCmd (io : FileIO PayR F) (dbl : Str → Option ℝ) : HandlerU PayR F := fun w args =>
  match args with
  | outArg :: wA :: hA :: cxA :: cyA :: sA :: _ =>
    match parseSize wA, parseSize hA, parseSize cxA, parseSize cyA, dbl (sanitize sA) with
    | some width, some height, some cx, some cy, some sigma =>
      match Filter.gaussianFigure2D width height cx cy sigma sigma false with
      | .ub => .ub
      | .throw _ => raise w
      | .ok im =>
        let s := saveArg io w outArg (.atom tyDouble (.real im))
        .ok ⟨s.1, s.2, none⟩
    | _, _, _, _, _ => raise w
  | _ => quiet w

/-! ## sift_generate_octave -/

/-- image_operations.h 6783-6803 `generate_octave`: the loop is an OpenMP loop over an `int` counter, its
iterations run in the order `order`; each writes its own element of the vector. -/
noncomputable def octave (order : List Nat) (input : Image ℝ) (levels : Nat) (sigma k : ℝ) :
    Res (List (Image ℝ)) :=
  if levels < 2 then .ok []
  else if 2 ^ 31 < levels then .ub
  else loop (fun out i => do
    let d ← Filter.differenceOfGaussian input (sigma * k ^ i) (sigma * k ^ (i + 1))
    vset out i d) order (List.replicate (levels - 1) ⟨[], []⟩)

/-- main.cpp 728-760: the octave of the stored image; 8-bit images are converted with `im2double` first.
`none` is a message and no result: for images of `bool` and of complex numbers (729-733), for images that
`im2double` does not take (760-763), among them `HSV` and `RGB_DOUBLE`, whose `get_deep_scalar_t` is the pixel
type itself (basic_functions.h 178-185), and for the elevated colour and multi-channel images, for which the
two overloads of `generate_octave` (image_operations.h 6777-6787, 6804-6815) are both viable and neither is
more constrained, so that the `requires` at 740 is false (746-749). An exception in an OpenMP region ends the
process. -/
noncomputable def octaveVal (order : List Nat) (levels : Nat) (sigma k : ℝ) (v : Val PayR) :
    Act (Option (Val PayR)) :=
  let finish : Res (List (Image ℝ)) → Act (Option (Val PayR)) := fun r =>
    match r with
    | .ok l => .done (some (imageVector l))
    | .throw _ => .terminated
    | .ub => .ub
  match v with
  | .atom (.image (.num .double)) (.real im) => finish (octave order im levels sigma k)
  | .atom (.image (.num .uchar)) (.bytes im) =>
    match Color.im2doubleGray im with
    | .ok d => finish (octave order d levels sigma k)
    | .throw _ => .threw
    | .ub => .ub
  | .atom (.image (.scalar 10)) (.rgb im) =>
    match Color.im2double im with
    | .ok _ => .done none
    | .throw _ => .threw
    | .ub => .ub
  | _ => .done none

/-- main.cpp 719: the number of levels, 5 by default. -/
def octaveLevels : List Str → Option Nat
  | l :: _ => parseSize l
  | [] => some 5

/-- main.cpp 720: the first standard deviation, 1.6 by default. -/
noncomputable def octaveSigma (dbl : Str → Option ℝ) : List Str → Option ℝ
  | _ :: s :: _ => dbl (sanitize s)
  | _ => some 1.6

/-- main.cpp 721: the factor between levels, √2 by default. -/
noncomputable def octaveK (dbl : Str → Option ℝ) : List Str → Option ℝ
  | _ :: _ :: k :: _ => dbl (sanitize k)
  | _ => some (Real.sqrt 2)

/-- main.cpp 693-773 `handlers::sift_generate_octave`. Policy words are not removed from the arguments. -/
noncomputable def octaveCmd (io : FileIO PayR F) (dbl : Str → Option ℝ) (order : List Nat) :
    HandlerU PayR F := fun w args =>
  match args with
  | inArg :: outArg :: rest =>
    if isVar outArg then
      match octaveLevels rest, octaveSigma dbl rest, octaveK dbl rest with
      | some levels, some sigma, some k =>
        match loadArg io isMasterImage w inArg with
        | .error () => raise w
        | .ok none => quiet w
        | .ok (some v) =>
          match octaveVal order levels sigma k v with
          | .ub => .ub
          | .threw => raise w
          | .terminated => .ok ⟨w, .terminated, none⟩
          | .done none => quiet w
          | .done (some r) => .ok ⟨{ w with ws := w.ws.put (varName outArg) r }, .returned, none⟩
      | _, _, _ => raise w
    else quiet w
  | _ => quiet w

end TinyDIP.Cli
