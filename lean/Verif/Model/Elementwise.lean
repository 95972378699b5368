import Verif.Model.Arith
import Mathlib.Analysis.SpecialFunctions.Trigonometric.Inverse
import Mathlib.Analysis.SpecialFunctions.Pow.Real

/-!
# Mathematical functions of images and pixels

`double` values are real numbers; `none` stands for a result that is not a finite number (infinity or
NaN). Simplification: arguments are finite.

The functions of an image keep the element type (`Image<ElementT>`), and the constructor assigns a
`std::vector` of the computed values to a `std::vector<ElementT>` (image.h:190), so with integer
elements (and `RGB`, whose planes are 8-bit) they do not compile; `double`, `RGB_DOUBLE`, `HSV`,
`MultiChannel<double, n>` and complex elements remain.
-/

namespace TinyDIP.Elem

open TinyDIP

/-- The functions image_operations.h:6425-6593 defines for images, except the inverse ones. -/
inductive Trig
  | sin | cos | tan | cot | sec | csc
  deriving DecidableEq, Repr

/-- The inverse functions (image_operations.h:6559-6593). -/
inductive Inv
  | asin | acos
  deriving DecidableEq, Repr

/-- `1 / v` for a finite `v`. Used at image_operations.h 6498, 6550 and the corresponding line of `sec`. -/
noncomputable def recip {K : Type} [Field K] [DecidableEq K] (v : K) : Option K :=
  if v = 0 then none else some (1 / v)

/-- `std::tan` of a finite argument. Called at image_operations.h 6472, 6498. -/
noncomputable def stdTan (x : ℝ) : Option ℝ := if Real.cos x = 0 then none else some (Real.tan x)

/-- `std::tan` of a complex argument. Called at image_operations.h 6472, 6498. -/
noncomputable def stdTanC (x : ℂ) : Option ℂ := if Complex.cos x = 0 then none else some (Complex.tan x)

open Classical in
/-- The lambdas of image_operations.h: `sin` 6436, `cos` 6454, `tan` 6472, `cot` 6498
(`1 / std::tan(x)`; one divided by infinity is zero), `sec` 6524, `csc` 6550; the same expressions for pixels in
basic_functions.h: `sin`, `cos`, `tan` 2000-2090, `cot` 2092-2127, `sec` 2129-2164, `csc` 2166-2193. -/
noncomputable def Trig.real : Trig → ℝ → Option ℝ
  | .sin, x => some (Real.sin x)
  | .cos, x => some (Real.cos x)
  | .tan, x => stdTan x
  | .cot, x => match stdTan x with
    | none => some 0
    | some t => recip t
  | .sec, x => recip (Real.cos x)
  | .csc, x => recip (Real.sin x)

open Classical in
/-- The same for complex elements (image_operations.h:6490 `cot`, 6516 `sec`, 6542 `csc`). -/
noncomputable def Trig.complex : Trig → ℂ → Option ℂ
  | .sin, x => some (Complex.sin x)
  | .cos, x => some (Complex.cos x)
  | .tan, x => stdTanC x
  | .cot, x => match stdTanC x with
    | none => some 0
    | some t => recip t
  | .sec, x => recip (Complex.cos x)
  | .csc, x => recip (Complex.sin x)

/-- `std::asin` and `std::acos` of a finite argument: NaN outside [-1, 1]. Called at image_operations.h
6559-6593. -/
noncomputable def Inv.real : Inv → ℝ → Option ℝ
  | .asin, x => if -1 ≤ x ∧ x ≤ 1 then some (Real.arcsin x) else none
  | .acos, x => if -1 ≤ x ∧ x ≤ 1 then some (Real.arccos x) else none

/-- `std::pow(x, e)`: for a negative base the exponent has to be an integer. image_operations.h 4260, 4268.
-/
noncomputable def stdPow (x e : ℝ) : Option ℝ :=
  if 0 < x then some (x ^ e)
  else if e = 0 then some 1
  else if x = 0 then (if 0 < e then some 0 else none)
  else if e = (⌊e⌋ : ℤ) then some (x ^ ⌊e⌋)
  else none

/-- image_operations.h:6425-6593: `recursive_transform<1>` over the data, then the constructor with the
input's sizes. `f` is the lambda of the function. -/
def imageFn {α β : Type} (f : α → β) (input : Image α) : Res (Image β) :=
  Image.ofData (input.data.map f) input.size

/-- The branch for three channels of the same functions: `apply_each`. image_operations.h 1680-1697. -/
def imageFnPx3 {α β : Type} (zero : α) (zero' : β) (f : α → β) (input : Image (Px3 α)) :
    Res (Image (Px3 β)) :=
  Arith.applyEach zero zero' (imageFn f) input

/-- The branch for `MultiChannel` pixels of the same functions: `apply_each`. image_operations.h 1680-1697.
-/
def imageFnMulti {α β : Type} (zero' : β) (order : List Nat) (n : Nat) (f : α → β)
    (input : Image (List α)) : Res (Image (List β)) :=
  Arith.applyEachMulti zero' order n (imageFn f) input

/-- basic_functions.h:1812-1853, `apply_multichannel` without a policy, on the channels of one pixel. All
functions of basic_functions.h:1886-3238 treat `MultiChannel` pixels this way. -/
def applyMultichannel {α β : Type} (f : α → β) (channels : List α) : List β := channels.map f

/-- basic_functions.h:1822-1832 and 1845-1854, `apply_multichannel` with a policy: each channel is
written once, in the order `order`. -/
def applyMultichannelPolicy {α β : Type} (zero : β) (order : List Nat) (f : α → β) (channels : List α) :
    Res (List β) :=
  loop (fun out i => do
    let a ← vget channels i
    vset out i (f a)) order (List.replicate channels.length zero)

/-- image_operations.h:4257-4269, `pow(image, exp)`, without and with a policy. -/
noncomputable def imagePow (input : Image ℝ) (e : ℝ) : Res (Image (Option ℝ)) :=
  pixelwiseTransform (fun x => stdPow x e) input

/-- image_operations.h:4271-4287, `pow` of an image with three channels. -/
noncomputable def imagePowPx3 (input : Image (Px3 ℝ)) (e : ℝ) : Res (Image (Px3 (Option ℝ))) :=
  Arith.applyEach 0 none (fun p => imagePow p e) input

/-- basic_functions.h:1872-1885, `generic_abs` for `double`. -/
noncomputable def absReal (x : ℝ) : ℝ := |x|

/-- basic_functions.h:1872-1885, `generic_abs` for unsigned elements and `bool`: the value itself. -/
def absUnsigned {α : Type} (x : α) : α := x

/-- basic_functions.h:1872-1885, `generic_abs` for `int`: `std::abs(INT_MIN)` is undefined. -/
def absInt (x : Int) : Res Int := if x = -2 ^ 31 then .ub else .ok (if x < 0 then -x else x)

/-- image_operations.h:3847-3852, `abs(image)` for elements whose `abs` is always defined. -/
def imageAbs {α : Type} (abs : α → α) (input : Image α) : Res (Image α) := pixelwiseTransform abs input

/-- image_operations.h:3847-3852, `abs(image)` for `int` elements. -/
def imageAbsInt (input : Image Int) : Res (Image Int) := do
  let d ← Arith.collect (input.data.map absInt)
  Image.ofData d input.size

/-- image_operations.h:3869-3886, `abs` of an image with three channels. -/
def imageAbsPx3 {α : Type} (zero : α) (abs : α → α) (input : Image (Px3 α)) : Res (Image (Px3 α)) :=
  Arith.applyEach zero zero (imageAbs abs) input

/-- image_operations.h:6351-6386, `to_complex(image)` without and with a policy: imaginary part `ElementT{}`. -/
def toComplex {α : Type} (zero : α) (input : Image α) : Res (Image (α × α)) :=
  Image.ofData (input.data.map fun x => (x, zero)) input.size

/-- image_operations.h:478-497, `generate_complex_image`. A complex number is the pair of its parts. -/
def generateComplex {α : Type} (real imaginary : Image α) : Res (Image (α × α)) :=
  if real.size ≠ imaginary.size then .throw .runtime
  else pixelwiseTransform2 (fun a b => (a, b)) real imaginary

/-- image_operations.h:6176-6183, `sort(image)`: the elements in increasing order, as a vector. The
algorithm of `std::ranges::sort` is the library's; a merge sort stands for it (for a total order every
sorting algorithm gives the same list, see `C120_sort`). -/
def sortImage {α : Type} [LE α] [DecidableLE α] (input : Image α) : List α :=
  input.data.mergeSort (fun a b => decide (a ≤ b))

end TinyDIP.Elem
