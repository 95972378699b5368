import Verif.Model.Filter
import Verif.Model.Flt

/-!
# Gaussian filtering with floating elements and with an integer standard deviation

`imgaussfilt` (image_operations.h 5563-5632) on elements with `p` significant bits, every operation rounding, and the
same function called with a standard deviation of type `int`, which its `requires` clause allows.
-/

namespace TinyDIP.Filter

open TinyDIP Image Rnd

variable {p : Nat}

/-- image_operations.h:2663-2686, `gaussianFigure1D` without normalisation. `normal x center` is the value computed by
`normalDistribution1D(x - center, standard_deviation)` (2188-2194), which rests on the library's `std::exp`. The sum of
the samples is computed but not used (2678) and is left out. -/
def gaussianFigureF (size center : Nat) (normal : Nat → Nat → Flt p) : Res (Image (Flt p)) :=
  forUp size (fun (row : Image (Flt p)) x => row.set2 x 0 (normal x center)) (ofSizes 0 [size, 1])

/-- The operator `/` of the type. image_operations.h:3588. -/
noncomputable def divF (a b : Flt p) : Flt p := ⟨fl p (a.val / b.val), fl_rep _⟩

/-- image_operations.h:5602-5632, `imgaussfilt` on floating elements. `normal1`, `normal2` are the bell curves of the two
directions as computed (for `sigma1`, `sigma2`); `reduce` is the order and the grouping in which `std::reduce` adds;
`order1`, `order2` are the orders in which the two convolutions visit their pixels. -/
noncomputable def imgaussfiltF (normal1 normal2 : Nat → Nat → Flt p) (reduce : Image (Flt p) → Flt p)
    (order1 order2 : List Nat) (input : Image (Flt p)) (n1 n2 : Nat) (b : Boundary) (value : Flt p) :
    Res (Image (Flt p)) :=
  if input.dim ≠ 2 then .throw .runtime
  else do
    let padded ← paddedImage 0 input n1 n2 b value
    let mask_x ← gaussianFigureF n1 (maskCenter n1) normal1
    let mask_x ← dividesScalar divF mask_x (reduce mask_x)
    let output ← conv2Ord order1 padded mask_x true
    let g ← gaussianFigureF n2 (maskCenter n2) normal2
    let mask_y ← transpose 0 g
    let mask_y ← dividesScalar divF mask_y (reduce mask_y)
    let output ← conv2Ord order2 output mask_y true
    subimage2d output 0 input.width input.height (output.width / 2) (output.height / 2) 0

/-- The values of `int`. image_operations.h:2193, where a product of two `int`s outside them is undefined. -/
def fitsInt (a : Int) : Prop := -2 ^ 31 ≤ a ∧ a < 2 ^ 31

instance (a : Int) : Decidable (fitsInt a) := inferInstanceAs (Decidable (_ ∧ _))

/-- image_operations.h:2188-2194, `normalDistribution1D(x, standard_deviation)` with both of type `int`: the exponent
`-x * x / (2 * sd * sd)` is a quotient of `int`s, cut off towards zero. The result of `std::exp`, a `double`, is then
stored in an `int` (2677), cut off again. -/
noncomputable def normalInt (x sd : Int) : Res Int :=
  if ¬ fitsInt (-x) ∨ ¬ fitsInt (-x * x) ∨ ¬ fitsInt (2 * sd) ∨ ¬ fitsInt (2 * sd * sd) ∨ 2 * sd * sd = 0 then .ub
  else .ok ⌊Real.exp (((-x * x).tdiv (2 * sd * sd) : Int) : ℝ)⌋

/-- image_operations.h:2663-2686, `gaussianFigure1D<int>` without normalisation, for sizes below 2^31. The unused sum is
left out. -/
noncomputable def gaussianFigureInt (size center : Nat) (sd : Int) : Res (Image Int) :=
  forUp size (fun (row : Image Int) x => do
    let val ← normalInt ((x : Int) - center) sd
    row.set2 x 0 val) (ofSizes 0 [size, 1])

/-- image_operations.h:5618-5619, 5626-5627: the sum of the mask (`sum(filter_mask)`, an `int`) and the quotient
`divides(mask, sum)` of `int`s; dividing by zero is undefined. -/
def normalizeInt (mask : Image Int) : Res (Image Int) :=
  let s := mask.data.foldl (· + ·) 0
  if s = 0 then .ub else dividesScalar Int.tdiv mask s

/-- image_operations.h:569-612: the weights of the mask are converted to the common type of the elements and the
weights, here `double`. -/
def toReal (mask : Image Int) : Image ℝ := ⟨mask.size, mask.data.map fun (a : Int) => (a : ℝ)⟩

/-- image_operations.h:5602-5632, `imgaussfilt` of a `double` picture with `SigmaT = int`. -/
noncomputable def imgaussfiltInt (input : Image ℝ) (sigma1 sigma2 : Int) (n1 n2 : Nat) (b : Boundary) (value : ℝ) :
    Res (Image ℝ) :=
  if input.dim ≠ 2 then .throw .runtime
  else do
    let padded ← paddedImage 0 input n1 n2 b value
    let mask_x ← gaussianFigureInt n1 (maskCenter n1) sigma1
    let mask_x ← normalizeInt mask_x
    let output ← conv2 padded (toReal mask_x) true
    let g ← gaussianFigureInt n2 (maskCenter n2) sigma2
    let mask_y ← transpose 0 g
    let mask_y ← normalizeInt mask_y
    let output ← conv2 output (toReal mask_y) true
    subimage2d output 0 input.width input.height (output.width / 2) (output.height / 2) 0

/-- image_operations.h:5563-5600, `imgaussfilt(input, sigma, filter_size, …)` with `SigmaT = int`, for a standard
deviation and a size that are not negative; 0 means `computeFilterSizeFromSigma(sigma)` (5528-5533). -/
noncomputable def imgaussfiltInt1 (input : Image ℝ) (sigma : Int) (filter_size : Nat) (b : Boundary) (value : ℝ) :
    Res (Image ℝ) :=
  if input.dim ≠ 2 then .throw .runtime
  else
    let n : Int := if filter_size = 0 then filterSizeFromSigma (sigma : ℝ) else filter_size
    if n < 0 ∨ 2 ^ 31 ≤ n then .ub
    else imgaussfiltInt input sigma sigma n.toNat n.toNat b value

/-- image_operations.h:5720-5732, `difference_of_gaussian(input, sigma1, sigma2)` with `SigmaT = int`, for standard
deviations that are not negative. -/
noncomputable def differenceOfGaussianInt (input : Image ℝ) (sigma1 sigma2 : Int) : Res (Image ℝ) := do
  let a ← imgaussfiltInt1 input sigma1 (filterSizeFromSigma (sigma1 : ℝ)).toNat .mirror 0
  let b ← imgaussfiltInt1 input sigma2 (filterSizeFromSigma (sigma2 : ℝ)).toNat .mirror 0
  subtract (· - ·) a b

end TinyDIP.Filter
