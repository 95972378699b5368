import Verif.Model.Conv
import Verif.Model.Pixelwise
import Mathlib.Analysis.SpecialFunctions.Exp
import Mathlib.Analysis.SpecialFunctions.Trigonometric.Basic
import Mathlib.Analysis.Real.Sqrt
import Mathlib.Algebra.Order.Floor.Ring

/-!
# Gaussian figures, Gaussian filtering, bilateral filtering (image_operations.h)

Elements are real numbers (exact arithmetic). The sizes are below 2^53, so that their conversions to
`double` are exact. `sum(policy, image)` is an exact sum, hence the same for every bracketing
(property C59), and is modelled by the sum of the stored elements from left to right.
-/

namespace TinyDIP.Filter

open TinyDIP Image

/-- image_operations.h:2181-2194, `normalDistribution1D`. -/
noncomputable def normal1D (x sd : ℝ) : ℝ := Real.exp (-x * x / (2 * sd * sd))

/-- image_operations.h:4289-4305, `sum(image)`, see the module comment. -/
def total (im : Image ℝ) : ℝ := im.data.foldl (· + ·) 0

/-- image_operations.h:2663-2686, `gaussianFigure1D`. -/
noncomputable def gaussianFigure1D (size center : Nat) (sd : ℝ) (normalize : Bool) : Res (Image ℝ) := do
  let s ← forUp size (fun (s : Image ℝ × ℝ) x => do
    let val := normal1D ((x : ℝ) - (center : ℝ)) sd
    let row ← s.1.set2 x 0 val
    .ok (row, s.2 + val)) (ofSizes 0 [size, 1], 0)
  if normalize then dividesScalar (· / ·) s.1 s.2 else .ok s.1

/-- image_operations.h:2688-2720, `gaussianFigure2D` with two standard deviations, and 2802-2812 (one
standard deviation) as the case `sdx = sdy`. -/
noncomputable def gaussianFigure2D (xsize ysize centerx centery : Nat) (sdx sdy : ℝ) (normalize : Bool) :
    Res (Image ℝ) := do
  let rx ← gaussianFigure1D xsize centerx sdx false
  let ry ← gaussianFigure1D ysize centery sdy false
  let s ← loop (fun (s : Image ℝ × ℝ) p => do
    let a ← rx.at2 p.1 0
    let b ← ry.at2 p.2 0
    let out ← s.1.set2 p.1 p.2 (a * b)
    .ok (out, s.2 + a * b)) (iterYX xsize ysize) (ofSizes 0 [xsize, ysize], 0)
  if normalize then dividesScalar (· / ·) s.1 s.2 else .ok s.1

/-- image_operations.h:2722-2758 (OpenMP) and 2760-2800 (execution policy), the elliptical
`gaussianFigure2D`; `order` is the order in which the pixels are computed. -/
noncomputable def gaussianEllipse (order : List (Nat × Nat)) (xsize ysize centerx centery : Nat)
    (sigma1_2 sigma2_2 rho factor : ℝ) : Res (Image ℝ) :=
  let sigma1 := Real.sqrt sigma1_2
  let sigma2 := Real.sqrt sigma2_2
  let normalize_factor := factor / (2 * Real.pi * sigma1 * sigma2 * Real.sqrt (1 - rho ^ 2))
  let exp_para := -1 / (2 * sigma1_2 * sigma2_2 * (1 - rho ^ 2))
  pixFor order (fun output x y =>
    let x2 := (y : ℝ) - (centery : ℝ)
    let x2_2 := x2 * x2
    let x1 := (x : ℝ) - (centerx : ℝ)
    let x1_2 := x1 * x1
    output.set2 x y (normalize_factor * Real.exp (exp_para *
      (sigma2_2 * x1_2 - (2 * rho * sigma1 * sigma2 * x1 * x2) + sigma1_2 * x2_2))))
    (ofSizes 0 [xsize, ysize])

/-- image_operations.h:2814-2838, `gaussianFigure3D`. `gaussian_image2d * scalar` is `multiplies`
(image_operations.h:3426-3483). -/
noncomputable def gaussianFigure3D (xsize ysize zsize centerx centery centerz : Nat) (sdx sdy sdz : ℝ) :
    Res (Image ℝ) := do
  let g ← gaussianFigure2D xsize ysize centerx centery sdx sdy false
  forUp zsize (fun output z => do
    let each_plane ← multipliesScalar (· * ·) 0 g (normal1D ((z : ℝ) - (centerz : ℝ)) sdz)
    loop (fun output p => do
      let v ← each_plane.at2u p.1 p.2
      output.setAtUnchecked [p.1, p.2, z] v) (iterYX xsize ysize) output) (ofSizes 0 [xsize, ysize, zsize])

/-- image_operations.h:5528-5533, `computeFilterSizeFromSigma`: `2 * ceil(2 * sigma) + 1`. -/
noncomputable def filterSizeFromSigma (sigma : ℝ) : Int := 2 * ⌈2 * sigma⌉ + 1

/-- image_operations.h:5616-5617, 5623-5624: `(filter_size + 1.0) / 2.0` passed as `size_t`. -/
def maskCenter (n : Nat) : Nat := (n + 1) / 2

/-- image_operations.h:5602-5632, `imgaussfilt` with separate sigmas and filter sizes. The filter sizes
are the `size_t` values the `int` arguments convert to. The final call is the two-dimensional
`subimage(image, width, height, x, y)`, whose centre is a `size_t`. -/
noncomputable def imgaussfilt (input : Image ℝ) (sigma1 sigma2 : ℝ) (n1 n2 : Nat) (b : Boundary)
    (value : ℝ) : Res (Image ℝ) :=
  if input.dim ≠ 2 then .throw .runtime
  else do
    let padded ← paddedImage 0 input n1 n2 b value
    let mask_x ← gaussianFigure1D n1 (maskCenter n1) sigma1 false
    let mask_x ← dividesScalar (· / ·) mask_x (total mask_x)
    let output ← conv2 padded mask_x true
    let g ← gaussianFigure1D n2 (maskCenter n2) sigma2 false
    let mask_y ← transpose 0 g
    let mask_y ← dividesScalar (· / ·) mask_y (total mask_y)
    let output ← conv2 output mask_y true
    subimage2d output 0 input.width input.height (output.width / 2) (output.height / 2) 0

/-- image_operations.h:5563-5600, `imgaussfilt` with one sigma and one `int` filter size, 0 meaning
"compute it from sigma". A negative size converts to a `size_t` modulo 2^64. The conversion of the
computed size to `int` is undefined when it does not fit. -/
noncomputable def imgaussfilt1 (input : Image ℝ) (sigma : ℝ) (filter_size : Int) (b : Boundary)
    (value : ℝ) : Res (Image ℝ) :=
  if input.dim ≠ 2 then .throw .runtime
  else
    let n := if filter_size = 0 then filterSizeFromSigma sigma else filter_size
    if n < -2 ^ 31 ∨ 2 ^ 31 ≤ n then .ub
    else imgaussfilt input sigma sigma (n % (W : Int)).toNat (n % (W : Int)).toNat b value

/-- image_operations.h:5720-5732, `difference_of_gaussian` (default boundary `mirror`, default
constant `ElementT{}`). -/
noncomputable def differenceOfGaussian (input : Image ℝ) (sigma1 sigma2 : ℝ) : Res (Image ℝ) := do
  let conv := fun sigma : ℝ =>
    let n := filterSizeFromSigma sigma
    if n < -2 ^ 31 ∨ 2 ^ 31 ≤ n then (.ub : Res Int) else .ok n
  let n1 ← conv sigma1
  let a ← imgaussfilt1 input sigma1 n1 .mirror 0
  let n2 ← conv sigma2
  let b ← imgaussfilt1 input sigma2 n2 .mirror 0
  subtract (· - ·) a b

/-! ### Bilateral filter -/

/-- image_operations.h:6019-6034: the spatial distance of `bilateral_filter`. The operands are
`size_t`, so their difference wraps modulo 2^64 before it is squared (`std::pow` on its `double`
value, taken as exact). -/
noncomputable def spatialDistance (v1 v2 : List Nat) : Res ℝ :=
  if v1.length ≠ v2.length then .throw .runtime
  else .ok (Real.sqrt ((List.zipWith (fun a b => ((wsub a b : Nat) : ℝ) ^ 2) v1 v2).foldl (· + ·) 0))

/-- image_operations.h:5958-5985, `bilateral_filter_spatial_kernel`. -/
noncomputable def spatialKernelWeight (window_sizes : List Nat) (spatial_kernel : ℝ → ℝ) :
    Res (Image ℝ) := do
  let output ← ofSizeRange 0 window_sizes
  let center := centerLocation output
  loop (fun (output : Image ℝ) idx => do
    let indices ← linearToIndices idx output.size
    let d ← spatialDistance indices center
    output.setAtUnchecked indices (spatial_kernel d)) (List.range output.count) output

/-- image_operations.h:5904-5956, `bilateral_filter_detail` for real elements; the range distance is
`sqrt(pow(a - b, 2.0))` (6012-6015). -/
noncomputable def bilateralDetail (range_kernel : ℝ → ℝ) (weight input : Image ℝ) : Res ℝ := do
  let center_pixel ← input.atUnchecked (centerLocation input)
  let s ← loop (fun (s : ℝ × ℝ) idx => do
    let indices ← linearToIndices idx input.size
    let v ← input.atUnchecked indices
    let r := range_kernel (Real.sqrt ((v - center_pixel) ^ 2))
    let sp ← weight.atUnchecked indices
    .ok (s.1 + v * r * sp, s.2 + r * sp)) (List.range input.count) (0, 0)
  .ok (s.1 / s.2)

/-- image_operations.h:5986-6042, `bilateral_filter` on real elements, and 6079-6099 (sequential). -/
noncomputable def bilateralFilterOrd (order : List Nat) (input : Image ℝ) (window_sizes : List Nat)
    (range_kernel spatial_kernel : ℝ → ℝ) (b : Boundary) (value : ℝ) : Res (Image ℝ) :=
  windowedFilterOrd 0 order input window_sizes (fun window => do
    let weight ← spatialKernelWeight window_sizes spatial_kernel
    bilateralDetail range_kernel weight window) b value

end TinyDIP.Filter
