import Verif.Model.Conv
import Mathlib.Analysis.SpecialFunctions.Trigonometric.Basic
import Mathlib.Analysis.SpecialFunctions.Pow.Real

/-!
# Fourier and cosine transforms (image_operations.h)

Floating-point numbers are modelled as real and complex numbers.
-/

namespace TinyDIP

open Image

/-- image_operations.h:753-756: the argument
`2 * pi * (x * m / (long double)width + y * n / (long double)height)`; the products `x * m` and
`y * n` are `size_t` products. -/
noncomputable def dftAngle (w h x y m n : Nat) : ℝ :=
  2 * Real.pi * ((wmul x m : ℝ) / (w : ℝ) + (wmul y n : ℝ) / (h : ℝ))

/-- image_operations.h:742, 771: `std::sqrt(1.0 / (long double)(width * height))`. -/
noncomputable def dftNorm (w h : Nat) : ℝ := Real.sqrt (1 / (wmul w h : ℝ))

/-- image_operations.h:737-764, `dft2`. Pixels are modelled as real numbers (the `-input.at(...)` of
line 755 wraps around for unsigned element types at least as wide as `int`; not modelled). -/
noncomputable def dft2 (input : Image ℝ) : Res (Image ℂ) :=
  forUp input.height (fun output y =>
    forUp input.width (fun (output : Image ℂ) x => do
      let (sum_real, sum_imag) ← forUp input.height (fun s n =>
        forUp input.width (fun (s : ℝ × ℝ) m => do
          let v ← input.at2u m n
          .ok (s.1 + v * Real.cos (dftAngle input.width input.height x y m n),
               s.2 + -v * Real.sin (dftAngle input.width input.height x y m n))) s) (0, 0)
      output.set2u x y
        ⟨dftNorm input.width input.height * sum_real, dftNorm input.width input.height * sum_imag⟩)
      output) (ofSizes 0 [input.width, input.height])

/-- image_operations.h:766-791, `idft2`. -/
noncomputable def idft2 (input : Image ℂ) : Res (Image ℂ) :=
  forUp input.height (fun output y =>
    forUp input.width (fun (output : Image ℂ) x => do
      let sum ← forUp input.height (fun s n =>
        forUp input.width (fun (s : ℂ) m => do
          let v ← input.at2u m n
          .ok (s + v * ((Real.cos (dftAngle input.width input.height x y m n) : ℂ) +
            Complex.I * (Real.sin (dftAngle input.width input.height x y m n) : ℂ)))) s) 0
      output.set2u x y ((dftNorm input.width input.height : ℂ) * sum)) output)
    (ofSizes 0 [input.width, input.height])

/-- image_operations.h:3629, 3634, 3638, 3782-3784: `(i == 0) ? sqrt2 / 2 : 1`. -/
noncomputable def dctAlpha (i : Nat) : ℝ := if i = 0 then Real.sqrt 2 / 2 else 1

/-- image_operations.h:3646-3648, 3779-3781: `pi / (2 * N) * (2 * p + 1) * k`. -/
noncomputable def dctAngle (N : ℝ) (p k : Nat) : ℝ := Real.pi / (2 * N) * (2 * (p : ℝ) + 1) * (k : ℝ)

/-- image_operations.h:3611-3657 and 3659-3733, `dct3_one_plane` (both overloads compute the same
expression); `order` is the order in which the output pixels are computed. -/
noncomputable def dct3OnePlaneOrd (order : List (Nat × Nat)) (input : List (Image ℝ))
    (plane_index : Nat) : Res (Image ℝ) := do
  let first ← vget input 0
  let this ← vget input plane_index
  let N1 : ℝ := first.width
  let N2 : ℝ := first.height
  let N3 : ℝ := input.length
  pixFor order (fun (output : Image ℝ) x y => do
    let sum ← forUp input.length (fun sum inner_z => do
      let plane ← vget input inner_z
      forUp plane.height (fun sum inner_y =>
        forUp plane.width (fun sum inner_x => do
          let v ← plane.at2 inner_x inner_y
          .ok (sum + v * Real.cos (dctAngle N1 inner_x x) * Real.cos (dctAngle N2 inner_y y) *
            Real.cos (dctAngle N3 inner_z plane_index))) sum) sum) 0
    output.set2 x y (8 * dctAlpha plane_index * dctAlpha y * dctAlpha x * sum / (N1 * N2 * N3)))
    (ofSizes 0 [this.width, this.height])

/-- The loops of the sequential version. image_operations.h 3611-3658. -/
noncomputable def dct3OnePlane (input : List (Image ℝ)) (plane_index : Nat) : Res (Image ℝ) := do
  let this ← vget input plane_index
  dct3OnePlaneOrd (iterYX this.width this.height) input plane_index

/-- image_operations.h:3735-3750, `dct3`. -/
noncomputable def dct3 (input : List (Image ℝ)) : Res (List (Image ℝ)) :=
  forUp input.length (fun output i => do .ok (output ++ [← dct3OnePlane input i])) []

/-- image_operations.h 3752-3798 `idct3_one_plane`, the sequential version. -/
noncomputable def idct3OnePlaneOrd (order : List (Nat × Nat)) (input : List (Image ℝ))
    (plane_index : Nat) : Res (Image ℝ) := do
  let first ← vget input 0
  let this ← vget input plane_index
  let N1 : ℝ := first.width
  let N2 : ℝ := first.height
  let N3 : ℝ := input.length
  pixFor order (fun (output : Image ℝ) x y => do
    let sum ← forUp input.length (fun sum inner_z => do
      let plane ← vget input inner_z
      forUp plane.height (fun sum inner_y =>
        forUp plane.width (fun sum inner_x => do
          let v ← plane.at2 inner_x inner_y
          .ok (sum + dctAlpha inner_x * dctAlpha inner_y * dctAlpha inner_z * v *
            Real.cos (dctAngle N1 x inner_x) * Real.cos (dctAngle N2 y inner_y) *
            Real.cos (dctAngle N3 plane_index inner_z))) sum) sum) 0
    output.set2 x y sum)
    (ofSizes 0 [this.width, this.height])

/-- image_operations.h 3752-3798 `idct3_one_plane` in program order. -/
noncomputable def idct3OnePlane (input : List (Image ℝ)) (plane_index : Nat) : Res (Image ℝ) := do
  let this ← vget input plane_index
  idct3OnePlaneOrd (iterYX this.width this.height) input plane_index

/-- image_operations.h:3800-3811, `idct3`. (Its call `idct3_one_plane<ElementT, OutputT>` names the
range parameter explicitly as the element type and cannot be instantiated as written; the model is
the evidently intended call.) -/
noncomputable def idct3 (input : List (Image ℝ)) : Res (List (Image ℝ)) :=
  forUp input.length (fun output i => do .ok (output ++ [← idct3OnePlane input i])) []

/-- image_operations.h:3813-3820, `dct2` for single-channel images: a stack of one plane. -/
noncomputable def dct2 (input : Image ℝ) : Res (Image ℝ) := do
  let c ← input.cast id
  dct3OnePlane [c] 0

/-- image_operations.h:3830-3837, `idct2` for single-channel images. -/
noncomputable def idct2 (input : Image ℝ) : Res (Image ℝ) := do
  let c ← input.cast id
  idct3OnePlane [c] 0

end TinyDIP
