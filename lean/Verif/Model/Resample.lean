import Verif.Model.Interp
import Verif.Model.Arith

/-!
# Bicubic and Lanczos resampling, and normalisation (image_operations.h 2212-2662)

Floating-point numbers are exact real numbers.
-/

namespace TinyDIP.Resample

open TinyDIP

variable {α : Type}

/-! ### copyResizeBicubic -/

/-- image_operations.h:2263-2291, `cubic_interpolate`; `f` is `frac` converted to the type of the
values. -/
def cubicInterpolate {R : Type} [Add R] [Sub R] [Mul R] (v0 v1 v2 v3 f : R) : R :=
  let A := (v3 - v2) - (v0 - v1)
  let B := (v0 - v1) - A
  let C := v2 - v0
  let D := v1
  D + f * (C + f * (B + f * A))

/-- image_operations.h:2293-2316, `bicubicPolate` for real elements; `lo` and `hi` are the least and the
greatest value of the element type. -/
noncomputable def bicubicPolate (lo hi : ℝ) (nd : List ℝ) (fracx fracy : ℝ) : Res ℝ := do
  let row (k : Nat) : Res ℝ := do
    let a ← vget nd (4 * k)
    let b ← vget nd (4 * k + 1)
    let c ← vget nd (4 * k + 2)
    let d ← vget nd (4 * k + 3)
    .ok (cubicInterpolate a b c d fracx)
  let x1 ← row 0
  let x2 ← row 1
  let x3 ← row 2
  let x4 ← row 3
  let v := cubicInterpolate x1 x2 x3 x4 fracy
  .ok (if v < lo then lo else if hi < v then hi else v)

/-- image_operations.h:2293-2316, `bicubicPolate` for 8-bit elements. The four rows are computed on
`uint8_t` values, with `frac` converted to `uint8_t` (2280) and the result of type `int`; the last call is
on `int`, with `frac` converted to `int`. The fractions are in `[0, 1)`. No `int` leaves its range here:
every value is below 2^12. -/
noncomputable def bicubicPolateU8 (nd : List (BitVec 8)) (fracx fracy : ℝ) : Res (BitVec 8) := do
  let row (k : Nat) : Res Int := do
    let a ← vget nd (4 * k)
    let b ← vget nd (4 * k + 1)
    let c ← vget nd (4 * k + 2)
    let d ← vget nd (4 * k + 3)
    .ok (cubicInterpolate (a.toNat : Int) b.toNat c.toNat d.toNat ⌊fracx⌋)
  let x1 ← row 0
  let x2 ← row 1
  let x3 ← row 2
  let x4 ← row 3
  let v := cubicInterpolate x1 x2 x3 x4 ⌊fracy⌋
  .ok (BitVec.ofInt 8 (if v < 0 then 0 else if 255 < v then 255 else v))

/-- `std::clamp(v, 0, size - 1)` on floating values and the conversion to `size_t`
(image_operations.h:2343-2344). -/
noncomputable def clampCoord (v : ℝ) (size : Nat) : Res Nat :=
  if (size : ℝ) - 1 < 0 then .ub
  else toSize (if v < 0 then 0 else if (size : ℝ) - 1 < v then (size : ℝ) - 1 else v)

/-- image_operations.h:2318-2351, `copyResizeBicubic`; `polate` is `bicubicPolate` for the element type.
The OpenMP loop over pixels is run in the order `order`. The two loops over the 4 × 4 neighbours are
written as one loop over the index into `ndata`. -/
noncomputable def copyResizeBicubicOrd (polate : List α → ℝ → ℝ → Res α) (zero : α)
    (order : List (Nat × Nat)) (im : Image α) (width height : Nat) : Res (Image α) :=
  let ratiox : ℝ := (im.width : ℝ) / (width : ℝ)
  let ratioy : ℝ := (im.height : ℝ) / (height : ℝ)
  loop (fun out p => do
    let xm := (p.1 : ℝ) * ratiox
    let ym := (p.2 : ℝ) * ratioy
    let xf : ℝ := ⌊xm⌋
    let yf : ℝ := ⌊ym⌋
    let nd ← forUp 16 (fun nd k => do
      let cx ← clampCoord (xf + (((k % 4 : Nat) : ℝ) - 1)) im.width
      let cy ← clampCoord (yf + (((k / 4 : Nat) : ℝ) - 1)) im.height
      let v ← im.at2 cx cy
      vset nd k v) (List.replicate 16 zero)
    let v ← polate nd (xm - xf) (ym - yf)
    out.set2 p.1 p.2 v) order (Image.ofSizes zero [width, height])

/-- `copyResizeBicubic` of an image of real numbers, in program order. image_operations.h 2320-2365. -/
noncomputable def copyResizeBicubic (lo hi : ℝ) (im : Image ℝ) (width height : Nat) : Res (Image ℝ) :=
  copyResizeBicubicOrd (bicubicPolate lo hi) 0 (iterYX width height) im width height

/-- `copyResizeBicubic` of an 8-bit image, in program order. image_operations.h 2320-2365. -/
noncomputable def copyResizeBicubicU8 (im : Image (BitVec 8)) (width height : Nat) :
    Res (Image (BitVec 8)) :=
  copyResizeBicubicOrd bicubicPolateU8 0 (iterYX width height) im width height

/-- image_operations.h:2353-2366, `copyResizeBicubic` of an RGB image: plane by plane. -/
noncomputable def copyResizeBicubicRGB (im : Image RGB) (width height : Nat) : Res (Image RGB) :=
  Arith.applyEach 0 0 (fun plane => copyResizeBicubicU8 plane width height) im

/-! ### Lanczos -/

/-- A value of type `int`: overflow is undefined. Used at image_operations.h 2433-2445. -/
def i32 (v : Int) : Res Int := if -(2 ^ 31) ≤ v ∧ v < 2 ^ 31 then .ok v else .ub

/-- image_operations.h:2368-2387, `lanczos_kernel`; `eps` is `numeric_limits<T>::epsilon()`. -/
noncomputable def lanczosKernel (eps x : ℝ) (a : Int) : ℝ :=
  if |x| < eps then 1
  else if |x| < (a : ℝ) then
    let pix := Real.pi * x
    ((a : ℝ) * Real.sin pix * Real.sin (pix / a)) / (pix * pix)
  else 0

/-- The values of `for (int i = lo; i <= hi; ++i)`. The loops of image_operations.h 2439-2441. -/
def intUp (lo hi : Int) : List Int := (List.range (hi - lo + 1).toNat).map fun (k : Nat) => lo + (k : Int)

/-- `std::clamp(i, 0, size - 1)` on `int` (image_operations.h:2447-2448). -/
def clampIdx (i : Int) (size : Nat) : Res Nat := do
  let s ← i32 size
  if s - 1 < 0 then .ub else .ok (if i < 0 then 0 else if s - 1 < i then (s - 1).toNat else i.toNat)

/-- image_operations.h:2424-2466: the weighted sum and the total weight around `(x_old, y_old)`. -/
noncomputable def lanczosSums (cv : Conv α) (eps : ℝ) (a : Int) (im : Image α) (xOld yOld : ℝ) :
    Res (ℝ × ℝ) := do
  let xf ← i32 ⌊xOld⌋
  let xMin ← i32 (xf - a + 1)
  let xMax ← i32 (xf + a)
  let yf ← i32 ⌊yOld⌋
  let yMin ← i32 (yf - a + 1)
  let yMax ← i32 (yf + a)
  loop (fun acc j =>
    loop (fun acc i => do
      let ci ← clampIdx i im.width
      let cj ← clampIdx j im.height
      let weight := lanczosKernel eps (xOld - (i : ℝ)) a * lanczosKernel eps (yOld - (j : ℝ)) a
      if weight ≠ 0 then do
        let q ← im.at2 ci cj
        .ok (acc.1 + cv.toR q * weight, acc.2 + weight)
      else .ok acc) (intUp xMin xMax) acc) (intUp yMin yMax) ((0 : ℝ), (0 : ℝ))

/-- image_operations.h:2389-2491, `lanczos_resample` (pixels in the order `order`), and 2493-2600, the
overload with an execution policy (the index `idx` is the position in `order`). The final clamp to the
range of the element type and the conversion are `cv.fromR`. `bool` and complex elements are not
modelled. -/
noncomputable def lanczosOrd (cv : Conv α) (zero : α) (eps : ℝ) (order : List (Nat × Nat))
    (im : Image α) (newWidth newHeight : Nat) (a : Int) : Res (Image α) :=
  if im.dim ≠ 2 then .throw .runtime
  else
    let xRatio : ℝ := (im.width : ℝ) / (newWidth : ℝ)
    let yRatio : ℝ := (im.height : ℝ) / (newHeight : ℝ)
    loop (fun out p => do
      let xOld := ((p.1 : ℝ) + 0.5) * xRatio - 0.5
      let yOld := ((p.2 : ℝ) + 0.5) * yRatio - 0.5
      let s ← lanczosSums cv eps a im xOld yOld
      if s.2 ≠ 0 then out.set2 p.1 p.2 (cv.fromR (s.1 / s.2)) else .ok out)
      order (Image.ofSizes zero [newWidth, newHeight])

/-- `lanczos_resample` in program order. image_operations.h 2394-2490. -/
noncomputable def lanczos (cv : Conv α) (zero : α) (eps : ℝ) (im : Image α) (newWidth newHeight : Nat)
    (a : Int) : Res (Image α) :=
  lanczosOrd cv zero eps (iterYX newWidth newHeight) im newWidth newHeight a

/-! ### normalize -/

/-- image_operations.h:2212-2230, `normalize`; `quot` is the division of the element type (for
floating-point numbers `0 / 0` is not a number). -/
noncomputable def normalize (quot : ℝ → ℝ → ℝ) (input : Image ℝ) : Res (Image ℝ) := do
  let maxValue ← imMax input
  let minValue ← imMin input
  let minPlane := input.setAllValue minValue
  let maxPlane := input.setAllValue maxValue
  let differencePlane ← subtract (· - ·) maxPlane minPlane
  let n ← subtract (· - ·) input minPlane
  divides quot n differencePlane

end TinyDIP.Resample
