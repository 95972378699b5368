import Verif.Model.Geometry
import Mathlib.Data.Real.Basic
import Mathlib.Algebra.Order.Floor.Ring
import Mathlib.Analysis.SpecialFunctions.Trigonometric.Basic
import Mathlib.Analysis.SpecialFunctions.Complex.Arg
import Mathlib.Analysis.SpecialFunctions.Exp

/-!
# Interpolation, resizing and rotation (image_operations.h)

Floating-point numbers are modelled by exact real numbers (`std::numbers::pi` by `π`); this is the
main simplification of this file and is listed in DESIGN.md.
-/

namespace TinyDIP

open Image

variable {α : Type}

/-- The conversions between an element type and the floating type used by the interpolators:
`static_cast<AccumulatorType>(pixel)` and the final clamp to `numeric_limits` followed by
`static_cast<ElementT>` (image_operations.h:4829-4849, 4956-4970). -/
structure Conv (α : Type) where
  toR : α → ℝ
  fromR : ℝ → α

/-- `ElementT` a floating type (4837 and 4957 skip the clamp). image_operations.h 4837-4850, 4957-4970. -/
def Conv.real : Conv ℝ := ⟨id, id⟩

/-- `ElementT = uint8_t`: clamp to `[0, 255]`, then truncate. image_operations.h 4837-4850, 4957-4970. -/
noncomputable def Conv.u8 : Conv (BitVec 8) where
  toR b := (b.toNat : ℝ)
  fromR v := if v > 255 then 255#8 else if v < 0 then 0#8 else BitVec.ofNat 8 ⌊v⌋₊

/-- `static_cast<std::size_t>(x)` of a floating value: truncation towards zero, undefined when the truncated
value does not fit. Used at image_operations.h 2255-2256. -/
noncomputable def toSize (x : ℝ) : Res Nat :=
  if -1 < x ∧ x < 2 ^ 64 then .ok ⌊x⌋₊ else .ub

/-- image_operations.h:4784-4850, `bilinear_interpolate` (scalar pixels; `zero` is `ElementT{0}`). -/
noncomputable def bilinear (cv : Conv α) (zero : α) (im : Image α) (x y : ℝ) : Res α :=
  let width : ℝ := im.width
  let height : ℝ := im.height
  if x < 0 ∨ x > width - 1 ∨ y < 0 ∨ y > height - 1 then .ok zero
  else do
    let x1 ← toSize x
    let y1 ← toSize y
    let x2 := if wadd x1 1 ≥ im.width then x1 else wadd x1 1
    let y2 := if wadd y1 1 ≥ im.height then y1 else wadd y1 1
    let q11 ← im.at2 x1 y1
    let q21 ← im.at2 x2 y1
    let q12 ← im.at2 x1 y2
    let q22 ← im.at2 x2 y2
    let dx := x - (x1 : ℝ)
    let dy := y - (y1 : ℝ)
    let r1 := cv.toR q11 * (1 - dx) + cv.toR q21 * dx
    let r2 := cv.toR q12 * (1 - dx) + cv.toR q22 * dx
    .ok (cv.fromR (r1 * (1 - dy) + r2 * dy))

/-- image_operations.h:4871-4887, `cubic_kernel` with the default `a = -0.5`. -/
noncomputable def cubicKernel (x : ℝ) : ℝ :=
  let a : ℝ := -0.5
  let t := |x|
  if t ≤ 1 then (a + 2) * (t * t * t) - (a + 3) * (t * t) + 1
  else if t < 2 then a * (t * t * t) - 5 * a * (t * t) + 8 * a * t - 4 * a
  else 0

/-- image_operations.h:4891-4973, `default_bicubic_interpolator::operator()` (scalar pixels). -/
noncomputable def bicubic (cv : Conv α) (zero : α) (im : Image α) (x y : ℝ) : Res α :=
  let width : ℝ := im.width
  let height : ℝ := im.height
  if x < 1 ∨ x ≥ width - 2 ∨ y < 1 ∨ y ≥ height - 2 then bilinear cv zero im x y
  else do
    let xf ← toSize x
    let yf ← toSize y
    let total ← forUp 4 (fun total j => do
      let v := wadd (wsub yf 1) j
      let row ← forUp 4 (fun row i => do
        let u := wadd (wsub xf 1) i
        let q ← im.at2 u v
        .ok (row + cv.toR q * cubicKernel (x - (u : ℝ)))) (0 : ℝ)
      .ok (total + row * cubicKernel (y - (v : ℝ)))) (0 : ℝ)
    .ok (cv.fromR total)

/-! ### resize -/

/-- image_operations.h:2239-2261, `resize_nearest_neighbor`; the OpenMP loop over pixels is run in
the order `order`. -/
noncomputable def resizeNearestOrd (zero : α) (order : List (Nat × Nat)) (im : Image α)
    (newWidth newHeight : Nat) : Res (Image α) :=
  let xRatio : ℝ := (im.width : ℝ) / (newWidth : ℝ)
  let yRatio : ℝ := (im.height : ℝ) / (newHeight : ℝ)
  loop (fun out p => do
    let sx ← toSize ((p.1 : ℝ) * xRatio)
    let sy ← toSize ((p.2 : ℝ) * yRatio)
    let v ← im.at2u sx sy
    out.set2u p.1 p.2 v) order (Image.ofSizes zero [newWidth, newHeight])

/-- `resize_nearest_neighbor` in program order. image_operations.h 2240-2261. -/
noncomputable def resizeNearest (zero : α) (im : Image α) (newWidth newHeight : Nat) :
    Res (Image α) :=
  resizeNearestOrd zero (iterYX newWidth newHeight) im newWidth newHeight

/-! ### the fisheye root finder -/

/-- image_operations.h:4490-4503: `iter` steps of bisection for `f = r_out`, started on
`[low, high]`; returns the final bracket. -/
noncomputable def bisect (f : ℝ → ℝ) (rOut : ℝ) : Nat → ℝ → ℝ → ℝ × ℝ
  | 0, low, high => (low, high)
  | iter + 1, low, high =>
    let mid := low + (high - low) / 2
    if f mid < rOut then bisect f rOut iter mid high else bisect f rOut iter low mid

/-- image_operations.h:4493: `mid * exp(-(mid*mid) / (2 * D0 * D0))`. -/
noncomputable def fisheyeRadius (D0 m : ℝ) : ℝ := m * Real.exp (-(m * m) / (2 * D0 * D0))

/-- image_operations.h:4469-4507, `GaussianFisheyeInverseRootFinder::operator()`. -/
noncomputable def fisheyeRoot (rOut D0 : ℝ) : ℝ :=
  if rOut ≤ 0 then 0
  else if rOut ≥ D0 * Real.exp (-0.5) then D0
  else
    let b := bisect (fisheyeRadius D0) rOut 50 0 D0
    b.1 + (b.2 - b.1) / 2

/-- `std::round` of a floating value: nearest integer, halves away from zero. image_operations.h 4533-4534.
-/
noncomputable def stdRound (x : ℝ) : ℝ := if 0 ≤ x then (⌊x + 1 / 2⌋ : ℝ) else (⌈x - 1 / 2⌉ : ℝ)

/-- image_operations.h:4511-4541, `FisheyePixelMapper::operator()` for one pixel of the output. -/
noncomputable def fisheyePixel (im : Image α) (D0 : ℝ) (root : ℝ → ℝ → ℝ) (out : Image α)
    (x y : Nat) : Res (Image α) := do
  let dx : ℝ := (x : ℝ) - (out.width : ℝ) / 2
  let dy : ℝ := (y : ℝ) - (out.height : ℝ) / 2
  let rOut := Real.sqrt (dx * dx + dy * dy)
  let rIn := root rOut D0
  let scale := if rOut = 0 then 1 else rIn / rOut
  let inX ← toSize (stdRound (dx * scale + (im.width : ℝ) / 2))
  let inY ← toSize (stdRound (dy * scale + (im.height : ℝ) / 2))
  if inX < im.width ∧ inY < im.height then do
    let v ← im.at2u inX inY
    out.set2u x y v
  else .ok out

/-- image_operations.h:4545-4611, `gaussian_fisheye`; the execution-policy version splits a linear
index into `(index % width, index / width)`, the OpenMP version uses two nested loops: both run the
pixel mapper once per pixel, in the order `order`. -/
noncomputable def gaussianFisheyeOrd (zero : α) (order : List (Nat × Nat)) (im : Image α) (D0 : ℝ)
    (root : ℝ → ℝ → ℝ) : Res (Image α) :=
  if im.dim ≠ 2 then .throw .runtime
  else loop (fun out p => fisheyePixel im D0 root out p.1 p.2) order
    (Image.ofSizes zero [im.width, im.height])

/-! ### rotation -/

/-- The 90° branch shared by `rotate_detail` (image_operations.h:4734-4746) and
`rotate_detail_shear_transformation` (5008-5019). -/
def quarterTurnBranch (zero : α) (input : Image α) : Res (Image α) :=
  pixFor (iterYX input.width input.height) (fun out x y => do
    let v ← input.at2 x y
    out.set2 (wsub (wsub input.height y) 1) x v) (Image.ofSizes zero [input.height, input.width])

/-- `std::hypot`. image_operations.h 4451, 4524, 4751. -/
noncomputable def hypot (a b : ℝ) : ℝ := Real.sqrt (a * a + b * b)
/-- `std::atan2(y, x)`. image_operations.h 4452, 4752, 4766. -/
noncomputable def atan2 (y x : ℝ) : ℝ := Complex.arg ⟨x, y⟩
/-- `std::fmod(x, y)`: the remainder of truncated division. image_operations.h 4997. -/
noncomputable def fmod (x y : ℝ) : ℝ := x - y * (if 0 ≤ x / y then (⌊x / y⌋ : ℝ) else (⌈x / y⌉ : ℝ))

/-- image_operations.h:4721-4781, `rotate_detail`. Division by a zero ratio (an infinity in the
code) is totalised to 0; no theorem depends on that case. -/
noncomputable def rotateDetail (zero : α) (input : Image α) (radians : ℝ) : Res (Image α) :=
  if input.dim ≠ 2 then .throw .runtime
  else if radians = 0 then .ok input
  else if radians = Real.pi / 2 then quarterTurnBranch zero input
  else
    let hw : ℝ := (input.width : ℝ) / 2
    let hh : ℝ := (input.height : ℝ) / 2
    let newWidth := 2 * hypot hw hh * |Real.sin (atan2 hw hh + radians)|
    let newHeight := 2 * hypot hw hh * |Real.sin (atan2 hh hw + radians)|
    pixFor (iterYX input.width input.height) (fun out x y => do
      let dx : ℝ := (x : ℝ) - hw
      let dy : ℝ := (y : ℝ) - hh
      let distance := hypot dx dy
      let angle := atan2 dy dx + radians
      let widthRatio := newWidth / (input.width : ℝ)
      let heightRatio := newHeight / (input.height : ℝ)
      let weight := if input.width > input.height then 1 / heightRatio else 1 / widthRatio
      let nd := distance * weight
      let tx ← toSize (nd * Real.cos angle + hw)
      let ty ← toSize (nd * Real.sin angle + hh)
      let v ← input.at2 x y
      out.set2 tx ty v) (Image.ofSizes zero [input.width, input.height])

/-- image_operations.h:5108-5112: the `while (radians > pi/2)` loop. In exact arithmetic it runs
`⌈(radians - pi/2) / (pi/2)⌉` times (0 if that is not positive); `n` is the number of iterations. -/
noncomputable def rotateLoop (zero : α) : Nat → Image α → Res (Image α)
  | 0, im => .ok im
  | n + 1, im => do
    let o ← rotateDetail zero im (Real.pi / 2)
    rotateLoop zero n o

/-- image_operations.h:5099-5115, `rotate`. -/
noncomputable def rotate (zero : α) (input : Image α) (radians : ℝ) : Res (Image α) :=
  if input.dim ≠ 2 then .throw .runtime
  else do
    let r := fmod radians (Real.pi / 2)
    let n := ⌈(r - Real.pi / 2) / (Real.pi / 2)⌉₊
    let o ← rotateLoop zero n input
    rotateDetail zero o (r - (n : ℝ) * (Real.pi / 2))

/-- image_operations.h:4978-5073, `rotate_detail_shear_transformation`; `interp` is the
interpolator argument. -/
noncomputable def rotateShear (zero : α) (interp : Image α → ℝ → ℝ → Res α) (input : Image α)
    (radians0 : ℝ) : Res (Image α) :=
  if input.dim ≠ 2 then .throw .runtime
  else
    let r0 := fmod radians0 (2 * Real.pi)
    let radians := if r0 < 0 then r0 + 2 * Real.pi else r0
    if radians = 0 then .ok input
    else if radians = Real.pi / 2 then quarterTurnBranch zero input
    else do
      let cosine := Real.cos radians
      let sine := Real.sin radians
      let height : ℝ := input.height
      let width : ℝ := input.width
      let ocw := (width - 1) / 2
      let och := (height - 1) / 2
      let newHeight ← toSize (⌈|height * cosine| + |width * sine|⌉ : ℝ)
      let newWidth ← toSize (⌈|width * cosine| + |height * sine|⌉ : ℝ)
      let ncw := ((newWidth : ℝ) - 1) / 2
      let nch := ((newHeight : ℝ) - 1) / 2
      pixFor (iterYX newWidth newHeight) (fun out xn yn => do
        let xp := (xn : ℝ) - ncw
        let yp := (yn : ℝ) - nch
        let xs := (xp * cosine + yp * sine) + ocw
        let ys := (-xp * sine + yp * cosine) + och
        let v ← interp input xs ys
        out.set2 xn yn v) ((Image.ofSizes zero [newWidth, newHeight]).setAllValue zero)

end TinyDIP
