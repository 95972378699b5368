import Verif.Model.Rounded

/-!
# Model: the bicubic interpolator on 8-bit pictures in floating arithmetic

`default_bicubic_interpolator<GrayScale, double>` (Interp) with the rounding of every operation.
-/

namespace TinyDIP.Rnd

open TinyDIP Image

/-- image_operations.h 4871-4887 `cubic_kernel` for `double`, with the default `a = -0.5`. -/
noncomputable def cubicKernelD (x : ℝ) : ℝ :=
  let a : ℝ := -1 / 2
  let abs_x := |x|
  let abs_x2 := dbl (abs_x * abs_x)
  let abs_x3 := dbl (abs_x2 * abs_x)
  if abs_x ≤ 1 then dbl (dbl (dbl (dbl (a + 2) * abs_x3) - dbl (dbl (a + 3) * abs_x2)) + 1)
  else if abs_x < 2 then
    dbl (dbl (dbl (dbl (a * abs_x3) - dbl (dbl (5 * a) * abs_x2)) + dbl (dbl (8 * a) * abs_x)) - dbl (4 * a))
  else 0

/-- image_operations.h 4891-4973 `default_bicubic_interpolator<GrayScale, double>`; `x` and `y` are `double`s. -/
noncomputable def bicubicD (im : Image (BitVec 8)) (x y : ℝ) : Res (BitVec 8) :=
  let width := dbl im.width
  let height := dbl im.height
  if x < 1 ∨ x ≥ dbl (width - 2) ∨ y < 1 ∨ y ≥ dbl (height - 2) then bilinearD im x y
  else do
    let xf ← toSize x
    let yf ← toSize y
    let total ← forUp 4 (fun total j => do
      let v := wadd (wsub yf 1) j
      let row ← forUp 4 (fun row i => do
        let u := wadd (wsub xf 1) i
        let q ← im.at2 u v
        .ok (dbl (row + dbl ((q.toNat : ℝ) * cubicKernelD (dbl (x - dbl u)))))) (0 : ℝ)
      .ok (dbl (total + dbl (row * cubicKernelD (dbl (y - dbl v)))))) (0 : ℝ)
    .ok (Conv.u8.fromR total)

end TinyDIP.Rnd
