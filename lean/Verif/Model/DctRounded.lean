import Verif.Model.Rounded
import Verif.Model.Transform

/-!
# Cosine transforms in double precision

`dct3_one_plane`, `idct3_one_plane`, `dct2` and `idct2` (image_operations.h 3611-3657, 3752-3798, 3813-3837) as in
`Transform`, with each operation rounded to `double`. `cosine` is the library's `std::cos`.
-/

namespace TinyDIP.Rnd

open TinyDIP Image

/-- image_operations.h 3629, 3634, 3638, 3782-3784: `(i == 0) ? SQRT2 / 2 : 1`. -/
noncomputable def dctAlphaD (i : Nat) : ℝ := if i = 0 then dbl (dbl (Real.sqrt 2) / 2) else 1

/-- image_operations.h 3646-3648, 3779-3781: `PI / (2 * N) * (2 * p + 1) * k`. -/
noncomputable def dctAngleD (N p k : Nat) : ℝ :=
  dbl (dbl (dbl (dbl Real.pi / dbl (2 * dbl N)) * dbl (dbl (2 * dbl p) + 1)) * dbl k)

/-- image_operations.h 3611-3657, `dct3_one_plane` on `double` images; `order` is the order in which the output
pixels are computed. -/
noncomputable def dct3OnePlaneD (cosine : ℝ → ℝ) (order : List (Nat × Nat)) (input : List (Image ℝ))
    (plane_index : Nat) : Res (Image ℝ) := do
  let first ← vget input 0
  let this ← vget input plane_index
  pixFor order (fun (output : Image ℝ) x y => do
    let sum ← forUp input.length (fun sum inner_z => do
      let plane ← vget input inner_z
      forUp plane.height (fun sum inner_y =>
        forUp plane.width (fun sum inner_x => do
          let v ← plane.at2 inner_x inner_y
          .ok (dbl (sum + dbl (dbl (dbl (v * cosine (dctAngleD first.width inner_x x)) *
            cosine (dctAngleD first.height inner_y y)) *
            cosine (dctAngleD input.length inner_z plane_index))))) sum) sum) 0
    output.set2 x y (dbl (dbl (dbl (dbl (dbl (8 * dctAlphaD plane_index) * dctAlphaD y) * dctAlphaD x) * sum) /
      dbl (dbl (dbl first.width * dbl first.height) * dbl input.length))))
    (ofSizes 0 [this.width, this.height])

/-- image_operations.h 3752-3798, `idct3_one_plane` on `double` images. -/
noncomputable def idct3OnePlaneD (cosine : ℝ → ℝ) (order : List (Nat × Nat)) (input : List (Image ℝ))
    (plane_index : Nat) : Res (Image ℝ) := do
  let first ← vget input 0
  let this ← vget input plane_index
  pixFor order (fun (output : Image ℝ) x y => do
    let sum ← forUp input.length (fun sum inner_z => do
      let plane ← vget input inner_z
      forUp plane.height (fun sum inner_y =>
        forUp plane.width (fun sum inner_x => do
          let v ← plane.at2 inner_x inner_y
          .ok (dbl (sum + dbl (dbl (dbl (dbl (dbl (dbl (dctAlphaD inner_x * dctAlphaD inner_y) *
            dctAlphaD inner_z) * v) * cosine (dctAngleD first.width x inner_x)) *
            cosine (dctAngleD first.height y inner_y)) *
            cosine (dctAngleD input.length plane_index inner_z))))) sum) sum) 0
    output.set2 x y sum)
    (ofSizes 0 [this.width, this.height])

/-- image_operations.h 3813-3820, `dct2` of an 8-bit image: the pixels become `double`, which is exact; a stack of
one plane. -/
noncomputable def dct2D (cosine : ℝ → ℝ) (order : List (Nat × Nat)) (input : Image (BitVec 8)) :
    Res (Image ℝ) := do
  let c ← input.cast Color.real8
  dct3OnePlaneD cosine order [c] 0

/-- image_operations.h 3830-3837, `idct2` of a `double` image. -/
noncomputable def idct2D (cosine : ℝ → ℝ) (order : List (Nat × Nat)) (input : Image ℝ) : Res (Image ℝ) := do
  let c ← input.cast id
  idct3OnePlaneD cosine order [c] 0

end TinyDIP.Rnd
