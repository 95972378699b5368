import Verif.Model.Interp
import Verif.Model.Filter
import Verif.Model.Resample
import Verif.Model.Arith
import Verif.Model.Text

/-!
# Small functions built on the larger ones (image_operations.h)

Colour and integer overloads, the default functions for comparing patches, the centre pixel, differences of
ranges, output as LaTeX, and conversions of the element type.
-/

namespace TinyDIP.Wrap

open TinyDIP Filter Cli

variable {α β : Type}

/-! ### Colour forms -/

/-- image_operations.h 525-532 `conv2` of a colour image and a one-channel kernel. -/
def conv2Colour [Zero α] [Add α] [Mul α] (x : Image (Px3 α)) (y : Image α) (is_size_same : Bool) :
    Res (Image (Px3 α)) :=
  Arith.applyEach 0 0 (fun plane => conv2 plane y is_size_same) x

/-- image_operations.h 4632-4642 `gaussian_fisheye` of a colour image: the planes one by one. `root` is the
inverse of the radial function, `order` the order of the pixels within a plane. -/
noncomputable def fisheyeColour (zero : α) (order : List (Nat × Nat)) (im : Image (Px3 α)) (D0 : ℝ)
    (root : ℝ → ℝ → ℝ) : Res (Image (Px3 α)) :=
  if im.dim ≠ 2 then .throw .runtime
  else Arith.applyEach zero zero (fun p => gaussianFisheyeOrd zero order p D0 root) im

/-- image_operations.h 4621-4630 `gaussian_fisheye` with an integer strength. -/
noncomputable def fisheyeInt (zero : α) (order : List (Nat × Nat)) (im : Image α) (D0 : Int)
    (root : ℝ → ℝ → ℝ) : Res (Image α) :=
  if im.dim ≠ 2 then .throw .runtime else gaussianFisheyeOrd zero order im (D0 : ℝ) root

/-- image_operations.h 6044-6076 `bilateral_filter` of a colour image, one plane after the other. -/
noncomputable def bilateralColour (order : List Nat) (input : Image (Px3 ℝ)) (window_sizes : List Nat)
    (range_kernel spatial_kernel : ℝ → ℝ) (b : Boundary) : Res (Image (Px3 ℝ)) :=
  Arith.applyEach 0 0 (fun p => bilateralFilterOrd order p window_sizes range_kernel spatial_kernel b 0) input

/-- image_operations.h 4852-4864 `bilinear_interpolate` of a colour image, `sample` being the one-channel
function (4806-4849). -/
def bilinearColour (zero : α) (sample : Image α → ℝ → ℝ → Res α) (im : Image (Px3 α)) (x y : ℝ) :
    Res (Px3 α) := do
  let p0 ← getPlane zero im 0
  let a ← sample p0 x y
  let p1 ← getPlane zero im 1
  let b ← sample p1 x y
  let p2 ← getPlane zero im 2
  let c ← sample p2 x y
  .ok ⟨a, b, c⟩

/-! ### Rotation in degrees and by integers -/

/-- image_operations.h 5117-5127 `rotate` of a colour image. -/
noncomputable def rotateColour (zero : α) (im : Image (Px3 α)) (radians : ℝ) : Res (Image (Px3 α)) :=
  if im.dim ≠ 2 then .throw .runtime
  else Arith.applyEach zero zero (fun p => rotate zero p radians) im

/-- image_operations.h 5129-5138 `rotate` by an integer number of radians. -/
noncomputable def rotateInt (zero : α) (im : Image α) (radians : Int) : Res (Image α) :=
  if im.dim ≠ 2 then .throw .runtime else rotate zero im (radians : ℝ)

/-- image_operations.h 5140-5149 `rotate_degree` of a one-channel image; exact arithmetic. -/
noncomputable def rotateDegree (zero : α) (im : Image α) (degrees : ℝ) : Res (Image α) :=
  if im.dim ≠ 2 then .throw .runtime else rotate zero im (degrees * Real.pi / 180)

/-- image_operations.h 5140-5149 `rotate_degree` of a colour image; exact arithmetic. -/
noncomputable def rotateDegreeColour (zero : α) (im : Image (Px3 α)) (degrees : ℝ) : Res (Image (Px3 α)) :=
  if im.dim ≠ 2 then .throw .runtime else rotateColour zero im (degrees * Real.pi / 180)

/-- image_operations.h 5087-5096 `rotate_detail_shear_transformation_degree` of a one-channel image; exact
arithmetic. -/
noncomputable def shearDegree (zero : α) (interp : Image α → ℝ → ℝ → Res α) (im : Image α) (degrees : ℝ) :
    Res (Image α) :=
  if im.dim ≠ 2 then .throw .runtime else rotateShear zero interp im (degrees * Real.pi / 180)

/-! ### Comparing patches -/

/-- image_operations.h 6104-6144 `DefaultPatchDistance` for real elements: the allowed results (the mean is a
`std::reduce`). -/
def PatchDistance (large : Image ℝ) (p_center q_center patch_sizes : List Nat) (r : Res ℝ) : Prop :=
  match (do
    let p ← subimage large 0 patch_sizes p_center 0
    let q ← subimage large 0 patch_sizes q_center 0
    pixelwiseTransform2 (fun a b : ℝ => (a - b) * (a - b)) p q) with
  | .ok d => ∃ v, MeanResult (· + ·) (fun (s : ℝ) n => s / (n : ℝ)) 0 d v ∧ r = .ok v
  | .throw e => r = .throw e
  | .ub => r = .ub

/-- image_operations.h 6148-6161 `DefaultWeightCalculation` for `h ≠ 0`. -/
noncomputable def defaultWeight (h dist : ℝ) : ℝ := Real.exp (-dist / (h * h))

/-! ### The centre pixel -/

/-- image_operations.h 5754-5774 `get_center_pixel`. -/
def centerPixel (im : Image α) : Res α := im.atRangeUnchecked (centerLocation im)

/-! ### Differences of ranges -/

/-- An integer element type: its width and whether it is signed. Used at image_operations.h 3919-3946. -/
structure IntTy where
  bits : Nat
  signed : Bool

/-- Conversion of an integer to the type: the value modulo `2 ^ bits` in the range of the type.
image_operations.h 3927. -/
def IntTy.conv (t : IntTy) (v : Int) : Int :=
  if t.signed then (v + 2 ^ (t.bits - 1)) % 2 ^ t.bits - 2 ^ (t.bits - 1) else v % 2 ^ t.bits

/-- image_operations.h 3935-3941: the larger minus the smaller one, computed in `int` when the type is
narrower than that (then converted to the element type at the assignment), in the type itself otherwise; overflow of a
signed type is undefined. -/
def diffElem (t : IntTy) (a b : Int) : Res Int :=
  let d := if a > b then a - b else b - a
  if t.signed ∧ 32 ≤ t.bits then
    if d < 2 ^ (t.bits - 1) then .ok d else .ub
  else .ok (t.conv d)

/-- image_operations.h 3919-3946 `difference` of two ranges, the elements in the order `order`. -/
def differenceRange (t : IntTy) (order : List Nat) (input1 input2 : List Int) : Res (List Int) :=
  if input1.length ≠ input2.length then .throw .runtime
  else loop (fun out i => do
    let a ← vget input1 i
    let b ← vget input2 i
    let d ← diffElem t a b
    vset out i d) order (List.replicate input1.length 0)

/-! ### LaTeX -/

/-- image_operations.h 1746-1747 (and 1768-1769): the line for one pixel; `+R` prints a number. -/
def latexLine (x y : Nat) (p : RGB) : Str :=
  "\\draw (".toList ++ toStr x ++ ",".toList ++ toStr y ++ ") node[anchor=south,fill={rgb:red,".toList ++
    toStr p.c0.toNat ++ ";green,".toList ++ toStr p.c1.toNat ++ ";blue,".toList ++ toStr p.c2.toNat ++
    "}] {};\n".toList

/-- image_operations.h 1735-1752 `print_with_latex` and 1754-1775 `print_with_latex_to_file` (a file that can
be opened): the text written. -/
def latex (im : Image RGB) : Res Str := do
  let body ← pixFor (iterYX im.width im.height) (fun out x y => do
    let p ← im.at2 x y
    .ok (out ++ latexLine x y p)) "\\begin{tikzpicture}[x=1cm,y=0.4cm]\n".toList
  .ok (body ++ "\\end{tikzpicture}\n".toList)

/-! ### Conversions of the element type -/

/-- image_operations.h 6388-6413 `to_double` for one channel; `num` is the conversion to `double`; 1237-1258 of
basic_functions.h run the elements in the order `order`. -/
def toDouble (num : α → ℝ) (order : List Nat) (im : Image α) : Res (Image ℝ) :=
  pixelwiseTransformPolicy 0 order num im

/-- image_operations.h 6414-6423 `to_string` for integer elements. -/
def toStringImage (im : Image Int) : Res (Image Str) :=
  pixelwiseTransform Text.intStr im

/-- image_operations.h 6328-6349 `to_complex` of a `MultiChannel` value, the channels in the order `order`; a
complex number is a pair of real and imaginary part. -/
def toComplexChannels (order : List Nat) (channels : List ℝ) : Res (List (ℝ × ℝ)) :=
  loop (fun out i => do
    let v ← vget channels i
    vset out i (v, 0)) order (List.replicate channels.length (0, 0))

end TinyDIP.Wrap
