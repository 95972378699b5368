import Verif.Model.WarpSpecial
import Verif.Model.StitchSpecial

/-!
# Model: stitching with an execution policy with all values a `double` can have

`create_stitched_image` with an execution policy (Stitch) with rounding, infinities and NaN.
-/

namespace TinyDIP.Sp

open TinyDIP Rnd Dbl Stitch

open scoped Classical

/-- image_operations.h 8205-8212: the bounds (minimum x, maximum x, minimum y, maximum y) after one corner. -/
noncomputable def cornerD (k : Hom) (s : Dbl × Dbl × Dbl × Dbl) (p : Pt) : Dbl × Dbl × Dbl × Dbl :=
  let w := lin k.h31 k.h32 k.h33 p.1 p.2
  let x := (lin k.h11 k.h12 k.h13 p.1 p.2).div w
  let y := (lin k.h21 k.h22 k.h23 p.1 p.2).div w
  (if x.lt s.1 then x else s.1, if s.2.1.lt x then x else s.2.1,
    if y.lt s.2.2.1 then y else s.2.2.1, if s.2.2.2.lt y then y else s.2.2.2)

/-- image_operations.h 8199-8213: the bounds of the canvas. -/
noncomputable def boundsD (k : Hom) (w1 h1 w2 h2 : Nat) : Res (Dbl × Dbl × Dbl × Dbl) := do
  let r ← ((Dbl.ofNat w2).sub (.num 1)).toIndex
  let b ← ((Dbl.ofNat h2).sub (.num 1)).toIndex
  .ok ([(0, 0), (r, 0), (0, b), (r, b)].foldl (cornerD k) (.num 0, Dbl.ofNat w1, .num 0, Dbl.ofNat h1))

/-- One entry of a product. linear_algebra.h:112-119. -/
noncomputable def dot3D (a b c x y z : Dbl) : Dbl := (((Dbl.num 0).add (a.mul x)).add (b.mul y)).add (c.mul z)

/-- linear_algebra.h:99-124, `multiply` of 3×3 matrices. -/
noncomputable def mulD (a b : Hom) : Hom :=
  ⟨dot3D a.h11 a.h12 a.h13 b.h11 b.h21 b.h31, dot3D a.h11 a.h12 a.h13 b.h12 b.h22 b.h32,
    dot3D a.h11 a.h12 a.h13 b.h13 b.h23 b.h33, dot3D a.h21 a.h22 a.h23 b.h11 b.h21 b.h31,
    dot3D a.h21 a.h22 a.h23 b.h12 b.h22 b.h32, dot3D a.h21 a.h22 a.h23 b.h13 b.h23 b.h33,
    dot3D a.h31 a.h32 a.h33 b.h11 b.h21 b.h31, dot3D a.h31 a.h32 a.h33 b.h12 b.h22 b.h32,
    dot3D a.h31 a.h32 a.h33 b.h13 b.h23 b.h33⟩

/-- image_operations.h 8220-8223: the translation of the canvas. -/
noncomputable def shiftD (tx ty : Dbl) : Hom := ⟨.num 1, .num 0, tx, .num 0, .num 1, ty, .num 0, .num 0, .num 1⟩

/-- A conversion to `std::uint8_t`: undefined when the truncated value does not fit. image_operations.h 8265-8267. -/
noncomputable def byteD : Dbl → Res Nat
  | .num v => if -1 < v ∧ v < 256 then .ok ⌊v⌋₊ else .ub
  | _ => .ub

/-- image_operations.h 8265-8267: one channel. -/
noncomputable def feather (a b : Nat) (alpha : Dbl) : Res Nat :=
  byteD (((Dbl.ofNat a).mul ((Dbl.num 1).sub alpha)).add ((Dbl.ofNat b).mul alpha))

/-- image_operations.h 8241-8277: one pixel of the result. The conversions 8241-8242, outside the loop, are repeated for
every pixel. -/
noncomputable def featherPixel (img1 warped : Image Rgb) (tx ty : Dbl) (out : Image Rgb) (x y : Nat) :
    Res (Image Rgb) := do
  let sx ← tx.toIndex
  let ex ← (tx.add (Dbl.ofNat img1.width)).toIndex
  let pw ← warped.at2 x y
  let px ← ((Dbl.ofNat x).sub tx).toIndex
  let py ← ((Dbl.ofNat y).sub ty).toIndex
  let sy ← ty.toIndex
  let ey ← (ty.add (Dbl.ofNat img1.height)).toIndex
  let in1 : Bool := decide (sx ≤ x) && decide (x < ex) && decide (sy ≤ y) && decide (y < ey)
  if in1 && hasContent pw then do
    let p1 ← img1.at2 px py
    let alpha := (Dbl.ofNat px).div (Dbl.ofNat img1.width)
    let c0 ← feather p1.1 pw.1 alpha
    let c1 ← feather p1.2.1 pw.2.1 alpha
    let c2 ← feather p1.2.2 pw.2.2 alpha
    out.set2 x y (c0, c1, c2)
  else if in1 then do
    let p1 ← img1.at2 px py
    out.set2 x y p1
  else if hasContent pw then out.set2 x y pw
  else .ok out

/-- image_operations.h 8178-8281 `create_stitched_image` with an execution policy, for a matrix that is not empty;
`orderW` and `orderB` are the orders in which the policy visits the indices. -/
noncomputable def stitchD (interp : Image Rgb → Dbl → Dbl → Res Rgb) (orderW orderB : Nat → Nat → List Nat)
    (img1 img2 : Image Rgb) (Hin : Hom) : Res (Image Rgb) :=
  match invertD Hin with
  | none => .ok ⟨[], []⟩
  | some k => do
    let s ← boundsD k img1.width img1.height img2.width img2.height
    let tx := s.1.neg
    let ty := s.2.2.1.neg
    let ow ← (s.2.1.sub s.1).ceil.toIndex
    let oh ← (s.2.2.2.sub s.2.2.1).ceil.toIndex
    let warped ← warpPolicyD (0, 0, 0) (interp img2) (mulD (shiftD tx ty) k) ow oh (orderW ow oh)
    loop (fun out idx => do
      let y ← udiv idx ow
      let x ← umod idx ow
      featherPixel img1 warped tx ty out x y) (orderB ow oh) (Image.ofSizes (0, 0, 0) [ow, oh])

end TinyDIP.Sp
