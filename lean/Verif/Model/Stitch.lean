import Verif.Model.Jacobi
import Verif.Model.Sift
import Verif.Model.Geometry

/-!
# Homographies, warping and stitching (image_operations.h 7480-8391)

Floating-point numbers are exact numbers of an ordered field. `eps` is
`numeric_limits<FloatingType>::epsilon()` and `small` the near-zero test of `linalg::invert`.
-/

namespace TinyDIP.Stitch

open TinyDIP Mat

/-- `Point<2>` (base_types.h 184-220): a key point. -/
abbrev Pt := Nat × Nat

section
variable {K : Type} [Field K] [LinearOrder K]

/-! ### compute_homography -/

/-- Writes `vs` into row `r` (image_operations.h 7505-7513, 7515-7523). -/
def setRow (A : Mat K) (r : Nat) (vs : List K) : Res (Mat K) :=
  forUp vs.length (fun A j => do
    let v ← vget vs j
    A.set r j v) A

/-- image_operations.h 7493-7524: the matrix of the linear system. -/
def dltMatrix (points : List (Pt × Pt)) : Res (Mat K) :=
  forUp points.length (fun A i => do
    let p ← vget points i
    let x1 : K := p.1.1
    let y1 : K := p.1.2
    let x2 : K := p.2.1
    let y2 : K := p.2.2
    let A ← setRow A (wmul 2 i) [-x1, -y1, -1, 0, 0, 0, x2 * x1, x2 * y1, x2]
    setRow A (wadd (wmul 2 i) 1) [0, 0, 0, -x1, -y1, -1, y2 * x1, y2 * y1, y2])
    (mk' 0 (wmul 2 points.length) 9)

/-- image_operations.h 7532-7547: the null vector, scaled, as a matrix; `none` is the result `false`. -/
def homographyOf (eps : K) (h : List K) : Res (Option (Mat K)) :=
  if h.length ≠ 9 then .ok none
  else do
    let scale ← vget h 8
    if |scale| < eps then .ok none
    else do
      let H ← forUp 3 (fun H i => forUp 3 (fun H j => do
        let v ← vget h (i * 3 + j)
        H.set i j (v / scale)) H) (mk' 0 3 3)
      .ok (some H)

/-! ### Reprojection -/

/-- Cached matrix elements (image_operations.h 7824-7826, 7880-7882). -/
structure Hom (K : Type) where
  h11 : K
  h12 : K
  h13 : K
  h21 : K
  h22 : K
  h23 : K
  h31 : K
  h32 : K
  h33 : K

/-- Reads the elements. image_operations.h 7824-7826, 7880-7882. -/
def readHom (H : Mat K) : Res (Hom K) := do
  let h11 ← H.get 0 0
  let h12 ← H.get 0 1
  let h13 ← H.get 0 2
  let h21 ← H.get 1 0
  let h22 ← H.get 1 1
  let h23 ← H.get 1 2
  let h31 ← H.get 2 0
  let h32 ← H.get 2 1
  let h33 ← H.get 2 2
  .ok ⟨h11, h12, h13, h21, h22, h23, h31, h32, h33⟩

/-- image_operations.h 7640, 7834: the denominator of the projection. -/
def Hom.w (h : Hom K) (x y : K) : K := h.h31 * x + h.h32 * y + h.h33

/-- image_operations.h 7649, 7839: the projected `x`. -/
def Hom.px (h : Hom K) (x y : K) : K := (h.h11 * x + h.h12 * y + h.h13) / h.w x y

/-- image_operations.h 7650, 7840: the projected `y`. -/
def Hom.py (h : Hom K) (x y : K) : K := (h.h21 * x + h.h22 * y + h.h23) / h.w x y

/-- image_operations.h 7554-7561 `RansacScorer`. -/
def ransacScore (distSq thresholdSq : K) : K := if distSq < thresholdSq then 0 else 1

/-- image_operations.h 7564-7572 `MsacScorer`. -/
def msacScore (distSq thresholdSq : K) : K := min distSq thresholdSq

/-- image_operations.h 7633-7651: the squared reprojection error of a match; the threshold when the
projection fails. -/
def errorSq (eps thresholdSq : K) (H : Mat K) (p1 p2 : Pt) : Res K := do
  let h ← readHom H
  if |h.w p1.1 p1.2| < eps then .ok thresholdSq
  else
    let dx := h.px p1.1 p1.2 - (p2.1 : K)
    let dy := h.py p1.1 p1.2 - (p2.2 : K)
    .ok (dx * dx + dy * dy)

/-- image_operations.h 7626-7653: the cost of a candidate. -/
def cost (score : K → K → K) (eps thresholdSq : K) (kp1 kp2 : List Pt) (ms : List (Nat × Nat)) (H : Mat K) :
    Res K :=
  loop (fun c m => do
    let p1 ← vget kp1 m.1
    let p2 ← vget kp2 m.2
    let d ← errorSq eps thresholdSq H p1 p2
    .ok (c + score d thresholdSq)) ms 0

/-- image_operations.h 7607-7615: draws until four different indices have been found. The list of draws
must hold four different ones; the program goes on drawing until it has them. -/
def pick4 (indices : List Nat) : List Nat → List Nat
  | [] => indices
  | d :: draws =>
    if indices.length < 4 then pick4 (if d ∈ indices then indices else indices ++ [d]) draws else indices

/-- image_operations.h 7617-7620. -/
def samplePoints (kp1 kp2 : List Pt) (ms : List (Nat × Nat)) (indices : List Nat) : Res (List (Pt × Pt)) :=
  loop (fun acc i => do
    let m ← vget ms i
    let p1 ← vget kp1 m.1
    let p2 ← vget kp2 m.2
    .ok (acc ++ [(p1, p2)])) indices []

/-- image_operations.h 7584-7667 `find_homography_robust_impl`. `solve` is `compute_homography`, `big` the
largest number; `draws` holds the random numbers of each iteration. The result is paired with the
cost. -/
def findHomographyRobust (solve : List (Pt × Pt) → Res (Option (Mat K))) (score : K → K → K) (eps big : K)
    (kp1 kp2 : List Pt) (ms : List (Nat × Nat)) (draws : List (List Nat)) (threshold : K) : Res (Mat K × K) :=
  let thresholdSq := threshold * threshold
  loop (fun s ds =>
    if ms.length < 4 then .ok s
    else do
      let sample ← samplePoints kp1 kp2 ms (pick4 [] ds)
      let cand ← solve sample
      match cand with
      | none => .ok s
      | some H => do
        let c ← cost score eps thresholdSq kp1 kp2 ms H
        if c < s.2 then .ok (H, c) else .ok s) draws (mk' 0 3 3, big)

/-- image_operations.h 7719-7746: the inliers of a model. -/
def inliers (eps thresholdSq : K) (kp1 kp2 : List Pt) (ms : List (Nat × Nat)) (H : Mat K) :
    Res (List (Pt × Pt)) :=
  loop (fun acc m => do
    let p1 ← vget kp1 m.1
    let p2 ← vget kp2 m.2
    let h ← readHom H
    if |h.w p1.1 p1.2| < eps then .ok acc
    else
      let dx := h.px p1.1 p1.2 - (p2.1 : K)
      let dy := h.py p1.1 p1.2 - (p2.2 : K)
      if dx * dx + dy * dy < thresholdSq then .ok (acc ++ [(p1, p2)]) else .ok acc) ms []

/-- image_operations.h 7705-7760 `refine_homography`. -/
def refineHomography (solve : List (Pt × Pt) → Res (Option (Mat K))) (eps : K) (kp1 kp2 : List Pt)
    (ms : List (Nat × Nat)) (H : Mat K) (threshold : K) : Res (Mat K) :=
  if H.isEmpty then .ok H
  else do
    let all ← inliers eps (threshold * threshold) kp1 kp2 ms H
    if all.length < 4 then .ok H
    else do
      let r ← solve all
      match r with
      | some R => .ok R
      | none => .ok H

/-- image_operations.h 7766-7789 `scale_homography`. -/
def scaleHomography (H : Mat K) (w1Full h1Full w1Small h1Small w2Full h2Full w2Small h2Small : Nat) :
    Res (Mat K) := do
  let S1 ← (mk' 0 3 3 : Mat K).set 0 0 ((w1Full : K) / w1Small)
  let S1 ← S1.set 1 1 ((h1Full : K) / h1Small)
  let S1 ← S1.set 2 2 1
  let S2 ← (mk' 0 3 3 : Mat K).set 0 0 ((w2Small : K) / w2Full)
  let S2 ← S2.set 1 1 ((h2Small : K) / h2Full)
  let S2 ← S2.set 2 2 1
  let temp ← multiply S2 H
  multiply temp S1

/-! ### warp_perspective -/

variable {α : Type}

/-- image_operations.h 7807-7851: without execution policy; `order` is the order in which the pixels are
computed. -/
def warpSeq (zero : α) (eps : K) (interp : K → K → Res α) (H : Mat K) (w h : Nat)
    (order : List (Nat × Nat)) : Res (Image α) :=
  let out := Image.ofSizes zero [w, h]
  if H.isEmpty then .ok out
  else do
    let m ← readHom H
    loop (fun out p =>
      if |m.w p.1 p.2| < eps then .ok out
      else do
        let v ← interp (m.px p.1 p.2) (m.py p.1 p.2)
        out.set2 p.1 p.2 v) order out

/-- image_operations.h 7855-7909: with an execution policy; `order` is the order of the linear
indices. -/
def warpPolicy (zero : α) (small : K → Bool) (eps : K) (interp : K → K → Res α) (H : Mat K) (w h : Nat)
    (order : List Nat) : Res (Image α) :=
  let out := Image.ofSizes zero [w, h]
  if H.isEmpty then .ok out
  else do
    let inv ← invert small H
    if inv.isEmpty then .ok out
    else do
      let m ← readHom inv
      loop (fun out idx => do
        let y ← udiv idx w
        let x ← umod idx w
        if |m.w x y| > eps then do
          let v ← interp (m.px x y) (m.py x y)
          out.set2 x y v
        else .ok out) order out

/-! ### create_stitched_image -/

/-- An RGB pixel. base_types.h 46. -/
abbrev Rgb := Nat × Nat × Nat

variable [FloorRing K]

/-- image_operations.h 8081-8098 (8193-8210): the bounds of the canvas: minimum x, maximum x, minimum y,
maximum y. Simplification: a zero denominator, which gives infinite or undefined bounds, is undefined
behaviour here at once. -/
def canvasBounds (h : Hom K) (w1 h1 w2 h2 : Nat) : Res (K × K × K × K) := do
  let r ← Sift.toSize ((w2 : K) - 1)
  let b ← Sift.toSize ((h2 : K) - 1)
  loop (fun s (p : Nat × Nat) =>
    if h.w p.1 p.2 = 0 then .ub
    else
      let x := h.px p.1 p.2
      let y := h.py p.1 p.2
      .ok (if x < s.1 then x else s.1, if x > s.2.1 then x else s.2.1,
        if y < s.2.2.1 then y else s.2.2.1, if y > s.2.2.2 then y else s.2.2.2))
    [(0, 0), (r, 0), (0, b), (r, b)] (0, (w1 : K), 0, (h1 : K))

/-- image_operations.h 8105-8108: the translation of the canvas. -/
def translation (tx ty : K) : Res (Mat K) := do
  let T ← (mk' 0 3 3 : Mat K).set 0 0 1
  let T ← T.set 0 1 0
  let T ← T.set 0 2 tx
  let T ← T.set 1 0 0
  let T ← T.set 1 1 1
  let T ← T.set 1 2 ty
  let T ← T.set 2 0 0
  let T ← T.set 2 1 0
  T.set 2 2 1

/-- image_operations.h 8134. -/
def hasContent (p : Rgb) : Bool := p.1 > 5 || p.2.1 > 5 || p.2.2 > 5

/-- A conversion to `std::uint8_t`: undefined when the truncated value does not fit. image_operations.h
8147-8149. -/
def toByte (v : K) : Res Nat := if -1 < v ∧ v < 256 then .ok ⌊v⌋.toNat else .ub

/-- image_operations.h 8145-8147. -/
def blendChannel (a b : Nat) (alpha : K) : Res Nat := toByte ((a : K) * (1 - alpha) + (b : K) * alpha)

/-- image_operations.h 8133-8158 (8239-8264): one pixel of the result. -/
def blendPixel (img1 warped : Image Rgb) (tx ty : K) (out : Image Rgb) (x y : Nat) : Res (Image Rgb) := do
  let sx ← Sift.toSize tx
  let ex ← Sift.toSize (tx + (img1.width : K))
  let pw ← warped.at2 x y
  let px ← Sift.toSize ((x : K) - tx)
  let py ← Sift.toSize ((y : K) - ty)
  let sy ← Sift.toSize ty
  let ey ← Sift.toSize (ty + (img1.height : K))
  let in1 : Bool := decide (x ≥ sx ∧ x < ex ∧ y ≥ sy ∧ y < ey)
  if in1 && hasContent pw then do
    let p1 ← img1.at2 px py
    let alpha : K := (px : K) / (img1.width : K)
    let c0 ← blendChannel p1.1 pw.1 alpha
    let c1 ← blendChannel p1.2.1 pw.2.1 alpha
    let c2 ← blendChannel p1.2.2 pw.2.2 alpha
    out.set2 x y (c0, c1, c2)
  else if in1 then do
    let p1 ← img1.at2 px py
    out.set2 x y p1
  else if hasContent pw then out.set2 x y pw
  else .ok out

/-- image_operations.h 8124-8163 (8230-8266): blending, the pixels in the order `order`. -/
def blend (img1 warped : Image Rgb) (tx ty : K) (w h : Nat) (order : List (Nat × Nat)) : Res (Image Rgb) :=
  loop (fun out p => blendPixel img1 warped tx ty out p.1 p.2) order (Image.ofSizes (0, 0, 0) [w, h])

/-- image_operations.h 8066-8166 `create_stitched_image` without execution policy. `orderW`, `orderB`:
the orders of the pixels of a canvas of the given size. -/
def createStitched (small : K → Bool) (eps : K) (interp : Image Rgb → K → K → Res Rgb)
    (orderW orderB : Nat → Nat → List (Nat × Nat)) (img1 img2 : Image Rgb) (Hin : Mat K) : Res (Image Rgb) :=
  if Hin.isEmpty then .ok ⟨[], []⟩
  else do
    let H ← invert small Hin
    if H.isEmpty then .ok ⟨[], []⟩
    else do
      let m ← readHom H
      let s ← canvasBounds m img1.width img1.height img2.width img2.height
      let tx := -s.1
      let ty := -s.2.2.1
      let ow ← Sift.toSize ((⌈s.2.1 - s.1⌉ : Int) : K)
      let oh ← Sift.toSize ((⌈s.2.2.2 - s.2.2.1⌉ : Int) : K)
      let T ← translation tx ty
      let F ← multiply T Hin
      let warped ← warpSeq (0, 0, 0) eps (interp img2) F ow oh (orderW ow oh)
      blend img1 warped tx ty ow oh (orderB ow oh)

/-- image_operations.h 8181-8269 `create_stitched_image` with an execution policy. -/
def createStitchedPolicy (small : K → Bool) (eps : K) (interp : Image Rgb → K → K → Res Rgb)
    (orderW : Nat → List Nat) (orderB : Nat → Nat → List (Nat × Nat)) (img1 img2 : Image Rgb) (Hin : Mat K) :
    Res (Image Rgb) :=
  if Hin.isEmpty then .ok ⟨[], []⟩
  else do
    let H ← invert small Hin
    if H.isEmpty then .ok ⟨[], []⟩
    else do
      let m ← readHom H
      let s ← canvasBounds m img1.width img1.height img2.width img2.height
      let tx := -s.1
      let ty := -s.2.2.1
      let ow ← Sift.toSize ((⌈s.2.1 - s.1⌉ : Int) : K)
      let oh ← Sift.toSize ((⌈s.2.2.2 - s.2.2.1⌉ : Int) : K)
      let T ← translation tx ty
      let F ← multiply T H
      let warped ← warpPolicy (0, 0, 0) small eps (interp img2) F ow oh (orderW (wmul ow oh))
      blend img1 warped tx ty ow oh (orderB ow oh)

end

/-- image_operations.h 7486-7548 `compute_homography` (100 iterations, tolerance 1e-9). -/
noncomputable def computeHomography (eps : ℝ) (iterations : Nat) (tolerance : ℝ) (points : List (Pt × Pt)) :
    Res (Option (Mat ℝ)) :=
  if points.length < 4 then .ok none
  else do
    let A ← dltMatrix points
    let h ← svdSolveAhZero A iterations tolerance
    homographyOf eps h

/-- image.h 385-388 `getWidth`: `size[0]`, undefined when the image has no sizes (a default-constructed
image). -/
def widthOf {α : Type} (im : Image α) : Res Nat :=
  match im.size with
  | [] => .ub
  | w :: _ => .ok w

/-- image_operations.h 8338-8391 `stitch_sequential`. `find a b` is `find_stitch_homography` (its result
depends on a random number generator: any function), `stitch a b H` is `create_stitched_image`. -/
def stitchSequential {K : Type} (find : Image Rgb → Image Rgb → Res (Mat K))
    (stitch : Image Rgb → Image Rgb → Mat K → Res (Image Rgb)) : List (Image Rgb) → Res (Image Rgb)
  | [] => .ok ⟨[], []⟩
  | first :: rest => go first rest
where
  go (panorama : Image Rgb) : List (Image Rgb) → Res (Image Rgb)
    | [] => .ok panorama
    | next :: rest => do
      let h ← find panorama next
      if h.isEmpty then .ok panorama
      else do
        let np ← stitch panorama next h
        let w ← widthOf np
        if w = 0 then .ok panorama else go np rest

end TinyDIP.Stitch
