import Verif.Model.Stitch
import Verif.Model.Match
import Verif.Model.Color
import Verif.Model.Resample
import Verif.Model.Draw

/-!
# From two photographs to a homography (image_operations.h 7914-8054), stitching two images
(8318-8332) and drawing matches (8284-8315)
-/

namespace TinyDIP.Stitch

open TinyDIP Mat Color Resample

/-- image_operations.h 7937-7938: `getVplane(rgb2hsv(img))`. -/
noncomputable def vPlane (im : Image RGB) : Res (Image ℝ) := do
  let hsv ← rgb2hsvImage im
  getPlane 0 hsv 2

/-- image_operations.h 7997-8003: the descriptors of the key points, with the default block size 8. -/
noncomputable def descriptors (v : Image ℝ) (kps : List Pt) : Res (List (List ℝ)) :=
  loop (fun acc p => do
    let d ← Sift.keypointDescriptor v p.1 p.2 8
    .ok (acc ++ [d])) kps []

/-- image_operations.h 4069-4110 `squared_euclidean_distance`, the default distance of `find_raw_matches`.
Simplification: it does not throw; descriptors all have 128 entries. -/
noncomputable def descriptorDistance (a b : List ℝ) : ℝ := (List.zipWith (fun x y => (x - y) * (x - y)) a b).sum

/-- What `find_stitch_homography` depends on beside the images. `keypoints` is `get_potential_keypoint` with
the parameters given to the call; `sched1`, `sched2` are the orders in which the parallel loops of the
matcher run; `score` is the scoring rule of the selected method; `draws n` are the random numbers of each
iteration when there are `n` matches; `eps` and `big` are `numeric_limits<FloatingType>::epsilon()` and
`max()`; `steps` and `tol` are the iteration limit and the tolerance of the eigenvalue solver.
image_operations.h 7920-8050. -/
structure Finder where
  keypoints : Image ℝ → Res (List Pt)
  sched1 : List Nat → List Nat
  sched2 : List Nat → List Nat
  score : ℝ → ℝ → ℝ
  draws : Nat → List (List Nat)
  eps : ℝ
  big : ℝ
  steps : Nat
  tol : ℝ
  ratio : ℝ
  threshold : ℝ

/-- image_operations.h 7914-8027 (8035-8054 without execution policy) `find_stitch_homography`. The
messages are not modelled. -/
noncomputable def findStitchHomography (P : Finder) (img1 img2 : Image RGB) : Res (Mat ℝ) := do
  let v1 ← vPlane img1
  let v2 ← vPlane img2
  let kp1 ← P.keypoints v1
  let kp2 ← P.keypoints v2
  if kp1.isEmpty || kp2.isEmpty then .ok ⟨0, 0, []⟩
  else do
    let d1 ← descriptors v1 kp1
    let d2 ← descriptors v2 kp2
    let ms ← Match.findRobustMatches P.sched1 P.sched2 descriptorDistance P.big d1 d2 P.ratio
    if ms.length < 4 then .ok ⟨0, 0, []⟩
    else do
      let H ← findHomographyRobust (computeHomography P.eps P.steps P.tol) P.score P.eps P.big kp1 kp2 ms
        (P.draws ms.length) P.threshold
      refineHomography (computeHomography P.eps P.steps P.tol) P.eps kp1 kp2 ms H.1 P.threshold

/-- The pixels as numbers. base_types.h 48. -/
def numbers (im : Image RGB) : Image Rgb := ⟨im.size, im.data.map fun p => (p.c0.toNat, p.c1.toNat, p.c2.toNat)⟩

/-- image_operations.h 8318-8332 `imstitch`. -/
noncomputable def imstitch (P : Finder) (small : ℝ → Bool) (interp : Image Rgb → ℝ → ℝ → Res Rgb)
    (orderW orderB : Nat → Nat → List (Nat × Nat)) (img1 img2 : Image RGB) : Res (Image Rgb) := do
  let H ← findStitchHomography P img1 img2
  createStitched small P.eps interp orderW orderB (numbers img1) (numbers img2) H

/-! ### draw_matches -/

section
variable {α : Type}

/-- image_operations.h 8302-8312: the marks of one match. `colour` stands for the three random numbers;
`fuel` bounds the steps of the line. -/
def drawMatch (sched : List (Nat × Nat) → List (Nat × Nat)) (fuel offset : Nat) (kp1 kp2 : List Pt) (colour : α)
    (m : Nat × Nat) (canvas : Image α) : Option (Res (Image α)) :=
  match vget kp1 m.1, vget kp2 m.2 with
  | .ok p1, .ok p2 =>
    match canvas.drawLine p1 (wadd p2.1 offset, p2.2) colour fuel with
    | some (.ok c1) => some (do
        let c2 ← c1.drawPointSched sched p1.1 p1.2 colour 5
        c2.drawPointSched sched (wadd p2.1 offset) p2.2 colour 5)
    | other => other
  | _, _ => some .ub

/-- image_operations.h 8302-8313: the loop over the matches; `colour k` is the colour of match `k`. -/
def drawMatchesGo (sched : List (Nat × Nat) → List (Nat × Nat)) (fuel offset : Nat) (kp1 kp2 : List Pt)
    (colour : Nat → α) : Nat → List (Nat × Nat) → Image α → Option (Res (Image α))
  | _, [], canvas => some (.ok canvas)
  | k, m :: ms, canvas =>
    match drawMatch sched fuel offset kp1 kp2 (colour k) m canvas with
    | some (.ok next) => drawMatchesGo sched fuel offset kp1 kp2 colour (k + 1) ms next
    | other => other

end

/-- image_operations.h 8295-8300: the images side by side, resized to the larger height. -/
noncomputable def matchCanvas (img1 img2 : Image RGB) : Res (Image RGB × Nat) := do
  let maxHeight := max img1.height img2.height
  let r1 ← copyResizeBicubicRGB img1 img1.width maxHeight
  let r2 ← copyResizeBicubicRGB img2 img2.width maxHeight
  let canvas ← concatH2 ⟨0, 0, 0⟩ r1 r2
  .ok (canvas, r1.width)

/-- image_operations.h 8284-8315 `draw_matches`; `none` when a line has not ended after `fuel` steps. -/
noncomputable def drawMatches (sched : List (Nat × Nat) → List (Nat × Nat)) (fuel : Nat) (colour : Nat → RGB)
    (img1 img2 : Image RGB) (kp1 kp2 : List Pt) (ms : List (Nat × Nat)) : Option (Res (Image RGB)) :=
  match matchCanvas img1 img2 with
  | .ok (canvas, offset) => drawMatchesGo sched fuel offset kp1 kp2 colour 0 ms canvas
  | .throw e => some (.throw e)
  | .ub => some .ub

end TinyDIP.Stitch
