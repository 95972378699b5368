import Verif.Model.Geometry
import Mathlib.Analysis.SpecialFunctions.Complex.Arg
import Mathlib.Algebra.Order.Floor.Ring
import Mathlib.Analysis.SpecialFunctions.Sqrt

/-!
# SIFT key points (image_operations.h 6593-7185)

Elements and intermediate values are exact numbers of an ordered field (real numbers where the code
uses `hypot` and `atan2`). Division by zero, which gives infinities in the program, gives zero here;
the theorems say where this matters.
-/

namespace TinyDIP.Sift

open TinyDIP

section Field
variable {K : Type} [Field K] [LinearOrder K]

/-- image_operations.h 6607-6617: the checks on one 3 x 3 neighbourhood. -/
def check3 (im : Image K) : Res Unit :=
  if im.dim ≠ 2 then .throw .runtime
  else if im.width ≠ 3 ∨ im.height ≠ 3 then .throw .runtime
  else .ok ()

/-- image_operations.h 6601-6635 `is_it_extremum`. -/
def isItExtremum (input1 input2 input3 : Image K) (threshold : K) : Res Bool := do
  check3 input1
  check3 input2
  check3 input3
  let center ← input2.at2 1 1
  let data2 := input2.data.eraseIdx 4
  if |center| ≤ threshold then .ok false
  else
    let datas := [input1.data, data2, input3.data]
    if datas.all fun l => l.all fun i => decide (center > i) then .ok true
    else if datas.all fun l => l.all fun i => decide (center < i) then .ok true
    else .ok false

/-- image_operations.h 6639-6660 `keypoint_refinement`. -/
def keypointRefinement (input : Image K) (px py : Nat) : Res (K × K) := do
  let v21 ← input.at2 2 1
  let v01 ← input.at2 0 1
  let v12 ← input.at2 1 2
  let v10 ← input.at2 1 0
  let v11 ← input.at2 1 1
  let v22 ← input.at2 2 2
  let v20 ← input.at2 2 0
  let v02 ← input.at2 0 2
  let v00 ← input.at2 0 0
  let dx := (v21 - v01) / 2
  let dy := (v12 - v10) / 2
  let dxx := v21 + v01 - 2 * v11
  let dyy := v12 + v10 - 2 * v11
  let dxy := (v22 - v20 - v02 + v00) / 4
  let a := -dxx / (dxx * dyy - dxy * dxy)
  let b := dxy / (dxx * dyy - dxy * dxy)
  let c := b
  let d := -dyy / (dxx * dyy - dxy * dxy)
  .ok ((px : K) + (a * dx + b * dy), (py : K) + (c * dx + d * dy))

/-- image_operations.h 6663-6681 `keypoint_filtering`. -/
def keypointFiltering (input : Image K) (contrast edge : K) : Res Bool := do
  let v21 ← input.at2 2 1
  let v01 ← input.at2 0 1
  let v12 ← input.at2 1 2
  let v10 ← input.at2 1 0
  let v11 ← input.at2 1 1
  let v22 ← input.at2 2 2
  let v20 ← input.at2 2 0
  let v02 ← input.at2 0 2
  let v00 ← input.at2 0 0
  let dxx := v21 + v01 - 2 * v11
  let dyy := v12 + v10 - 2 * v11
  let dxy := (v22 - v20 - v02 + v00) / 4
  let trace := dxx + dyy
  let det := dxx * dyy - dxy * dxy
  .ok (!(decide (v11 ≤ contrast) || decide (trace * trace / det ≥ edge)))

/-- A conversion of a floating-point value to `size_t`: undefined when the truncated value does not fit.
Used at image_operations.h 7010-7026, 7129-7164. -/
def toSize [FloorRing K] (v : K) : Res Nat :=
  if -1 < v ∧ v < 2 ^ 64 then .ok ⌊v⌋.toNat else .ub

/-- image_operations.h 6684-6698 `mapping_point`. -/
def mappingPoint [FloorRing K] (loc : K × K) (iw ih tw th : Nat) : Res (Nat × Nat) := do
  let x ← toSize (loc.1 / (iw : K) * (tw : K))
  let y ← toSize (loc.2 / (ih : K) * (th : K))
  .ok (x, y)

/-- A key point: octave, scale, location. The tuples of image_operations.h 6750-6755. -/
abbrev KeyPoint (K : Type) := Nat × Nat × K × K

/-- image_operations.h 6739-6742: the iterations of the double loop, `width` and `height` being
already decreased by one. -/
def interior (width height : Nat) : List (Nat × Nat) :=
  (List.range' 1 (height - 1)).flatMap fun y => (List.range' 1 (width - 1)).map fun x => (x, y)

/-- image_operations.h 6745-6771: one iteration. -/
def extremaStep (input1 input2 input3 : Image K) (octave scale : Nat) (contrast edge : K)
    (filter : Bool) (output : List (KeyPoint K)) (p : Nat × Nat) : Res (List (KeyPoint K)) := do
  let s1 ← subimage2d input1 0 3 3 p.1 p.2 0
  let s2 ← subimage2d input2 0 3 3 p.1 p.2 0
  let s3 ← subimage2d input3 0 3 3 p.1 p.2 0
  let e ← isItExtremum s1 s2 s3 contrast
  if e then do
    let keep ← (if filter then keypointFiltering s2 contrast edge else .ok true)
    if keep then do
      let loc ← keypointRefinement s2 p.1 p.2
      .ok (output ++ [(octave, scale, loc.1, loc.2)])
    else .ok output
  else .ok output

/-- image_operations.h 6701-6775 `find_local_extrema`, the iterations running one after the other in
the order `sched` gives them. (The loop is `omp parallel for` and `output` is not protected; two
iterations at the same time are the subject of `PushState`.) -/
def findLocalExtrema (sched : List (Nat × Nat) → List (Nat × Nat)) (input1 input2 input3 : Image K)
    (octave scale : Nat) (contrast edge : K) (filter : Bool) : Res (List (KeyPoint K)) :=
  if input1.dim ≠ 2 then .throw .runtime
  else if input2.dim ≠ 2 then .throw .runtime
  else if input3.dim ≠ 2 then .throw .runtime
  else if input1.size ≠ input2.size then .throw .runtime
  else if input2.size ≠ input3.size then .throw .runtime
  else
    let width := wsub input1.width 1
    let height := wsub input1.height 1
    loop (extremaStep input1 input2 input3 octave scale contrast edge filter)
      (sched (interior width height)) []

/-- image_operations.h 6783-6803 `generate_octave`; `dog i` is the difference of Gaussians with index
`i` of the input. -/
def generateOctave (dog : Image K → Nat → Image K) (input : Image K) (levels : Nat) : List (Image K) :=
  if levels < 2 then [] else (List.range (levels - 1)).map (dog input)

/-- image_operations.h 6911-6927: the octaves; `resample` is the resampling function. -/
def octavesFrom (dog : Image K → Nat → Image K) (resample : Image K → Nat → Nat → Image K)
    (levels : Nat) : Nat → Image K → List (List (Image K))
  | 0, _ => []
  | n + 1, base =>
    if base.width < 20 ∨ base.height < 20 then []
    else generateOctave dog base levels ::
      octavesFrom dog resample levels n (resample base (base.width / 2) (base.height / 2))

/-- image_operations.h 6939-6967 (sequential) and 6973-7006 (parallel, appending in a critical
section): the search. The octaves run in the order `schedO`, the scales in the order `schedS`. -/
def searchOctaves (schedO schedS : List Nat → List Nat)
    (sched : List (Nat × Nat) → List (Nat × Nat)) (octaves : List (List (Image K)))
    (count : Nat) (contrast edge : K) : Res (List (KeyPoint K)) :=
  loop (fun keypoints o => do
    let each ← vget octaves o
    loop (fun keypoints s => do
      let i1 ← vget each s
      let i2 ← vget each (s + 1)
      let i3 ← vget each (s + 2)
      let new ← findLocalExtrema sched i1 i2 i3 o s contrast edge false
      .ok (keypoints ++ new)) (schedS (List.range (wsub each.length 2))) keypoints)
    (schedO (List.range count)) []

/-- image_operations.h 7010-7026: the locations in the original image. -/
def mapKeypoints [FloorRing K] (octaves : List (List (Image K))) (input : Image K)
    (keypoints : List (KeyPoint K)) : Res (List (Nat × Nat)) :=
  loop (fun mapped k => do
    let each ← vget octaves k.1
    let first ← vget each 0
    let p ← mappingPoint (k.2.2.1, k.2.2.2) first.width first.height input.width input.height
    .ok (mapped ++ [p])) keypoints []

/-- image_operations.h 6874-7029 `get_potential_keypoint`. Simplification: `int` counters are taken
to be large enough. -/
def getPotentialKeypoint [FloorRing K] (schedO schedS : List Nat → List Nat)
    (sched : List (Nat × Nat) → List (Nat × Nat)) (dog : Image K → Nat → Image K)
    (resample : Image K → Nat → Nat → Image K) (input : Image K) (count levels : Nat)
    (contrast edge : K) : Res (List (Nat × Nat)) :=
  if input.dim ≠ 2 then .throw .runtime
  else do
    let octaves := octavesFrom dog resample levels count input
    let keypoints ← searchOctaves schedO schedS sched octaves count contrast edge
    mapKeypoints octaves input keypoints

end Field

/-! ### Two threads appending to the same vector -/

/-- The state of `output` and of two threads in `emplace_back` (image_operations.h 6750, 6763), which
reads the size, writes the slot and stores the new size. `none` in a slot: nothing constructed.
Simplification: in C++ the data race is undefined behaviour; this is what the usual code does. -/
structure PushState (α : Type) where
  slots : Nat → Option α
  size : Nat
  /-- For each thread: the element to append, and its progress (0 nothing done, 1 size read,
  2 slot written, 3 finished) with the size it has read. -/
  elem : Bool → α
  pc : Bool → Nat
  seen : Bool → Nat

/-- One step of thread `t`. image_operations.h 6750, 6763. -/
def PushState.step {α : Type} (s : PushState α) (t : Bool) : PushState α :=
  if s.pc t = 0 then
    { s with seen := fun u => if u = t then s.size else s.seen u, pc := fun u => if u = t then 1 else s.pc u }
  else if s.pc t = 1 then
    { s with slots := fun i => if i = s.seen t then some (s.elem t) else s.slots i,
             pc := fun u => if u = t then 2 else s.pc u }
  else if s.pc t = 2 then
    { s with size := s.seen t + 1, pc := fun u => if u = t then 3 else s.pc u }
  else s

/-- A run: the threads make steps in the given order. image_operations.h 6939-7006. -/
def PushState.run {α : Type} (s : PushState α) (order : List Bool) : PushState α :=
  order.foldl PushState.step s

/-! ### Orientations -/

/-- image_operations.h 7069-7085 `compute_each_pixel_orientation`: magnitude and orientation. -/
noncomputable def pixelOrientation (input : Image ℝ) : Res (ℝ × ℝ) :=
  if input.dim ≠ 2 then .throw .runtime
  else if input.width ≠ 3 ∨ input.height ≠ 3 then .throw .runtime
  else do
    let a ← input.at2u 2 1
    let b ← input.at2u 0 1
    let c ← input.at2u 1 2
    let d ← input.at2u 1 0
    let dx := a - b
    let dy := c - d
    .ok (Real.sqrt (dx * dx + dy * dy), Complex.arg ⟨dx, dy⟩ * (180 / Real.pi) + 180)

/-- `for (i = lo; i <= hi; ++i)`. The loops of image_operations.h 7102-7104. -/
def upTo (lo hi : Nat) : List Nat := if lo ≤ hi then List.range' lo (hi - lo + 1) else []

/-- `for (i = lo; i < hi; ++i)`. The loops of image_operations.h 7129-7143. -/
def upToExcl (lo hi : Nat) : List Nat := List.range' lo (hi - lo)

/-- image_operations.h 7088-7116 `get_orientation_histogram`. -/
noncomputable def orientationHistogram (input : Image ℝ) (px py block : Nat) : Res (List ℝ) :=
  if input.dim ≠ 2 then .throw .runtime
  else
    loop (fun hist y => loop (fun hist x =>
      if x ≥ input.width ∨ y ≥ input.height then .ok hist
      else do
        let sub ← subimage2d input 0 3 3 x y 0
        let o ← pixelOrientation sub
        let bin ← toSize (o.2 / 10)
        let v ← vget hist bin
        vset hist bin (v + o.1)) (upTo (wsub px block) (wadd px block)) hist)
      (upTo (wsub py block) (wadd py block)) (List.replicate 37 0)

/-- image_operations.h 7129-7143: the orientations of the neighbourhood. -/
noncomputable def neighbourhoodOrientations (input : Image ℝ) (cx cy block : Nat) : Res (Image (ℝ × ℝ)) :=
  loop (fun out y => loop (fun out x =>
    if x ≥ input.width ∨ y ≥ input.height then .ok out
    else do
      let sub ← subimage2d input 0 3 3 x y 0
      let o ← pixelOrientation sub
      out.set2 (wadd (wsub x cx) block) (wadd (wsub y cy) block) o)
    (upToExcl (wsub cx block) (wadd cx block)) out)
    (upToExcl (wsub cy block) (wadd cy block)) (Image.ofSizes (0, 0) [wmul block 2, wmul block 2])

/-- image_operations.h 7151-7164: the histogram of one subregion. -/
noncomputable def subregionHistogram (ori : Image (ℝ × ℝ)) (sx sy : Nat) : Res (List ℝ) :=
  pixFor (iterYX 4 4) (fun hist x y => do
    let o ← ori.at2 (sx * 4 + x) (sy * 4 + y)
    let b ← toSize (o.2 / 45)
    let bin := if b = 8 then 7 else b
    let v ← vget hist bin
    vset hist bin (v + o.1)) (List.replicate 8 0)

/-- image_operations.h 7119-7183 `get_keypoint_descriptor`. The image of 4 x 4 histograms that the
code stores is read back in the order it was written. -/
noncomputable def keypointDescriptor (input : Image ℝ) (cx cy block : Nat) : Res (List ℝ) := do
  let ori ← neighbourhoodOrientations input cx cy block
  pixFor (iterYX 4 4) (fun features sx sy => do
    let h ← subregionHistogram ori sx sy
    .ok (features ++ h)) []

end TinyDIP.Sift
