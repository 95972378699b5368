import Verif.Model.ImageIter

/-!
# Geometric operations of image_operations.h

`z` is `ElementT{}` (value-initialised element). `order` is the order in which the iterations of
a loop run: the nested loops run in `iterYX` order; `#pragma omp parallel for` and
execution policies may run them in any order (see the `Ord` variants).
-/

namespace TinyDIP

/-- `dst.at(wx, wy) = src.at(rx, ry)` with checked accessors. The loop bodies of
image_operations.h:5152-5169 (`transpose`) and similar ones. -/
def copyAt {α : Type} (src : Image α) (dst : Image α) (rx ry wx wy : Nat) : Res (Image α) := do
  let v ← src.at2 rx ry
  dst.set2 wx wy v

/-- `dst.at_without_boundary_check(wx, wy) = src.at_without_boundary_check(rx, ry)`. The loop bodies of
image_operations.h:5202-5268 (`flip_horizontal` …) and similar ones. -/
def copyAtU {α : Type} (src : Image α) (dst : Image α) (rx ry wx wy : Nat) : Res (Image α) := do
  let v ← src.at2u rx ry
  dst.set2u wx wy v

variable {α : Type}

/-- image_operations.h:5152-5169 and 5171-5199, `transpose`; the policy version runs the rows in
any order. -/
def transposeOrd (z : α) (order : List (Nat × Nat)) (input : Image α) : Res (Image α) :=
  if input.dim ≠ 2 then .throw .runtime
  else pixFor order (fun out x y => copyAt input out x y y x)
    (Image.ofSizes z [input.height, input.width])

/-- image_operations.h:5152-5169, `transpose` in program order. -/
def transpose (z : α) (input : Image α) : Res (Image α) :=
  transposeOrd z (iterYX input.width input.height) input

/-- image_operations.h:5202-5221, `flip_horizontal` (OpenMP loop). -/
def flipHorizontalOrd (order : List (Nat × Nat)) (input : Image α) : Res (Image α) :=
  if input.dim ≠ 2 then .throw .runtime
  else pixFor order (fun out x y => copyAtU input out x y (wsub (wsub input.width x) 1) y) input

/-- image_operations.h:5202-5221, `flip_horizontal` in program order. -/
def flipHorizontal (input : Image α) : Res (Image α) :=
  flipHorizontalOrd (iterYX input.width input.height) input

/-- image_operations.h:5224-5243, `flip_vertical` (OpenMP loop). -/
def flipVerticalOrd (order : List (Nat × Nat)) (input : Image α) : Res (Image α) :=
  if input.dim ≠ 2 then .throw .runtime
  else pixFor order (fun out x y => copyAtU input out x y x (wsub (wsub input.height y) 1)) input

/-- image_operations.h:5224-5243, `flip_vertical` in program order. -/
def flipVertical (input : Image α) : Res (Image α) :=
  flipVerticalOrd (iterYX input.width input.height) input

/-- image_operations.h:5246-5268, `flip_horizontal_vertical` (OpenMP loop). -/
def flipHVOrd (order : List (Nat × Nat)) (input : Image α) : Res (Image α) :=
  if input.dim ≠ 2 then .throw .runtime
  else pixFor order (fun out x y =>
    copyAtU input out x y (wsub (wsub input.width x) 1) (wsub (wsub input.height y) 1)) input

/-- image_operations.h:5246-5268, `flip_horizontal_vertical` in program order. -/
def flipHV (input : Image α) : Res (Image α) :=
  flipHVOrd (iterYX input.width input.height) input

/-- image_operations.h:4734-4746, the 90 degree case of `rotate_detail`. -/
def rotate90 (z : α) (input : Image α) : Res (Image α) :=
  if input.dim ≠ 2 then .throw .runtime
  else pixFor (iterYX input.width input.height)
    (fun out x y => copyAt input out x y (wsub (wsub input.height y) 1) x)
    (Image.ofSizes z [input.height, input.width])

/-- image_operations.h:1908-1939, `subimage2` (OpenMP loop). -/
def subimage2Ord (z : α) (order : List (Nat × Nat)) (input : Image α)
    (startx endx starty endy : Nat) : Res (Image α) :=
  if startx > endx then .throw .runtime
  else if starty > endy then .throw .runtime
  else if startx > input.width ∨ endx > input.width then .throw .runtime
  else if starty > input.height ∨ endy > input.height then .throw .runtime
  else pixFor order (fun out x y => copyAtU input out (wadd startx x) (wadd starty y) x y)
    (Image.ofSizes z [wadd (wsub endx startx) 1, wadd (wsub endy starty) 1])

/-- image_operations.h:1908-1939, `subimage2` in program order. -/
def subimage2 (z : α) (input : Image α) (startx endx starty endy : Nat) : Res (Image α) :=
  subimage2Ord z (iterYX (wadd (wsub endx startx) 1) (wadd (wsub endy starty) 1)) input
    startx endx starty endy

/-- image_operations.h:1973-1993, `split`: rows of blocks. Division by a zero segment count is
undefined behaviour. -/
def split (z : α) (input : Image α) (xsegments ysegments : Nat) : Res (List (List (Image α))) := do
  let bx ← udiv input.width xsegments
  let by' ← udiv input.height ysegments
  forUp ysegments (fun output y => do
    let output2 ← forUp xsegments (fun output2 x => do
      let b ← subimage2 z input (wmul x bx) (wsub (wmul (wadd x 1) bx) 1)
        (wmul y by') (wsub (wmul (wadd y 1) by') 1)
      .ok (output2 ++ [b])) []
    .ok (output ++ [output2])) []

/-- image_operations.h:2104-2124, two-image `concat_horizontal`; `check_height_same` (253-258). -/
def concatH2 (z : α) (i1 i2 : Image α) : Res (Image α) :=
  if i1.height ≠ i2.height then .throw .runtime
  else do
    let out ← pixFor (iterYX i1.width i1.height) (fun out x y => copyAt i1 out x y x y)
      (Image.ofSizes z [wadd i1.width i2.width, i1.height])
    pixFor (iterYX i2.width i2.height)
      (fun out x y => copyAt i2 out x y (wadd i1.width x) y) out

/-- image_operations.h:2126-2136, `concat_horizontal` of a vector (`input[0]` of an empty vector
is undefined behaviour). -/
def concatH (z : α) : List (Image α) → Res (Image α)
  | [] => .ub
  | i :: is => loop (fun out im => concatH2 z out im) is i

/-- image_operations.h:2138-2158, two-image `concat_vertical`; `check_width_same` (246-251). -/
def concatV2 (z : α) (i1 i2 : Image α) : Res (Image α) :=
  if i1.width ≠ i2.width then .throw .runtime
  else do
    let out ← pixFor (iterYX i1.width i1.height) (fun out x y => copyAt i1 out x y x y)
      (Image.ofSizes z [i1.width, wadd i1.height i2.height])
    pixFor (iterYX i2.width i2.height)
      (fun out x y => copyAt i2 out x y x (wadd i1.height y)) out

/-- image_operations.h:2160-2169, `concat_vertical` of a vector. -/
def concatV (z : α) : List (Image α) → Res (Image α)
  | [] => .ub
  | i :: is => loop (fun out im => concatV2 z out im) is i

/-- image_operations.h:2171-2179, `concat`: each row horizontally, then the rows vertically. -/
def concat (z : α) (input : List (List (Image α))) : Res (Image α) := do
  let rows ← loop (fun acc row => do
    let r ← concatH z row
    .ok (acc ++ [r])) input []
  concatV z rows

/-- image_operations.h:4645-4717, `paste2D` (the execution policy is used only to fill the new
image with the default value). -/
def paste2D (background target : Image α) (xl yl : Nat) (default_value : α) : Res (Image α) :=
  if background.dim ≠ 2 then .throw .runtime
  else if target.dim ≠ 2 then .throw .runtime
  else
    let tx := wadd target.width xl
    let ty := wadd target.height yl
    if background.width ≥ tx ∧ background.height ≥ ty then
      pixFor (iterYX target.width target.height)
        (fun out x y => copyAtU target out x y (wadd xl x) (wadd yl y)) background
    else do
      let xsize := if background.width ≥ tx then background.width else tx
      let ysize := if background.height ≥ ty then background.height else ty
      let output ← Image.ofData (List.replicate (wmul xsize ysize) default_value) [xsize, ysize]
      let output ← pixFor (iterYX background.width background.height)
        (fun out x y => copyAtU background out x y x y) output
      pixFor (iterYX target.width target.height)
        (fun out x y => copyAtU target out x y (wadd xl x) (wadd yl y)) output

/-- image_operations.h:5271-5299, `generate_constant_padding_image`. -/
def constantPadding (z : α) (input : Image α) (we he : Nat) (default_value : α) : Res (Image α) :=
  if input.dim ≠ 2 then .throw .runtime
  else
    let output := (Image.ofSizes z
      [wadd input.width (wmul 2 we), wadd input.height (wmul 2 he)]).setAllValue default_value
    paste2D output input we he default_value

/-- image_operations.h:8394-8412, `add_border_2d`. -/
def addBorder2d (z : α) (input : Image α) (width : Nat) (default_element : α) : Res (Image α) :=
  if input.dim ≠ 2 then .throw .runtime
  else
    let output := (Image.ofSizes z
      [wadd input.width (wmul 2 width), wadd input.height (wmul 2 width)]).setAllValue
        default_element
    paste2D output input width width default_element

/-- image_operations.h:5302-5411, `generate_mirror_padding_image`: the constant padding, then
eight pastes of blocks of the flipped images. -/
def mirrorPadding (z : α) (input : Image α) (we he : Nat) (default_value : α) : Res (Image α) :=
  if input.dim ≠ 2 then .throw .runtime
  else do
    let W' := input.width
    let H' := input.height
    let output ← constantPadding z input we he default_value
    let fv ← flipVertical input
    let b ← subimage2 z fv 0 (wsub fv.width 1) (wsub (wsub H' he) 1) (wsub fv.height 1)
    let output ← paste2D output b we 0 default_value
    let b ← subimage2 z fv 0 (wsub fv.width 1) 0 he
    let output ← paste2D output b we (wsub (wadd H' he) 1) default_value
    let fh ← flipHorizontal input
    let b ← subimage2 z fh (wsub (wsub W' we) 1) (wsub fh.width 1) 0 (wsub fh.height 1)
    let output ← paste2D output b 0 he default_value
    let b ← subimage2 z fh 0 we 0 (wsub fh.height 1)
    let output ← paste2D output b (wsub (wadd W' we) 1) he default_value
    let fhv ← flipHV input
    let b ← subimage2 z fhv (wsub (wsub fhv.width we) 1) (wsub fhv.width 1)
      (wsub (wsub fhv.height he) 1) (wsub fhv.height 1)
    let output ← paste2D output b 0 0 default_value
    let b ← subimage2 z fhv 0 we (wsub (wsub fhv.height he) 1) (wsub fhv.height 1)
    let output ← paste2D output b (wsub (wadd W' we) 1) 0 default_value
    let b ← subimage2 z fhv (wsub (wsub fhv.width we) 1) (wsub fhv.width 1) 0 he
    let output ← paste2D output b 0 (wsub (wadd H' he) 1) default_value
    let b ← subimage2 z fhv 0 we 0 he
    paste2D output b (wsub (wadd W' we) 1) (wsub (wadd H' he) 1) default_value

/-- image_operations.h:5414-5526, `generate_replicate_padding_image`: four loops pasting single
rows and columns, then four corner blocks. -/
def replicatePadding (z : α) (input : Image α) (we he : Nat) (default_value : α) :
    Res (Image α) :=
  if input.dim ≠ 2 then .throw .runtime
  else do
    let W' := input.width
    let H' := input.height
    let output ← constantPadding z input we he default_value
    -- top block
    let output ← loop (fun output y => do
      let b ← subimage2 z input 0 (wsub W' 1) 0 0
      paste2D output b we y default_value) (List.range' 0 he) output
    -- bottom block: y from H+he to H+2*he
    let output ← loop (fun output y => do
      let b ← subimage2 z input 0 (wsub W' 1) (wsub H' 1) (wsub H' 1)
      paste2D output b we y default_value)
      (List.range' (wadd H' he) (wadd H' (wmul 2 he) - wadd H' he)) output
    -- left block
    let output ← loop (fun output x => do
      let b ← subimage2 z input 0 0 0 (wsub H' 1)
      paste2D output b x he default_value) (List.range' 0 we) output
    -- right block: x from W+we to W+2*we
    let output ← loop (fun output x => do
      let b ← subimage2 z input (wsub W' 1) (wsub W' 1) 0 (wsub H' 1)
      paste2D output b x he default_value)
      (List.range' (wadd W' we) (wadd W' (wmul 2 we) - wadd W' we)) output
    let temp := Image.ofSizes z [we, he]
    let v ← input.at2 0 0
    let output ← paste2D output (temp.setAllValue v) 0 0 default_value
    let v ← input.at2 (wsub W' 1) 0
    let output ← paste2D output (temp.setAllValue v) (wadd we W') 0 default_value
    let v ← input.at2 0 (wsub H' 1)
    let output ← paste2D output (temp.setAllValue v) 0 (wadd he H') default_value
    let v ← input.at2 (wsub W' 1) (wsub H' 1)
    paste2D output (temp.setAllValue v) (wadd we W') (wadd he H') default_value

/-- `enum BoundaryCondition`. image_operations.h 25-29. -/
inductive Boundary
  | constant
  | mirror
  | replicate
  deriving DecidableEq, Repr

/-- image_operations.h:5535-5561, `generate_padded_image`. -/
def paddedImage (z : α) (input : Image α) (we he : Nat) (b : Boundary) (value : α) :
    Res (Image α) :=
  match b with
  | .constant => constantPadding z input we he value
  | .mirror => mirrorPadding z input we he value
  | .replicate => replicatePadding z input we he value

/-- image_operations.h:1800-1804: `start[i] = centers[i] - floor(new_sizes[i] / 2.0)` in `size_t`
(the `double` division is taken as exact, i.e. sizes below 2^53). -/
def subimageStart : (newSizes centers : List Nat) → List Nat
  | n :: ns, c :: cs => wsub c (n / 2) :: subimageStart ns cs
  | _, _ => []

/-- image_operations.h:1842-1853: input coordinates of one output pixel; `none` as soon as a
coordinate is not below the input's size. -/
def subimageIdx : (start out sizes : List Nat) → Option (List Nat)
  | s :: ss, o :: os, n :: ns =>
    if wadd s o ≥ n then none else (subimageIdx ss os ns).map (wadd s o :: ·)
  | _, _, _ => some []

/-- image_operations.h:1828-1833: `strides[i] = strides[i-1] * new_sizes[i-1]`. -/
def subimageStrides : (sizes : List Nat) → (stride : Nat) → List Nat
  | [], _ => []
  | s :: ss, t => t :: subimageStrides ss (wmul t s)

/-- image_operations.h:1777-1862, N-dimensional `subimage`. -/
def subimage (input : Image α) (z : α) (newSizes centers : List Nat) (default_element : α) :
    Res (Image α) :=
  if newSizes.length ≠ input.dim ∨ centers.length ≠ input.dim then .throw .runtime
  else do
    let start := subimageStart newSizes centers
    let output ← Image.ofData (List.replicate (Image.prodW newSizes) z) newSizes
    let strides := subimageStrides newSizes 1
    forUp output.count (fun output idx => do
      let oi ← linearToIndicesStrides idx strides newSizes
      match subimageIdx start oi input.size with
      | some ii => do
        let v ← input.atRange ii
        output.setIndex idx v
      | none => output.setIndex idx default_element) output

/-- image_operations.h:1864-1884 (and 1886-1905 with a policy), 2-D `subimage`. -/
def subimage2d (input : Image α) (z : α) (width height xcenter ycenter : Nat)
    (default_element : α) : Res (Image α) :=
  subimage input z [width, height] [xcenter, ycenter] default_element

/-- image_operations.h:1999-2042, `split_overlap`. `(bs - 1) / 2.0` truncated is `(bs - 1) / 2` (exactly
so for blocks of 1 to 2^53 pixels; for an empty block the code rounds 2^64 - 1 to a double first). -/
def splitOverlap (z : α) (input : Image α) (xsegments ysegments xe ye : Nat) (b : Boundary)
    (value : α) : Res (List (List (Image α))) := do
  let bx ← udiv input.width xsegments
  let by' ← udiv input.height ysegments
  let ext ← paddedImage z input xe ye b value
  forUp ysegments (fun output y => do
    let output2 ← forUp xsegments (fun output2 x => do
      let cx := wadd (wmul x bx) (wsub bx 1 / 2)
      let cy := wadd (wmul y by') (wsub by' 1 / 2)
      let blk ← subimage ext z [wadd bx (wmul 2 xe), wadd by' (wmul 2 ye)] [cx, cy] z
      .ok (output2 ++ [blk])) []
    .ok (output ++ [output2])) []

end TinyDIP
