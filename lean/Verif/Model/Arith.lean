import Verif.Model.Pixelwise

/-!
# Arithmetic between images, and operations applied plane by plane (image_operations.h)

The `std::async` tasks of `apply_each` are independent of each other; they are evaluated in the order
in which the results are fetched. Simplification: if several planes throw, the first exception is the
one reported (in the code the order of evaluation of the arguments is unspecified).
-/

namespace TinyDIP.Arith

open TinyDIP

variable {α β γ C D : Type}

/-! ### Arithmetic between images -/

/-- basic_functions.h:1165-1171 and 1173-1200, `recursive_transform<1>` with two containers of images:
to the end of the first container; reading past the end of the second is undefined. -/
def transformVec2 (f : Image α → Image α → Res (Image α)) :
    List (Image α) → List (Image α) → Res (List (Image α))
  | [], _ => .ok []
  | _ :: _, [] => .ub
  | a :: as, b :: bs => do
    let r ← f a b
    let rs ← transformVec2 f as bs
    .ok (r :: rs)

/-- image_operations.h:3354-3367, `subtract` of two vectors of images. -/
def subtractVec (minus : α → α → α) (xs ys : List (Image α)) : Res (List (Image α)) :=
  if xs.length ≠ ys.length then .throw .runtime else transformVec2 (subtract minus) xs ys

/-- image_operations.h:3394-3412, `subtract` of `RGB_DOUBLE` and `HSV` images. -/
def subtractPx3 (minus : C → C → C) (input1 input2 : Image (Px3 C)) : Res (Image (Px3 C)) := do
  Image.checkSizeSame input1 input2
  pixelwiseTransform2 (Px3.map2 minus) input1 input2

/-- image_operations.h:3515-3520, `pixelwise_multiplies(i1, ..., in)`; the pack is a list. Two images
select the overload with the size check (3414-3423). Fewer than two images do not compile. -/
def multiplyAll (times : α → α → α) : List (Image α) → Res (Image α)
  | [] => .ub
  | [_] => .ub
  | [i, j] => pixelwiseMultiplies times i j
  | i :: j :: k :: rest => do
    let r ← multiplyAll times (j :: k :: rest)
    pixelwiseTransform2 times i r

/-- image_operations.h:3566-3575, `divides` of two vectors of images: the lengths are only asserted
(the assertion is not part of a release build). -/
def dividesVec (op : α → α → α) (xs ys : List (Image α)) : Res (List (Image α)) :=
  transformVec2 (divides op) xs ys

/-- image_operations.h:3598-3602, `negate` (3604-3610 with an execution policy). -/
def negate (neg : α → α) (input : Image α) : Res (Image α) := pixelwiseTransform neg input

/-- image_operations.h:3897-3917, `difference` of `RGB`, `RGB_DOUBLE` and `HSV` images. -/
def differencePx3 [LT C] [DecidableLT C] [Sub C] (input1 input2 : Image (Px3 C)) :
    Res (Image (Px3 C)) :=
  pixelwiseTransform2 (Px3.map2 absDiff) input1 input2

/-- image_operations.h:3902-3916, `difference` of one pair of `MultiChannel` pixels. The loop runs over
the channels 0, 1, 2 whatever the number of channels; `output` is not initialised, `junk` is what it
happens to hold. -/
def differencePixelMulti [LT C] [DecidableLT C] [Sub C] (junk : List C) (p q : List C) : Res (List C) :=
  loop (fun out k => do
    let a ← vget p k
    let b ← vget q k
    vset out k (absDiff a b)) [0, 1, 2] junk

/-! ### Plane by plane -/

/-- image_operations.h:1100-1116, `constructMultiChannel` of two planes; OpenMP order `order`. -/
def constructMulti2 (zero : C) (order : List Nat) (a b : Image C) : Res (Image (List C)) := do
  Image.checkSizeSame a b
  let d ← loop (fun out i => do
    let x ← vget a.data i
    let y ← vget b.data i
    vset out i [x, y]) order (List.replicate a.count (List.replicate 2 zero))
  Image.ofData d a.size

/-- image_operations.h:1118-1140, `constructMultiChannel` of three planes; OpenMP order `order`. -/
def constructMulti3 (zero : C) (order : List Nat) (a b c : Image C) : Res (Image (List C)) := do
  Image.checkSizeSame a b
  Image.checkSizeSame b c
  let d ← loop (fun out i => do
    let x ← vget a.data i
    let y ← vget b.data i
    let z ← vget c.data i
    vset out i [x, y, z]) order (List.replicate a.count (List.replicate 3 zero))
  Image.ofData d a.size

/-- image_operations.h:1076-1082, `addChannel(image, planes...)`. -/
def addChannels (im : Image (List C)) : List (Image C) → Res (Image (List C))
  | [] => .ok im
  | p :: rest => do
    let r ← addChannel im p
    addChannels r rest

/-- image_operations.h:1084-1148, `constructMultiChannel(planes...)`; no planes do not compile. -/
def constructMulti (zero : C) (order : List Nat) : List (Image C) → Res (Image (List C))
  | [] => .ub
  | [a] => constructMulti1 a
  | [a, b] => constructMulti2 zero order a b
  | a :: b :: c :: rest => do
    let m ← constructMulti3 zero order a b c
    addChannels m rest

/-- Collects the outcomes of a list of computations, in order. The lists of planes built in
image_operations.h 1688-1709 (`apply_each`). -/
def collect : List (Res α) → Res (List α)
  | [] => .ok []
  | r :: rs => do
    let a ← r
    let as ← collect rs
    .ok (a :: as)

/-- image_operations.h:1553-1576 (`RGB`), 1578-1595 (`RGB_DOUBLE`), 1597-1614 (`HSV`), `apply_each` when
the operation returns channels of the type of the result's pixels. -/
def applyEach (zero : C) (zero' : D) (op : Image C → Res (Image D)) (input : Image (Px3 C)) :
    Res (Image (Px3 D)) := do
  let p0 ← getPlane zero input 0 >>= op
  let p1 ← getPlane zero input 1 >>= op
  let p2 ← getPlane zero input 2 >>= op
  constructPx3 zero' p0 p1 p2

/-- image_operations.h:1645-1653 (`RGB`), 1655-1663 (`RGB_DOUBLE`), 1665-1673 (`HSV`), `apply_each` of
two images. -/
def applyEach2 (zero : C) (zero' : D) (op : Image C → Image C → Res (Image D))
    (input1 input2 : Image (Px3 C)) : Res (Image (Px3 D)) := do
  let p0 ← do op (← getPlane zero input1 0) (← getPlane zero input2 0)
  let p1 ← do op (← getPlane zero input1 1) (← getPlane zero input2 1)
  let p2 ← do op (← getPlane zero input1 2) (← getPlane zero input2 2)
  constructPx3 zero' p0 p1 p2

/-- image_operations.h:1616-1643, `apply_each` of a `MultiChannel` image with `n` channels. (Further
arguments of the operation are part of `op`; with `n ≠ 3` the code accepts none.) -/
def applyEachMulti (zero : D) (order : List Nat) (n : Nat) (op : Image C → Res (Image D))
    (input : Image (List C)) : Res (Image (List D)) := do
  let ps ← collect ((List.range n).map fun k => getPlaneMulti n input k >>= op)
  constructMulti zero order ps

/-- image_operations.h:1685-1696, `apply_each_single_output` of an image with three channels. -/
def applyEachSingle (zero : C) (channelCount : Nat) (op : Image C → Res D) (input : Image (Px3 C)) :
    Res (List D) :=
  forUp channelCount (fun out k => do
    let p ← getPlane zero input k
    let v ← op p
    .ok (out ++ [v])) []

/-- image_operations.h:1698-1709, `apply_each_single_output` of two images. -/
def applyEachSingle2 (zero : C) (channelCount : Nat) (op : Image C → Image C → Res D)
    (input1 input2 : Image (Px3 C)) : Res (List D) :=
  forUp channelCount (fun out k => do
    let p ← getPlane zero input1 k
    let q ← getPlane zero input2 k
    let v ← op p q
    .ok (out ++ [v])) []

/-- image_operations.h:3472-3483, `multiplies(image, scalar)` for pixels with three channels. -/
def multipliesPx3 (times : C → β → D) (zc : C) (zb : β) (zd : D) (input : Image (Px3 C)) (t : β) :
    Res (Image (Px3 D)) :=
  applyEach zc zd (fun plane => multipliesScalar times zb plane t) input

/-- image_operations.h:1515-1526 `apply_each_pixel` (order of the policy) and 1528-1541
`apply_each_pixel_openmp` (OpenMP order). -/
def applyEachPixel (zero : β) (order : List Nat) (op : α → β) (input : Image α) : Res (Image β) := do
  let d ← loop (fun out i => do
    let a ← vget input.data i
    vset out i (op a)) order (List.replicate input.count zero)
  Image.ofData d input.size

end TinyDIP.Arith
