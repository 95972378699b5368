import Verif.Model.Geometry

/-!
# Pixelwise operations, summaries, colour planes (image_operations.h, base_types.h)
-/

namespace TinyDIP

variable {α : Type} {β : Type} {γ : Type}

/-! ### pixelwise_transform and the arithmetic built on it -/

/-- image_operations.h:2045-2057, `pixelwise_transform(op, input)` with one input:
`recursive_transform<1>` (basic_functions.h:1173-1200) maps the stored elements in order, and the
result is handed with the input's sizes to the `Image(const Range&, const Sizes&)` constructor. -/
def pixelwiseTransform (op : α → β) (input : Image α) : Res (Image β) :=
  Image.ofData (input.data.map op) input.size

/-- image_operations.h:2045-2057 with two inputs. The variadic `transform`
(basic_functions.h:1165-1171) runs to the end of the first range only. -/
def pixelwiseTransform2 (op : α → β → γ) (input1 : Image α) (input2 : Image β) :
    Res (Image γ) := do
  let d ← Image.stdTransform2 op input1.data input2.data
  Image.ofData d input1.size

/-- basic_functions.h:1237-1258 at unwrap level 1: `std::transform` with an execution policy into
an output vector of the input's length. `order` is the order in which the per-element bodies run
(each holds the mutex, so they do not overlap). -/
def policyTransform (zero : β) (order : List Nat) (op : α → β) (input : List α) : Res (List β) :=
  loop (fun out i => do
    let a ← vget input i
    vset out i (op a)) order (List.replicate input.length zero)

/-- image_operations.h:2059-2070, `pixelwise_transform(policy, op, input)`. -/
def pixelwiseTransformPolicy (zero : β) (order : List Nat) (op : α → β) (input : Image α) :
    Res (Image β) := do
  let d ← policyTransform zero order op input.data
  Image.ofData d input.size

/-- image_operations.h:3314-3334, `add(i1, ..., in)`: `pixelwise_transform(plus, i1, add(rest...))`;
no comparison of sizes. The argument pack is a list; the empty pack does not compile. -/
def add (plus : α → α → α) : List (Image α) → Res (Image α)
  | [] => .ub
  | [i] => .ok i
  | i :: j :: rest => do
    let r ← add plus (j :: rest)
    pixelwiseTransform2 plus i r

/-- image_operations.h:3346-3352, generic `subtract`. -/
def subtract (minus : α → α → α) (input1 input2 : Image α) : Res (Image α) := do
  Image.checkSizeSame input1 input2
  pixelwiseTransform2 minus input1 input2

/-- image_operations.h:3414-3423, two-image `pixelwise_multiplies`. -/
def pixelwiseMultiplies (times : α → β → γ) (input1 : Image α) (input2 : Image β) :
    Res (Image γ) :=
  if input1.size ≠ input2.size then .throw .runtime else pixelwiseTransform2 times input1 input2

/-- image_operations.h:3426-3483, `multiplies(image, scalar)` (the branches differ only in element
types): an image filled with the scalar is multiplied pixelwise. -/
def multipliesScalar (times : α → β → γ) (zero : β) (input : Image α) (t : β) : Res (Image γ) := do
  let image ← Image.ofData (List.replicate input.count zero) input.size
  pixelwiseMultiplies times input (image.setAllValue t)

/-- image_operations.h:3586-3596, `divides` / `modulus` of two images: no size check. -/
def divides (op : α → α → α) (input1 input2 : Image α) : Res (Image α) :=
  pixelwiseTransform2 op input1 input2

/-- image_operations.h:3576-3583, `divides(image, scalar)`. -/
def dividesScalar (op : α → α → α) (input1 : Image α) (input2 : α) : Res (Image α) := do
  let im ← Image.ofData input1.data input1.size
  divides op input1 (im.setAllValue input2)

/-! ### Pixels with three channels -/

/-- base_types.h:46-141, `RGB` (`C` = 8-bit unsigned), `RGB_DOUBLE` and `HSV` (`C` = real numbers):
three channels. -/
structure Px3 (C : Type) where
  c0 : C
  c1 : C
  c2 : C
  deriving DecidableEq, Repr

/-- `channels[index]`: undefined behaviour beyond the array. base_types.h 48, 78, 108; read at
image_operations.h 1238. -/
def Px3.channel {C : Type} (p : Px3 C) : Nat → Res C
  | 0 => .ok p.c0
  | 1 => .ok p.c1
  | 2 => .ok p.c2
  | _ => .ub

/-- base_types.h:46-73 (and 76-101, 106-141 for the double-valued types): `operator+`, `operator-`
channel by channel. -/
def Px3.map2 {C : Type} (f : C → C → C) (p q : Px3 C) : Px3 C :=
  ⟨f p.c0 q.c0, f p.c1 q.c1, f p.c2 q.c2⟩

/-- base_types.h:46. An 8-bit RGB pixel. -/
abbrev RGB := Px3 (BitVec 8)

/-- image_operations.h:3378-3384: `std::clamp(x - y, 0, 255)` on `int`, stored in `uint8_t`. -/
def clampSub (x y : BitVec 8) : BitVec 8 :=
  BitVec.ofInt 8 (max 0 (min 255 ((x.toNat : Int) - (y.toNat : Int))))

/-- image_operations.h:3369-3391, `subtract` for `Image<RGB>`. -/
def subtractRGB (input1 input2 : Image RGB) : Res (Image RGB) := do
  Image.checkSizeSame input1 input2
  pixelwiseTransform2 (Px3.map2 clampSub) input1 input2

/-- image_operations.h:1192-1206 (`RGB`), 1208-1222 (`HSV`, `RGB_DOUBLE`), `getPlane`; the OpenMP
loop over elements is run in the order `order`. -/
def getPlaneOrd {C : Type} (zero : C) (order : List Nat) (input : Image (Px3 C)) (index : Nat) :
    Res (Image C) := do
  let d ← loop (fun out i => do
    let p ← vget input.data i
    let v ← p.channel index
    vset out i v) order (List.replicate input.count zero)
  Image.ofData d input.size

/-- `getPlane` in program order. `getRplane/getGplane/getBplane` (1244-1278) and
`getHplane/getSplane/getVplane` (1280-1296) are `getPlane` with index 0, 1, 2. image_operations.h 1225-1242.
-/
def getPlane {C : Type} (zero : C) (input : Image (Px3 C)) (index : Nat) : Res (Image C) :=
  getPlaneOrd zero (List.range input.count) input index

/-- image_operations.h:970-990, `constructRGB` (992-1013 `constructRGBDOUBLE`, 1015-1037
`constructHSV`); OpenMP order `order`. -/
def constructPx3Ord {C : Type} (zero : C) (order : List Nat) (r g b : Image C) :
    Res (Image (Px3 C)) := do
  Image.checkSizeSame r g
  Image.checkSizeSame g b
  let d ← loop (fun out i => do
    let x ← vget r.data i
    let y ← vget g.data i
    let z ← vget b.data i
    vset out i ⟨x, y, z⟩) order (List.replicate r.count ⟨zero, zero, zero⟩)
  Image.ofData d r.size

/-- `constructRGB` etc. in program order. image_operations.h 970-1045. -/
def constructPx3 {C : Type} (zero : C) (r g b : Image C) : Res (Image (Px3 C)) :=
  constructPx3Ord zero (List.range r.count) r g b

/-- image_operations.h:1224-1242, `getPlane` of a `MultiChannel` image; a pixel is the list of its
`channelCount` channels. -/
def getPlaneMulti {C : Type} (channelCount : Nat) (input : Image (List C)) (index : Nat) :
    Res (Image C) :=
  if index ≥ channelCount then .throw .runtime
  else do
    let d ← forUp input.count (fun out i => do
      let p ← vget input.data i
      let v ← vget p index
      .ok (out ++ [v])) []
    Image.ofData d input.size

/-- image_operations.h:1084-1098, `constructMultiChannel(input1)`: one-channel pixels. -/
def constructMulti1 {C : Type} (input1 : Image C) : Res (Image (List C)) := do
  let d ← forUp input1.count (fun out i => do
    let a ← vget input1.data i
    .ok (out ++ [[a]])) []
  Image.ofData d input1.size

/-- image_operations.h:1040-1074, `addChannel(image, plane)`. -/
def addChannel {C : Type} (input : Image (List C)) (plane : Image C) : Res (Image (List C)) :=
  if input.size ≠ plane.size then .throw .runtime
  else if input.data.length ≠ plane.data.length then .throw .runtime
  else do
    let d ← forUp input.data.length (fun out i => do
      let p ← vget input.data i
      let v ← vget plane.data i
      .ok (out ++ [p ++ [v]])) []
    Image.ofData d input.size

/-! ### Quantifiers over pixels -/

/-- image_operations.h:46-51, `all_of`. -/
def allOf (input : Image α) (p : α → Bool) : Bool := input.data.all p
/-- image_operations.h:88-93, `any_of`. -/
def anyOf (input : Image α) (p : α → Bool) : Bool := input.data.any p
/-- image_operations.h:130-135, `none_of`. -/
def noneOf (input : Image α) (p : α → Bool) : Bool := !input.data.any p

/-! ### Distances -/

/-- image_operations.h:3887-3897, `difference` of numeric images. -/
def absDiff [LT α] [DecidableLT α] [Sub α] (a b : α) : α := if a > b then a - b else b - a

/-- image_operations.h:3887-3897. -/
def difference [LT α] [DecidableLT α] [Sub α] (input1 input2 : Image α) : Res (Image α) :=
  pixelwiseTransform2 absDiff input1 input2

/-- image_operations.h:3947-3958, `manhattan_distance`: `recursive_reduce`
(basic_functions.h:900-916) adds the differences to zero from the left. Exact arithmetic; the
conversion to `OutputT` is the identity here. -/
def manhattanDistance [LT α] [DecidableLT α] [Sub α] [Add α] [Zero α] (input1 input2 : Image α) :
    Res α :=
  if input1.size ≠ input2.size then .throw .runtime
  else do
    let d ← difference input1 input2
    .ok (d.data.foldl (· + ·) 0)

/-- image_operations.h:4069-4110, `squared_euclidean_distance` on two ranges (sequential). -/
def sqEuclidGo [Sub α] [Mul α] [Add α] : List α → List α → α → Res α
  | [], [], acc => .ok acc
  | a :: as, b :: bs, acc => sqEuclidGo as bs (acc + (a - b) * (a - b))
  | _, _, _ => .throw .runtime

/-- image_operations.h:4069-4110. -/
def sqEuclid [Sub α] [Mul α] [Add α] [Zero α] (range1 range2 : List α) : Res α :=
  sqEuclidGo range1 range2 0

/-- The same function for unsigned 8-bit elements: the differences and products are computed in
`int`, the accumulator has the element type (base_types.h:30-34 with line 4080), so every `+=` is
reduced modulo 256. -/
def sqEuclidU8Go : List (BitVec 8) → List (BitVec 8) → BitVec 8 → Res (BitVec 8)
  | [], [], acc => .ok acc
  | a :: as, b :: bs, acc =>
    sqEuclidU8Go as bs
      (BitVec.ofInt 8 ((acc.toNat : Int) +
        ((a.toNat : Int) - (b.toNat : Int)) * ((a.toNat : Int) - (b.toNat : Int))))
  | _, _, _ => .throw .runtime

/-- image_operations.h:4069-4110 with `uint8_t` elements. -/
def sqEuclidU8 (range1 range2 : List (BitVec 8)) : Res (BitVec 8) := sqEuclidU8Go range1 range2 0

/-! ### Reductions -/

/-- A way of bracketing a reduction: the results of combining the elements of a non-empty list with `f`
without changing their order. Not from the repository: part of the C++ standard's description of
`std::reduce`. -/
inductive Brackets (f : α → α → α) : List α → α → Prop
  | one (a : α) : Brackets f [a] a
  | node {l₁ l₂ : List α} {a b : α} : Brackets f l₁ a → Brackets f l₂ b →
      Brackets f (l₁ ++ l₂) (f a b)

/-- `std::reduce(policy, first, last, init, f)` and the reduction part of `std::transform_reduce`: the
standard allows the elements (and the initial value) to be permuted and bracketed in any way. The allowed
results. Used at image_operations.h 1407, 1416, 4294, 4304. -/
def StdReduce (f : α → α → α) (init : α) (l : List α) (v : α) : Prop :=
  ∃ p : List α, p.Perm (init :: l) ∧ Brackets f p v

/-- image_operations.h:4017-4056, `squared_euclidean_distance` with an execution policy: the set of
allowed results. -/
def SqEuclidPolicy [Sub α] [Mul α] [Add α] [Zero α] (range1 range2 : List α) (r : Res α) : Prop :=
  if range1.length ≠ range2.length then r = .throw .runtime
  else ∃ v, r = .ok v ∧
    StdReduce (· + ·) 0 (List.zipWith (fun a b => (a - b) * (a - b)) range1 range2) v

/-- image_operations.h:4289-4305, `sum(image, f)` and `sum(policy, image, f)`: the allowed results
of `std::reduce` from `ElementT{}`. -/
def SumResult (f : α → α → α) (zero : α) (input : Image α) (v : α) : Prop :=
  StdReduce f zero input.data v

/-- image_operations.h:4307-4322, `mean(image, f)`: note that `f` is not passed on to `sum`. -/
def MeanResult (plus : α → α → α) (div : α → Nat → β) (zero : α) (input : Image α) (v : β) : Prop :=
  ∃ s, SumResult plus zero input s ∧ v = div s input.count

/-- `std::ranges::min(range)`: the first smallest element; the range must not be empty. image_operations.h
4328. -/
def stdMin [LT α] [DecidableLT α] : List α → Res α
  | [] => .ub
  | a :: l => .ok (l.foldl (fun m x => if x < m then x else m) a)

/-- `std::ranges::max(range)`: the first largest element. image_operations.h 4343. -/
def stdMax [LT α] [DecidableLT α] : List α → Res α
  | [] => .ub
  | a :: l => .ok (l.foldl (fun m x => if m < x then x else m) a)

/-- `std::ranges::minmax(range)`: the first smallest and the last largest element. image_operations.h 4358.
-/
def stdMinmax [LT α] [DecidableLT α] : List α → Res (α × α)
  | [] => .ub
  | a :: l => .ok (l.foldl (fun m x => (if x < m.1 then x else m.1, if x < m.2 then m.2 else x)) (a, a))

/-- image_operations.h:4324-4329. -/
def imMin [LT α] [DecidableLT α] (input : Image α) : Res α := stdMin input.data
/-- image_operations.h:4339-4344. -/
def imMax [LT α] [DecidableLT α] (input : Image α) : Res α := stdMax input.data
/-- image_operations.h:4354-4359. -/
def imMinmax [LT α] [DecidableLT α] (input : Image α) : Res (α × α) := stdMinmax input.data

/-- image_operations.h:4361-4382, `count(image, target)` (with or without policy). -/
def imCount [DecidableEq α] (input : Image α) (target : α) : Nat := input.data.count target

/-- image_operations.h:4388-4418, `replace(policy, image, target, new)`: `std::replace` on a copy,
elements visited in the order `order`. -/
def replaceOrd [DecidableEq α] (order : List Nat) (input : Image α) (target new : α) :
    Res (Image α) := do
  let d ← loop (fun d i => do
    let a ← vget d i
    if a = target then vset d i new else .ok d) order input.data
  .ok ⟨input.size, d⟩

/-- image_operations.h:4420-4426, `replace(image, target, new)`. -/
def replace [DecidableEq α] (input : Image α) (target new : α) : Res (Image α) :=
  replaceOrd (List.range input.data.length) input target new

/-- image_operations.h:4428-4433, `unique_value`. -/
def uniqueValue [DecidableEq α] (input : Image α) (target : α) : Bool :=
  imCount input target == 1

/-! ### highlight_region -/

/-- The values of `for (i = start; i < stop; ++i)`. The loops of image_operations.h 1951-1953. -/
def countUp (start stop : Nat) : List Nat := List.range' start (stop - start)

/-- `std::abs(static_cast<int>(x) - static_cast<int>(y))`. Simplification: coordinates of 2^31 and more,
whose conversion to `int` wraps, are reported as undefined behaviour. image_operations.h 1955-1958. -/
def absDiffInt (x y : Nat) : Res Nat :=
  if x < 2 ^ 31 ∧ y < 2 ^ 31 then .ok ((x : Int) - (y : Int)).natAbs else .ub

/-- image_operations.h:1955-1958: the four tests, `||` from the left. -/
def nearFrame (x y startx endx starty endy width : Nat) : Res Bool := do
  let a ← absDiffInt x startx
  if a < width then .ok true else
    let b ← absDiffInt x endx
    if b < width then .ok true else
      let c ← absDiffInt y starty
      if c < width then .ok true else
        let d ← absDiffInt y endy
        .ok (d < width)

/-- image_operations.h:1941-1967, `highlight_region` (asserts disabled as in release builds; the
colour is one value). The loop bounds are computed in `size_t`. -/
def highlightRegion (input : Image α) (startx endx starty endy width : Nat) (colour : α) :
    Res (Image α) :=
  loop (fun out y =>
    loop (fun out x => do
      let near ← nearFrame x y startx endx starty endy width
      if near then out.set2 x y colour else .ok out)
      (countUp (wsub startx (width / 2)) (wadd endx (width / 2))) out)
    (countUp (wsub starty (width / 2)) (wadd endy (width / 2))) input

end TinyDIP
