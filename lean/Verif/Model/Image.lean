import Verif.Model.Res

/-!
# `Image<ElementT>` (image.h)
-/

namespace TinyDIP

/-- image.h:780-781. The two data members: the sizes of the dimensions and the pixels. -/
structure Image (α : Type) where
  size : List Nat
  data : List α
  deriving DecidableEq, Repr

namespace Image

variable {α : Type} {β : Type}

/-- `std::reduce(size, 1, multiplies)` and `(1 * ... * sizes)` in `size_t`
(image.h:76, 86-91, 107-112, 124, 192, 368): product modulo 2^64. -/
def prodW (sizes : List Nat) : Nat := sizes.foldl wmul (1 % W)

/-- image.h:73, `Image() = default`. -/
def default : Image α := ⟨[], []⟩

/-- image.h:75-78, `Image(std::size_t... sizes)`; the elements are value-initialised
(`zero` stands for `ElementT{}`). -/
def ofSizes (zero : α) (sizes : List Nat) : Image α := ⟨sizes, List.replicate (prodW sizes) zero⟩

/-- image.h:80-93, `Image(int... sizes)`: each `int` converts to `size_t` modulo 2^64. -/
def ofInts (zero : α) (sizes : List Int) : Image α :=
  ofSizes zero (sizes.map fun s => (s % (W : Int)).toNat)

/-- image.h:96-114, `Image(const Sizes&)` for a range of sizes. -/
def ofSizeRange (zero : α) (sizes : List Nat) : Res (Image α) :=
  if sizes.isEmpty then .throw .runtime else .ok (ofSizes zero sizes)

/-- image.h:117-141, `Image(Range&&, Sizes...)` (no check for empty input). -/
def ofDataRvalue (input : List α) (sizes : List Nat) : Res (Image α) :=
  if input.length ≠ prodW sizes then .throw .runtime else .ok ⟨sizes, input⟩

/-- image.h:143-176 and 178-197, `Image(const Range&, Sizes...)` and
`Image(const Range&, const Sizes&)`. -/
def ofData (input : List α) (sizes : List Nat) : Res (Image α) :=
  if input.isEmpty then .throw .runtime
  else if input.length ≠ prodW sizes then .throw .runtime
  else .ok ⟨sizes, input⟩

/-- image.h:199-213, `Image(const vector<vector<ElementT>>&)`: width of the first row, number
of rows, all rows concatenated. -/
def ofRows (input : List (List α)) : Res (Image α) :=
  match input with
  | [] => .throw .runtime
  | row :: _ => .ok ⟨[row.length, input.length], input.flatten⟩

/-- image.h:827-856, `calculateIndex`, both overloads: accumulates `index += idx * stride;
stride *= size[i++]` in `size_t`. Reading `size[i]` past the end is undefined behaviour. -/
def calculateIndexGo : (size idx : List Nat) → (index stride : Nat) → Res Nat
  | _, [], index, _ => .ok index
  | [], _ :: _, _, _ => .ub
  | s :: ss, i :: is, index, stride =>
    calculateIndexGo ss is (wadd index (wmul i stride)) (wmul stride s)

/-- image.h:827-856. -/
def calculateIndex (im : Image α) (idx : List Nat) : Res Nat :=
  calculateIndexGo im.size idx 0 1

/-- image.h:866-876 / 238-248: the per-coordinate check `idx >= size[i] → out_of_range`.
Reading `size[i]` past the end is undefined behaviour. -/
def checkEach : (size idx : List Nat) → Res Unit
  | _, [] => .ok ()
  | [], _ :: _ => .ub
  | s :: ss, i :: is => if i ≥ s then .throw .outOfRange else checkEach ss is

/-- image.h:858-877, `checkBoundary`. -/
def checkBoundary (im : Image α) (idx : List Nat) : Res Unit :=
  if idx.length ≠ im.size.length then .throw .runtime else checkEach im.size idx

/-- image.h:269-291, variadic `at_without_boundary_check`, as an element position. -/
def posUnchecked (im : Image α) (idx : List Nat) : Res Nat :=
  if idx.length ≠ im.size.length then .throw .runtime else im.calculateIndex idx

/-- image.h:269-291 and 574-584 (`operator[]`), reading. -/
def atUnchecked (im : Image α) (idx : List Nat) : Res α := do
  let p ← im.posUnchecked idx
  vget im.data p

/-- image.h:269-279, writing through the returned reference. -/
def setAtUnchecked (im : Image α) (idx : List Nat) (v : α) : Res (Image α) := do
  let p ← im.posUnchecked idx
  let d ← vset im.data p v
  .ok ⟨im.size, d⟩

/-- image.h:226-231, variadic `at` (read). -/
def at' (im : Image α) (idx : List Nat) : Res α := do
  im.checkBoundary idx
  im.atUnchecked idx

/-- image.h:218-223, variadic `at` (write through the returned reference). -/
def setAt (im : Image α) (idx : List Nat) (v : α) : Res (Image α) := do
  im.checkBoundary idx
  im.setAtUnchecked idx v

/-- image.h:234-250 with 294-300, `at(const Indices&)` for a range of indices: no
dimensionality check. -/
def atRange (im : Image α) (idx : List Nat) : Res α := do
  checkEach im.size idx
  let p ← im.calculateIndex idx
  vget im.data p

/-- image.h:294-300, `at_without_boundary_check(const Indices&)` for a range (read). -/
def atRangeUnchecked (im : Image α) (idx : List Nat) : Res α := do
  let p ← im.calculateIndex idx
  vget im.data p

/-- image.h:303-308, `at_without_boundary_check(const Indices&)` for a range (write). -/
def setAtRangeUnchecked (im : Image α) (idx : List Nat) (v : α) : Res (Image α) := do
  let p ← im.calculateIndex idx
  let d ← vset im.data p v
  .ok ⟨im.size, d⟩

/-- image.h:311-314, `get(index)`: unchecked. -/
def get (im : Image α) (index : Nat) : Res α := vget im.data index

/-- image.h:366-369, `count()`. -/
def count (im : Image α) : Nat := prodW im.size

/-- image.h:319-334, `set(index)` and assignment through the returned reference. -/
def setIndex (im : Image α) (index : Nat) (v : α) : Res (Image α) :=
  if index ≥ im.count then .throw .outOfRange
  else do
    let d ← vset im.data index v
    .ok ⟨im.size, d⟩

/-- image.h:889-899: the coordinate comparison of `checkBoundaryTuple`, `false` at the first
coordinate that is too large. The length test of lines 885-888 makes the middle case
unreachable. -/
def checkTupleEach : (size idx : List Nat) → Bool
  | _, [] => true
  | [], _ :: _ => false
  | s :: ss, i :: is => if i ≥ s then false else checkTupleEach ss is

/-- image.h:337-348 with 880-917, `set(tuple, value)`: `true` when the value was written. -/
def setTuple (im : Image α) (loc : List Nat) (v : α) : Res (Image α × Bool) :=
  if loc.length ≠ im.size.length then .throw .runtime
  else if checkTupleEach im.size loc then do
    let p ← im.calculateIndex loc
    let d ← vset im.data p v
    .ok (⟨im.size, d⟩, true)
  else .ok (im, false)

/-- image.h:380-383. -/
def dim (im : Image α) : Nat := im.size.length

/-- image.h:385-388, `getWidth()`: `size[0]`, undefined for a default-constructed image
(totalised to 0 here; the 2-D operations below check the dimensionality or are stated for
2-D images). -/
def width (im : Image α) : Nat := im.size.headD 0

/-- image.h:390-393, `getHeight()`. -/
def height (im : Image α) : Nat := if im.size.length > 1 then (im.size.drop 1).headD 0 else 0

/-- image.h:408-420, `getStride(index)` (`size_t` product of the first `index` sizes;
`index` must not exceed the dimensionality). -/
def stride (im : Image α) (index : Nat) : Nat := (im.size.take index).foldl wmul 1

/-- image.h:495-508, `setAllValue` (both overloads). -/
def setAllValue (im : Image α) (v : α) : Image α := ⟨im.size, im.data.map fun _ => v⟩

/-- image.h:350-364, `cast<TargetT>()`. -/
def cast (im : Image α) (f : α → β) : Res (Image β) := ofData (im.data.map f) im.size

/-- image_operations.h:260-266, `check_size_same`. -/
def checkSizeSame (x : Image α) (y : Image β) : Res Unit :=
  if x.size ≠ y.size then .throw .runtime else .ok ()

/-- `std::transform(first1, last1, first2, out, f)`: runs over the first range; undefined behaviour when the
second range is shorter. Used at image.h 520. -/
def stdTransform2 {γ : Type} (f : α → β → γ) : List α → List β → Res (List γ)
  | [], _ => .ok []
  | _ :: _, [] => .ub
  | a :: as, b :: bs =>
    match stdTransform2 f as bs with
    | .ok cs => .ok (f a b :: cs)
    | .throw e => .throw e
    | .ub => .ub

/-- image.h:517-547, `operator+=`, `-=`, `*=`, `/=` (the operation is a parameter). -/
def opAssign (f : α → α → α) (lhs rhs : Image α) : Res (Image α) :=
  match checkSizeSame rhs lhs with
  | .ok () =>
    match stdTransform2 f lhs.data rhs.data with
    | .ok d => .ok ⟨lhs.size, d⟩
    | .throw e => .throw e
    | .ub => .ub
  | .throw e => .throw e
  | .ub => .ub

/-- `at(x, y)`, used throughout image_operations.h. image.h 227-232. -/
abbrev at2 (im : Image α) (x y : Nat) : Res α := im.at' [x, y]

/-- `at(x, y) = v`, used throughout image_operations.h. image.h 219-224. -/
abbrev set2 (im : Image α) (x y : Nat) (v : α) : Res (Image α) := im.setAt [x, y] v

/-- `at_without_boundary_check(x, y)`, used throughout image_operations.h. image.h 283-291. -/
abbrev at2u (im : Image α) (x y : Nat) : Res α := im.atUnchecked [x, y]

/-- `at_without_boundary_check(x, y) = v`, used throughout image_operations.h. image.h 271-279. -/
abbrev set2u (im : Image α) (x y : Nat) (v : α) : Res (Image α) := im.setAtUnchecked [x, y] v

end Image
end TinyDIP
