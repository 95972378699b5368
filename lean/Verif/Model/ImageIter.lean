import Verif.Model.Image

/-!
# Linear indices and the pixel iterator (image_operations.h, image.h)
-/

namespace TinyDIP

/-- Unsigned integer division and remainder: undefined behaviour for a zero divisor. Used at
image_operations.h 3039-3040, main.cpp 836 and similar places. -/
def udiv (a b : Nat) : Res Nat := if b = 0 then .ub else .ok (a / b)

/-- Unsigned remainder, used at image_operations.h 3039. -/
def umod (a b : Nat) : Res Nat := if b = 0 then .ub else .ok (a % b)

/-- image_operations.h:352-358: the loop of `linear_index_to_indices(linear_idx, sizes)`. -/
def linearToIndicesGo (n : Nat) : (sizes : List Nat) → (stride : Nat) → Res (List Nat)
  | [], _ => .ok []
  | s :: ss, stride => do
    let q ← udiv n stride
    let i ← umod q s
    let rest ← linearToIndicesGo n ss (wmul stride s)
    .ok (i :: rest)

/-- image_operations.h:344-359, `linear_index_to_indices(linear_idx, sizes)`. -/
def linearToIndices (n : Nat) (sizes : List Nat) : Res (List Nat) := linearToIndicesGo n sizes 1

/-- image_operations.h:327-342, `linear_index_to_indices(linearIndex, strides, sizes)`. The code
indexes both lists up to `sizes.size()`; a shorter `strides` is undefined behaviour. -/
def linearToIndicesStrides (n : Nat) : (strides sizes : List Nat) → Res (List Nat)
  | _, [] => .ok []
  | [], _ :: _ => .ub
  | t :: ts, s :: ss => do
    let q ← udiv n t
    let i ← umod q s
    let rest ← linearToIndicesStrides n ts ss
    .ok (i :: rest)

/-- image.h:632-635: the state of a `pixel_iterator`; `pos` is the position of the underlying
vector iterator. -/
structure PixIter where
  pos : Nat
  px : Nat
  py : Nat
  width : Nat
  deriving DecidableEq, Repr

/-- image.h:610-620 (and 660-670 for the const version), `operator++`. -/
def PixIter.next (it : PixIter) : PixIter :=
  if it.px + 1 = it.width then ⟨it.pos + 1, 0, it.py + 1, it.width⟩
  else ⟨it.pos + 1, it.px + 1, it.py, it.width⟩

namespace Image
variable {α : Type}

/-- image.h:700-703 / 726-729, `begin()`. -/
def pixBegin (im : Image α) : PixIter := ⟨0, 0, 0, im.width⟩

/-- image.h:705-708 / 731-734, `end()`. -/
def pixEnd (im : Image α) : PixIter := ⟨im.data.length, 0, im.height, im.width⟩

/-- A range-based `for` over the pixels (`it != end`; visit `*it`; `++it`). Each visit is
recorded as (value, position, x, y). `none` when the loop has not ended after `fuel` steps.
Dereferencing the end of the vector is undefined behaviour (image.h:605-608). -/
def pixLoop (im : Image α) : (fuel : Nat) → PixIter → Option (Res (List (α × Nat × Nat × Nat)))
  | 0, _ => none
  | fuel + 1, it =>
    if it = im.pixEnd then some (.ok [])
    else
      match vget im.data it.pos with
      | .ok v =>
        match pixLoop im fuel it.next with
        | some (.ok rest) => some (.ok ((v, it.pos, it.px, it.py) :: rest))
        | r => r
      | .throw e => some (.throw e)
      | .ub => some .ub

/-- image.h:689-698, 747-762: `for (auto&& [v, x, y] : image.pixels_with_coordinates())`; the
proxy throws `logic_error` unless the image is 2-D. -/
def pixels (im : Image α) (fuel : Nat) : Option (Res (List (α × Nat × Nat × Nat))) :=
  if im.dim ≠ 2 then some (.throw .logic) else im.pixLoop fuel im.pixBegin

end Image
end TinyDIP
