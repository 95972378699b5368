import Verif.Model.Special
import Verif.Model.Color

/-!
# Infinities and NaN in pictures

`min`, `max`, `normalize`, `count`, `replace` and `im2uint8` on pictures of `double` that hold any values a `double`
can have. `imMin` and `imMax` are those of `Pixelwise`, with the comparison of `double`. The standard asks for a strict
weak order, which NaN breaks; the loop is that of the usual implementation.
-/

namespace TinyDIP.Sp

open TinyDIP Image

/-- The operator `<` of `double`, used by `std::ranges::min` and `std::ranges::max` at image_operations.h 4328, 4343. -/
instance : LT Dbl := ⟨Dbl.lt⟩

/-- Needed to evaluate the comparisons at image_operations.h 4328, 4343. -/
noncomputable instance : DecidableLT Dbl := fun _ _ => Classical.propDecidable _

/-- image_operations.h 2212-2230, `normalize`. -/
noncomputable def normalize (input : Image Dbl) : Res (Image Dbl) := do
  let maxValue ← imMax input
  let minValue ← imMin input
  let minPlane := input.setAllValue minValue
  let maxPlane := input.setAllValue maxValue
  let differencePlane ← subtract Dbl.sub maxPlane minPlane
  let n ← subtract Dbl.sub input minPlane
  divides Dbl.div n differencePlane

open Classical in
/-- image_operations.h 4361-4382, `count(image, target)` (with or without policy). -/
noncomputable def count (input : Image Dbl) (target : Dbl) : Nat := input.data.countP fun a => a.eq target

open Classical in
/-- image_operations.h 4388-4418, `replace(policy, image, target, new)`, elements visited in the order `order`. -/
noncomputable def replaceOrd (order : List Nat) (input : Image Dbl) (target new : Dbl) : Res (Image Dbl) := do
  let d ← loop (fun d i => do
    let a ← vget d i
    if a.eq target then vset d i new else .ok d) order input.data
  .ok ⟨input.size, d⟩

/-- `static_cast<std::uint8_t>(a)`: undefined unless the truncated value fits. image.h 350-364. -/
noncomputable def toU8 : Dbl → Res (BitVec 8)
  | .num x => Color.toU8 x
  | _ => .ub

/-- image_operations.h 1729-1733, `im2uint8(Image<double>)`. -/
noncomputable def im2uint8Gray (input : Image Dbl) : Res (Image (BitVec 8)) := Color.convertAll toU8 input

end TinyDIP.Sp
