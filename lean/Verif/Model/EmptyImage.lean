import Verif.Model.Pixelwise

/-!
# The number of pixels with an execution policy (image.h)
-/

namespace TinyDIP

variable {α : Type}

/-- image.h 371-378 `count(policy)`: the values it may give. `std::reduce` multiplies in any order and grouping. -/
def CountPolicy (im : Image α) (v : Nat) : Prop :=
  if im.size.isEmpty then v = 0 else StdReduce wmul 1 im.size v

end TinyDIP
