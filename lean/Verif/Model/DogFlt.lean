import Verif.Model.FilterFlt

/-!
# Difference of Gaussians with floating elements
-/

namespace TinyDIP.Filter

open TinyDIP Image Rnd

variable {p : Nat}

/-- image_operations.h:5720-5732, `difference_of_gaussian` on elements with `p` significant bits. `n1`, `n2` are the
window lengths `computeFilterSizeFromSigma` (5575-5578) gives for the two sigmas, not zero, so that 5592-5600 is the
call made; `normal1`, `normal2` are the two bell curves as computed. The orders are those of the four convolutions. -/
noncomputable def differenceOfGaussianF (normal1 normal2 : Nat → Nat → Flt p) (reduce : Image (Flt p) → Flt p)
    (o1 o2 o3 o4 : List Nat) (input : Image (Flt p)) (n1 n2 : Nat) : Res (Image (Flt p)) := do
  let a ← imgaussfiltF normal1 normal1 reduce o1 o2 input n1 n1 .mirror 0
  let b ← imgaussfiltF normal2 normal2 reduce o3 o4 input n2 n2 .mirror 0
  subtract (· - ·) a b

end TinyDIP.Filter
