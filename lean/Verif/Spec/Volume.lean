import Verif.Model.Volume

/-!
# What a volume holds
-/

namespace TinyDIP.Vol

variable {α : Type}

/-- The volume has the sizes `w`, `h`, `d` (which fit in memory), and voxel `(x, y, z)` is `f x y z`. -/
structure Holds (v : Vol α) (w h d : Nat) (f : Nat → Nat → Nat → α) : Prop where
  w_eq : v.width = w
  h_eq : v.height = h
  d_eq : v.depth = d
  len : v.data.length = w * h * d
  fits : w * h * d < 2 ^ 64
  small : w < 2 ^ 64 ∧ h < 2 ^ 64 ∧ d < 2 ^ 64
  vox : ∀ x y z, x < w → y < h → z < d → v.at' x y z = .ok (f x y z)

end TinyDIP.Vol
