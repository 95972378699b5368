import Verif.Model.Cuda
import Verif.Spec.Stitch
import Verif.Spec.Interp

/-!
# Specification vocabulary for the warp on the graphics processor
-/

namespace TinyDIP.Cuda

/-- `i` is a pixel coordinate of an axis of length `n` and no other coordinate of that axis is nearer to `x`. -/
def Nearest (n : Nat) (x : ℝ) (i : Nat) : Prop := i < n ∧ ∀ k : Nat, k < n → |x - i| ≤ |x - k|

/-- The position is at least one pixel from the low and more than two from the high border, so that the sixteen pixels
around it are all in the image. -/
def Interior (w h : Nat) (x y : ℝ) : Prop := 1 ≤ x ∧ x < (w : ℝ) - 2 ∧ 1 ≤ y ∧ y < (h : ℝ) - 2

/-- The position lies in `[0, w) × [0, h)`. -/
def Within (w h : Nat) (x y : ℝ) : Prop := 0 ≤ x ∧ x < (w : ℝ) ∧ 0 ≤ y ∧ y < (h : ℝ)

/-- The position is that of a pixel. -/
def OnPixel (w h : Nat) (x y : ℝ) : Prop := ∃ i j : Nat, i < w ∧ j < h ∧ x = i ∧ y = j

end TinyDIP.Cuda
