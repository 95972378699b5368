import Verif.Model.Interp
import Verif.Spec.Grid

/-!
# Specification vocabulary for interpolation and rotation
-/

namespace TinyDIP

variable {α : Type}

/-- What the interpolation theorems assume about an element type: converting a pixel to a real and
back is exact, and converting back never moves a value past a representable one. (Proved for real
and for 8-bit pixels in Props/Interp.lean.) -/
structure Conv.Lawful (cv : Conv α) : Prop where
  exact : ∀ a, cv.fromR (cv.toR a) = a
  lower : ∀ a v, cv.toR a ≤ v → cv.toR a ≤ cv.toR (cv.fromR v)
  upper : ∀ a v, v ≤ cv.toR a → cv.toR (cv.fromR v) ≤ cv.toR a

/-- Width and height after `k` quarter turns. -/
def turnSize : Nat → Nat × Nat → Nat × Nat
  | 0, s => s
  | k + 1, s => (turnSize k s).swap

/-- Pixels after `k` quarter turns of a `w × h` picture `f`: one turn moves the pixel at `(x, y)` to
`(height - 1 - y, x)`. -/
def turnPx (w h : Nat) (f : Nat → Nat → α) : Nat → Nat → Nat → α
  | 0 => f
  | k + 1 => fun X Y => turnPx w h f k Y ((turnSize k (w, h)).2 - 1 - X)

end TinyDIP
