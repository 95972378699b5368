import Verif.Model.Geometry
import Mathlib.Analysis.SpecialFunctions.Exp
import Mathlib.Algebra.BigOperators.Group.Finset.Basic

/-!
# Specification vocabulary for Gaussian and bilateral filters
-/

namespace TinyDIP.Filter

/-- Reflection of an integer coordinate into `0 .. n - 1`, the edge pixel not repeated. -/
def reflectInt (n : Nat) (a : Int) : Nat :=
  if a < 0 then (-a).toNat else if a < n then a.toNat else (2 * ((n : Int) - 1) - a).toNat

/-- The coordinate of `0 .. n - 1` nearest to `a`. -/
def clampInt (n : Nat) (a : Int) : Nat := (max 0 (min ((n : Int) - 1) a)).toNat

/-- The `w × h` picture `f` continued over its borders: a constant outside, a mirror image, or the
nearest border pixel. -/
def extend {α : Type} (b : Boundary) (value : α) (w h : Nat) (f : Nat → Nat → α) (x y : Int) : α :=
  match b with
  | .constant => if 0 ≤ x ∧ x < w ∧ 0 ≤ y ∧ y < h then f x.toNat y.toNat else value
  | .mirror => f (reflectInt w x) (reflectInt h y)
  | .replicate => f (clampInt w x) (clampInt h y)

/-- The unnormalised bell curve `exp(-x²/(2 sd²))`. -/
noncomputable def bell (sd x : ℝ) : ℝ := Real.exp (-x ^ 2 / (2 * sd ^ 2))

/-- The bell curve around `c`, sampled at `0 .. n - 1` and scaled so that the samples sum to one. -/
noncomputable def bellWeight (sd c : ℝ) (n i : Nat) : ℝ :=
  bell sd ((i : ℝ) - c) / (Finset.range n).sum fun k => bell sd ((k : ℝ) - c)

/-- Gaussian filtering at `(x, y)` with a window of `n1 × n2` samples, the pixel `(x, y)` itself
meeting sample `(o1, o2)`, and the bell curves centred on samples `c1` and `c2`. Filtering without a
displacement is the case `o1 = c1 = (n1 - 1) / 2`, `o2 = c2 = (n2 - 1) / 2`. -/
noncomputable def blur (sd1 sd2 : ℝ) (n1 n2 o1 o2 : Nat) (c1 c2 : ℝ) (F : Int → Int → ℝ) (x y : Nat) : ℝ :=
  (Finset.range n2).sum fun j => (Finset.range n1).sum fun i =>
    bellWeight sd2 c2 n2 j * bellWeight sd1 c1 n1 i * F ((x : Int) + o1 - i) ((y : Int) + o2 - j)

/-- Which of the `n` samples meets the pixel itself when an axis of length `w` is filtered, as decided
by the central crop of the convolution: the middle one, `(n - 1) / 2`, for odd `n`. -/
def offset (w n : Nat) : Nat := (w + n - 1) / 2 - w / 2

/-- The padding asked for can be produced: mirroring needs an image larger than the padding, copying
the border needs a border. -/
def CanPad (b : Boundary) (w h n1 n2 : Nat) : Prop :=
  match b with
  | .constant => True
  | .mirror => n1 < w ∧ n2 < h
  | .replicate => 0 < w ∧ 0 < h

/-- The window length chosen for a standard deviation: two standard deviations, rounded up, to each side of
the middle sample. -/
noncomputable def autoSize (sigma : ℝ) : Nat := 2 * ⌈2 * sigma⌉.toNat + 1

/-- The picture smoothed with standard deviation `sigma` and the window length chosen for it, mirrored at
its borders. The bell curve is centred on sample `(n + 1) / 2` (see `C105_displacement_violation`). -/
noncomputable def smoothed (w h : Nat) (f : Nat → Nat → ℝ) (sigma : ℝ) : Nat → Nat → ℝ :=
  let n := autoSize sigma
  blur sigma sigma n n (offset w n) (offset h n) ((n + 1) / 2 : Nat) ((n + 1) / 2 : Nat) (extend .mirror 0 w h f)

/-- The window for `sigma` is smaller than the picture. -/
def WindowFits (w h : Nat) (sigma : ℝ) : Prop := autoSize sigma < w ∧ autoSize sigma < h

end TinyDIP.Filter
