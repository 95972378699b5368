import Verif.Model.Sift

/-!
# Specification of the key point functions
-/

namespace TinyDIP.Sift

section Field
variable {K : Type} [Field K] [LinearOrder K]

/-- `R` holds between each of the 26 neighbours of `(x, y)` in the middle one of three images and the
value there. -/
def AllNeighbours (R : K → K → Prop) (g : Fin 3 → Nat → Nat → K) (x y : Nat) : Prop :=
  ∀ k x' y', x ≤ x' + 1 → x' ≤ x + 1 → y ≤ y' + 1 → y' ≤ y + 1 → ¬ (k = 1 ∧ x' = x ∧ y' = y) →
    R (g k x' y') (g 1 x y)

/-- A strict maximum or minimum among the 26 neighbours with a magnitude above the threshold. -/
def StrictExtremum (g : Fin 3 → Nat → Nat → K) (x y : Nat) (threshold : K) : Prop :=
  threshold < |g 1 x y| ∧ (AllNeighbours (· < ·) g x y ∨ AllNeighbours (· > ·) g x y)

/-- Finite differences of `f` at `(x, y)`. -/
def gradX (f : Nat → Nat → K) (x y : Nat) : K := (f (x + 1) y - f (x - 1) y) / 2
def gradY (f : Nat → Nat → K) (x y : Nat) : K := (f x (y + 1) - f x (y - 1)) / 2
def hessXX (f : Nat → Nat → K) (x y : Nat) : K := f (x + 1) y + f (x - 1) y - 2 * f x y
def hessYY (f : Nat → Nat → K) (x y : Nat) : K := f x (y + 1) + f x (y - 1) - 2 * f x y
def hessXY (f : Nat → Nat → K) (x y : Nat) : K :=
  (f (x + 1) (y + 1) - f (x + 1) (y - 1) - f (x - 1) (y + 1) + f (x - 1) (y - 1)) / 4

/-- The determinant of the Hessian. -/
def hessDet (f : Nat → Nat → K) (x y : Nat) : K :=
  hessXX f x y * hessYY f x y - hessXY f x y * hessXY f x y

/-- The gradient of the fitted quadratic vanishes at the offset `(u, v)`. -/
def Stationary (f : Nat → Nat → K) (x y : Nat) (u v : K) : Prop :=
  gradX f x y + hessXX f x y * u + hessXY f x y * v = 0 ∧
    gradY f x y + hessXY f x y * u + hessYY f x y * v = 0

/-- The location `keypoint_refinement` computes. -/
def refinedAt (f : Nat → Nat → K) (x y : Nat) : K × K :=
  ((x : K) + (hessXY f x y * gradY f x y - hessXX f x y * gradX f x y) / hessDet f x y,
   (y : K) + (hessXY f x y * gradX f x y - hessYY f x y * gradY f x y) / hessDet f x y)

/-- The contrast and edge test. -/
def PassesFilter (f : Nat → Nat → K) (x y : Nat) (contrast edge : K) : Prop :=
  contrast < f x y ∧
    (hessXX f x y + hessYY f x y) * (hessXX f x y + hessYY f x y) / hessDet f x y < edge

/-- A point that is not on the border of a `w x h` image. -/
def Inner (w h x y : Nat) : Prop := 1 ≤ x ∧ x + 1 < w ∧ 1 ≤ y ∧ y + 1 < h

/-- The image an octave starts from: the input, halved once per octave. -/
def baseOf (resample : Image K → Nat → Nat → Image K) : Nat → Image K → Image K
  | 0, im => im
  | o + 1, im => baseOf resample o (resample im (im.width / 2) (im.height / 2))

end Field

/-- Differences across the pixel `(x, y)` of a `W x H` image, zero outside the image. -/
noncomputable def diffX (f : Nat → Nat → ℝ) (W : Nat) (x y : Nat) : ℝ :=
  (if x + 1 < W then f (x + 1) y else 0) - (if 1 ≤ x then f (x - 1) y else 0)
noncomputable def diffY (f : Nat → Nat → ℝ) (H : Nat) (x y : Nat) : ℝ :=
  (if y + 1 < H then f x (y + 1) else 0) - (if 1 ≤ y then f x (y - 1) else 0)

/-- Length and direction (degrees, between 0 and 360) of the gradient. -/
noncomputable def magnitude (f : Nat → Nat → ℝ) (W H x y : Nat) : ℝ :=
  Real.sqrt (diffX f W x y ^ 2 + diffY f H x y ^ 2)
noncomputable def direction (f : Nat → Nat → ℝ) (W H x y : Nat) : ℝ :=
  Complex.arg ⟨diffX f W x y, diffY f H x y⟩ * (180 / Real.pi) + 180

open Classical in
/-- The share of pixel `(x, y)` in bin `b` of a histogram whose bins are `binOf` the direction. -/
noncomputable def share (f : Nat → Nat → ℝ) (W H : Nat) (binOf : ℝ → Nat) (b x y : Nat) : ℝ :=
  if x < W ∧ y < H ∧ binOf (direction f W H x y) = b then magnitude f W H x y else 0

end TinyDIP.Sift
