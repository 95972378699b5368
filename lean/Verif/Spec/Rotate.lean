import Mathlib.Analysis.SpecialFunctions.Trigonometric.Basic
import Mathlib.Algebra.BigOperators.Group.Finset.Basic

/-!
# Specification of turning a picture by an angle

Pixel coordinates: `x` to the right, `y` down. The centre of a `w × h` picture is
`((w - 1) / 2, (h - 1) / 2)`. Turning by `θ` about the centre carries the offset `(a, b)` from the centre to
`(a cos θ - b sin θ, a sin θ + b cos θ)`.
-/

namespace TinyDIP.Rotation

/-- The size of the smallest picture with whole sides that has room for a `w × h` picture turned by `θ`. -/
noncomputable def size (w h : Nat) (θ : ℝ) : Nat × Nat :=
  (⌈w * |Real.cos θ| + h * |Real.sin θ|⌉₊, ⌈h * |Real.cos θ| + w * |Real.sin θ|⌉₊)

/-- Where the point `(x, y)` of the `w × h` picture goes in the turned `W × H` picture. -/
noncomputable def forward (w h W H : Nat) (θ x y : ℝ) : ℝ × ℝ :=
  ((x - ((w : ℝ) - 1) / 2) * Real.cos θ - (y - ((h : ℝ) - 1) / 2) * Real.sin θ + ((W : ℝ) - 1) / 2,
   (x - ((w : ℝ) - 1) / 2) * Real.sin θ + (y - ((h : ℝ) - 1) / 2) * Real.cos θ + ((H : ℝ) - 1) / 2)

/-- The point of the `w × h` picture seen at `(X, Y)` of the turned `W × H` picture: turned back by `θ`. -/
noncomputable def source (w h W H : Nat) (θ X Y : ℝ) : ℝ × ℝ := forward W H w h (-θ) X Y

/-- Inside the picture: between the centres of its outermost pixels. -/
def Inside (w h : Nat) (p : ℝ × ℝ) : Prop := 0 ≤ p.1 ∧ p.1 ≤ (w : ℝ) - 1 ∧ 0 ≤ p.2 ∧ p.2 ≤ (h : ℝ) - 1

/-- Keys' cubic convolution kernel. -/
noncomputable def keys (d : ℝ) : ℝ :=
  if |d| ≤ 1 then 3 / 2 * |d| ^ 3 - 5 / 2 * |d| ^ 2 + 1
  else if |d| < 2 then -(1 / 2) * |d| ^ 3 + 5 / 2 * |d| ^ 2 - 4 * |d| + 2
  else 0

/-- The kernel of linear interpolation. -/
noncomputable def tent (d : ℝ) : ℝ := max 0 (1 - |d|)

/-- All pixels of the picture `f`, each weighted by the kernel `K` of its distance from `(x, y)` in both
directions. -/
noncomputable def blend (K : ℝ → ℝ) (w h : Nat) (f : Nat → Nat → ℝ) (x y : ℝ) : ℝ :=
  ∑ j ∈ Finset.range h, ∑ i ∈ Finset.range w, f i j * K (x - i) * K (y - j)

open Classical in
/-- The value of the picture `f` at the point `p` inside it: cubic, or linear in the outermost ring, where
the cubic kernel does not fit. -/
noncomputable def valueAt (w h : Nat) (f : Nat → Nat → ℝ) (p : ℝ × ℝ) : ℝ :=
  if 1 ≤ p.1 ∧ p.1 < (w : ℝ) - 2 ∧ 1 ≤ p.2 ∧ p.2 < (h : ℝ) - 2 then blend keys w h f p.1 p.2
  else blend tent w h f p.1 p.2

open Classical in
/-- The picture `f` turned by `θ`: the pixel at `(X, Y)` is the value at the point turned back, converted by
`round`, or `zero` if the point lies outside. -/
noncomputable def picture {α : Type} (round : ℝ → α) (zero : α) (w h : Nat) (f : Nat → Nat → ℝ) (θ : ℝ)
    (X Y : Nat) : α :=
  let p := source w h (size w h θ).1 (size w h θ).2 θ X Y
  if Inside w h p then round (valueAt w h f p) else zero

/-- A number as a byte: limited to 0 … 255, then rounded down. -/
noncomputable def toByte (v : ℝ) : BitVec 8 := BitVec.ofNat 8 ⌊max 0 (min 255 v)⌋₊

end TinyDIP.Rotation
