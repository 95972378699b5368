import Verif.Spec.Filter
import Mathlib.Analysis.SpecialFunctions.Trigonometric.Sinc

/-!
# Specification of resampling
-/

namespace TinyDIP.Resample

open Finset

/-- The weights of the four samples around a point at distance `t` from the second one. -/
noncomputable def cubicWeight (t : ℝ) : Nat → ℝ
  | 0 => -t + 2 * t ^ 2 - t ^ 3
  | 1 => 1 - 2 * t ^ 2 + t ^ 3
  | 2 => t + t ^ 2 - t ^ 3
  | 3 => -t ^ 2 + t ^ 3
  | _ => 0

/-- The `w × h` picture `f` continued over its borders by its border pixels. -/
def edge {α : Type} (w h : Nat) (f : Nat → Nat → α) (x y : Int) : α :=
  f (Filter.clampInt w x) (Filter.clampInt h y)

/-- The bicubic value at the point `(u, v)`, from the 4 × 4 samples around it. -/
noncomputable def cubicAt (w h : Nat) (f : Nat → Nat → ℝ) (u v : ℝ) : ℝ :=
  (range 4).sum fun j => cubicWeight (Int.fract v) j *
    (range 4).sum fun i => cubicWeight (Int.fract u) i *
      edge w h f (⌊u⌋ + ((i : Int) - 1)) (⌊v⌋ + ((j : Int) - 1))

/-- `v` limited to `[lo, hi]`. -/
noncomputable def limit (lo hi v : ℝ) : ℝ := max lo (min hi v)

/-- The Lanczos window of `a` lobes: `sinc x · sinc (x / a)` for `|x| < a`. -/
noncomputable def lanczosWindow (a : Nat) (x : ℝ) : ℝ :=
  if |x| < a then Real.sinc (Real.pi * x) * Real.sinc (Real.pi * x / a) else 0

/-- The weights at a point `u` of its `2 a` neighbours: `K` of the distance to the integer
`⌊u⌋ - a + 1 + k`. -/
noncomputable def tap (K : ℝ → ℝ) (a : Nat) (u : ℝ) (k : Nat) : ℝ :=
  K (u - ((⌊u⌋ - (a : Int) + 1 + (k : Int) : Int) : ℝ))

/-- The average of the `2 a × 2 a` samples around `(u, v)`, weighted by `K` of the distances. -/
noncomputable def windowAverage (K : ℝ → ℝ) (a w h : Nat) (f : Nat → Nat → ℝ) (u v : ℝ) : ℝ :=
  ((range (2 * a)).sum fun j => (range (2 * a)).sum fun i =>
    edge w h f (⌊u⌋ - (a : Int) + 1 + (i : Int)) (⌊v⌋ - (a : Int) + 1 + (j : Int)) *
      (tap K a u i * tap K a v j)) /
  ((range (2 * a)).sum fun j => (range (2 * a)).sum fun i => tap K a u i * tap K a v j)

end TinyDIP.Resample
