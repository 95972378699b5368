import Mathlib.Algebra.BigOperators.Group.Finset.Basic
import Mathlib.Data.Real.Archimedean

/-!
# Exact bicubic interpolation
-/

namespace TinyDIP.Rnd

/-- The cubic convolution weight (Catmull and Rom) of a sample at distance `d`. -/
noncomputable def cubicWeight (d : ℝ) : ℝ :=
  if |d| ≤ 1 then 3 / 2 * |d| ^ 3 - 5 / 2 * |d| ^ 2 + 1
  else if |d| ≤ 2 then -1 / 2 * |d| ^ 3 + 5 / 2 * |d| ^ 2 - 4 * |d| + 2
  else 0

/-- The weighted mean of the 4 x 4 samples around the position `(x, y)`. -/
noncomputable def cubicMean (f : Nat → Nat → ℝ) (x y : ℝ) : ℝ :=
  ∑ j ∈ Finset.range 4, (∑ i ∈ Finset.range 4,
    f (⌊x⌋₊ - 1 + i) (⌊y⌋₊ - 1 + j) * cubicWeight (x - (⌊x⌋₊ - 1 + i : Nat))) * cubicWeight (y - (⌊y⌋₊ - 1 + j : Nat))

end TinyDIP.Rnd
