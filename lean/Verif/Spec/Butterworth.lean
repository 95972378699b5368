import Mathlib.Analysis.SpecialFunctions.Pow.Real

/-!
# The Butterworth fisheye map
-/

namespace TinyDIP.Bw

/-- The contraction factor at distance `d` from the centre: `1 / √(1 + (d / D0)^(2 N))`. -/
noncomputable def factor (D0 N d : ℝ) : ℝ := 1 / Real.sqrt (1 + (d / D0) ^ (2 * N))

/-- Where pixel `(x, y)` of a `w × h` picture goes: towards the centre by the factor, rounded down. -/
noncomputable def target (w h : Nat) (D0 N : ℝ) (x y : Nat) : Nat × Nat :=
  let dx : ℝ := x - w / 2
  let dy : ℝ := y - h / 2
  let k := factor D0 N (Real.sqrt (dx ^ 2 + dy ^ 2))
  (⌊(w : ℝ) / 2 + k * dx⌋₊, ⌊(h : ℝ) / 2 + k * dy⌋₊)

/-- `(x, y)` comes before `(x', y')` in row order. -/
def Before (x y x' y' : Nat) : Prop := y < y' ∨ y = y' ∧ x < x'

end TinyDIP.Bw
