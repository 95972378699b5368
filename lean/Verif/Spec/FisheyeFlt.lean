import Mathlib.Analysis.SpecialFunctions.Exp

/-!
# The exact radius mapping of the fisheye and exponentials as libraries compute them
-/

namespace TinyDIP.Rnd

/-- The radius to which the fisheye of strength `D0` moves the points of radius `R`: `R exp(-R² / (2 D0²))`. -/
noncomputable def shownRadius (D0 R : ℝ) : ℝ := R * Real.exp (-(R ^ 2 / (2 * D0 ^ 2)))

/-- An exponential as libraries compute it: within the relative error `2 ^ -52` of the exact value. -/
def GoodExp (expo : ℝ → ℝ) : Prop := ∀ x, |expo x - Real.exp x| ≤ 1 / 2 ^ 52 * Real.exp x

end TinyDIP.Rnd
