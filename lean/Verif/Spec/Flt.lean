import Mathlib.Data.Real.Basic

/-!
# Specification vocabulary for sums of floating numbers
-/

namespace TinyDIP.Rnd

/-- The relative error of one rounding to `p` bits: `2 ^ -p`. -/
noncomputable def ulp1 (p : Nat) : ℝ := (2 : ℝ) ^ (-(p : ℤ))

/-- The relative error of `k` roundings, one after the other: `(1 + 2 ^ -p) ^ k - 1`. -/
noncomputable def growth (p k : Nat) : ℝ := (1 + ulp1 p) ^ k - 1

/-- A whole multiple of `2 ^ e`. -/
def Quant (e : ℤ) (x : ℝ) : Prop := ∃ k : ℤ, x = k * (2 : ℝ) ^ e

end TinyDIP.Rnd
