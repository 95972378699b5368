import Mathlib.Analysis.SpecialFunctions.Trigonometric.Inverse

/-!
# What survives rounding
-/

namespace TinyDIP.Rnd

/-- `i` is the proportional position of `x` when `new` pixels are made of `old` pixels, or the one before it;
the latter only if the exact position is a whole number. -/
def Near (old new x i : Nat) : Prop :=
  i = x * old / new ∨ (new ∣ x * old ∧ i + 1 = x * old / new)

/-- A level between `lo` and `hi`, or one less than `lo`. -/
def OneBelow (lo hi v : Nat) : Prop := lo ≤ v + 1 ∧ v ≤ hi

/-- An arc cosine as libraries compute it: for arguments from -1 to 1 the result is not negative, at most the
`double` nearest to pi, and within `2 ^ -50` of the exact value. -/
def GoodAcos (piD : ℝ) (acos : ℝ → ℝ) : Prop :=
  ∀ x, -1 ≤ x → x ≤ 1 → 0 ≤ acos x ∧ acos x ≤ piD ∧ |acos x - Real.arccos x| ≤ 1 / 2 ^ 50

end TinyDIP.Rnd
