import Mathlib.Analysis.SpecialFunctions.Trigonometric.Inverse
import Verif.Model.Elementwise

/-!
# What the functions mean, without their formulas

`none` is a result that is not a finite number.
-/

namespace TinyDIP.Spec.Elem

open TinyDIP.Elem

/-- `r` is the value of the function at `x` wherever the function has one. -/
def IsTrig : Trig → ℝ → Option ℝ → Prop
  | .sin, x, r => r = some (Real.sin x)
  | .cos, x, r => r = some (Real.cos x)
  | .tan, x, r => Real.cos x ≠ 0 → r = some (Real.sin x / Real.cos x)
  | .cot, x, r => Real.sin x ≠ 0 → r = some (Real.cos x / Real.sin x)
  | .sec, x, r => Real.cos x ≠ 0 → ∃ y, r = some y ∧ y * Real.cos x = 1
  | .csc, x, r => Real.sin x ≠ 0 → ∃ y, r = some y ∧ y * Real.sin x = 1

/-- The same for complex numbers. -/
def IsTrigC : Trig → ℂ → Option ℂ → Prop
  | .sin, x, r => r = some (Complex.sin x)
  | .cos, x, r => r = some (Complex.cos x)
  | .tan, x, r => Complex.cos x ≠ 0 → r = some (Complex.sin x / Complex.cos x)
  | .cot, x, r => Complex.sin x ≠ 0 → r = some (Complex.cos x / Complex.sin x)
  | .sec, x, r => Complex.cos x ≠ 0 → ∃ y, r = some y ∧ y * Complex.cos x = 1
  | .csc, x, r => Complex.sin x ≠ 0 → ∃ y, r = some y ∧ y * Complex.sin x = 1

/-- The inverse functions: the angle in the principal range whose sine or cosine is `x`; no number
outside [-1, 1]. -/
def IsInv : Inv → ℝ → Option ℝ → Prop
  | .asin, x, r => (|x| ≤ 1 → ∃ y, r = some y ∧ Real.sin y = x ∧ -(Real.pi / 2) ≤ y ∧ y ≤ Real.pi / 2) ∧
      (1 < |x| → r = none)
  | .acos, x, r => (|x| ≤ 1 → ∃ y, r = some y ∧ Real.cos y = x ∧ 0 ≤ y ∧ y ≤ Real.pi) ∧
      (1 < |x| → r = none)

end TinyDIP.Spec.Elem
