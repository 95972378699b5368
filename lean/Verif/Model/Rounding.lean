import Mathlib.Data.Int.Log
import Mathlib.Data.Real.Basic
import Mathlib.Data.Real.Archimedean
import Mathlib.Algebra.Order.Floor.Ring

/-!
# Floating-point arithmetic

The other models compute with exact real numbers. Here every operation rounds as IEEE 754 prescribes: the
result of `+ - * /` and `sqrt` is the exact result rounded to the nearest number with a significand of `p` bits,
ties to even. Simplifications: the exponent is unbounded (no overflow, no underflow), signed zeros are one zero,
and there are no infinities and NaNs.
-/

namespace TinyDIP.Rnd

/-- The nearest integer, ties to the even one: IEEE 754, `roundTiesToEven`. Not from the repository: the
rounding of the arithmetic of image_operations.h. -/
noncomputable def roundEven (x : ℝ) : ℤ :=
  if x - ⌊x⌋ < 1 / 2 then ⌊x⌋
  else if 1 / 2 < x - ⌊x⌋ then ⌊x⌋ + 1
  else if ⌊x⌋ % 2 = 0 then ⌊x⌋ else ⌊x⌋ + 1

/-- `x` rounded to a number with `p` significant bits (`double`: 53; `long double`: 64 on x86, 53 elsewhere):
what every operation of the program on such numbers does to the exact result. Not from the repository: the
arithmetic of image_operations.h, for example 2246. -/
noncomputable def fl (p : Nat) (x : ℝ) : ℝ :=
  roundEven (x / (2 : ℝ) ^ (Int.log 2 |x| + 1 - p)) * (2 : ℝ) ^ (Int.log 2 |x| + 1 - p)

end TinyDIP.Rnd
