import Verif.Model.Rounded

/-!
# Model: the fisheye root finder in floating arithmetic

`GaussianFisheyeInverseRootFinder<double>` (Interp) with the rounding of every operation. The library's
exponential is a parameter. Simplification, as everywhere with `dbl`: exponents are unbounded.
-/

namespace TinyDIP.Rnd

open TinyDIP

/-- image_operations.h 4492 and 4505: `low + (high - low) / 2.0`. -/
noncomputable def midD (low high : ℝ) : ℝ := dbl (low + dbl (dbl (high - low) / 2))

/-- image_operations.h 4493: `mid * std::exp(-(mid * mid) / (2.0 * D0 * D0))`. -/
noncomputable def fisheyeRadiusD (expo : ℝ → ℝ) (D0 mid : ℝ) : ℝ :=
  dbl (mid * expo (dbl (-dbl (mid * mid) / dbl (dbl (2 * D0) * D0))))

/-- image_operations.h 4490-4503: `iter` steps of bisection; returns the final bracket. -/
noncomputable def bisectD (g : ℝ → ℝ) (rOut : ℝ) : Nat → ℝ → ℝ → ℝ × ℝ
  | 0, low, high => (low, high)
  | iter + 1, low, high =>
    let mid := midD low high
    if g mid < rOut then bisectD g rOut iter mid high else bisectD g rOut iter low mid

/-- image_operations.h 4469-4507 `GaussianFisheyeInverseRootFinder<double>::operator()`. -/
noncomputable def fisheyeRootD (expo : ℝ → ℝ) (rOut D0 : ℝ) : ℝ :=
  if rOut ≤ 0 then 0
  else if rOut ≥ dbl (D0 * expo (-1 / 2)) then D0
  else
    let b := bisectD (fisheyeRadiusD expo D0) rOut 50 0 D0
    midD b.1 b.2

end TinyDIP.Rnd
