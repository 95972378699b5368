import Verif.Model.Filter
import Mathlib.Analysis.SpecialFunctions.Complex.Circle
import Mathlib.Analysis.Real.Pi.Bounds

/-!
# The normal distributions (image_operations.h 2181-2210)

Floating point is modelled by exact real and complex numbers. The version for real numbers in one dimension is
`Filter.normal1D`.
-/

namespace TinyDIP.NormalDist

/-- image_operations.h 2196-2202 `normalDistribution1D` of complex numbers. -/
noncomputable def normal1DC (x sd : ℂ) : ℂ := Complex.exp (-x * x / (2 * sd * sd))

/-- image_operations.h 2204-2209 `normalDistribution2D`. -/
noncomputable def normal2D (x y sd : ℝ) : ℝ :=
  Real.exp (-(x * x + y * y) / (2 * sd * sd)) / (2 * Real.pi * sd * sd)

end TinyDIP.NormalDist
