import Mathlib.Data.Real.Basic
import Mathlib.LinearAlgebra.Matrix.Defs

/-!
# The sizes that rounding errors of a 3×3 inversion are measured by
-/

namespace TinyDIP.LinSpec

/-- The sum of the absolute values of the two products in the cofactor that stands at row `i` and
column `j` of the adjugate. Indices are taken modulo three. -/
noncomputable def absCof (M : Matrix (Fin 3) (Fin 3) ℝ) (i j : Fin 3) : ℝ :=
  |M (j + 1) (i + 1) * M (j + 2) (i + 2)| + |M (j + 1) (i + 2) * M (j + 2) (i + 1)|

/-- The sum of the absolute values of the six products in the determinant. -/
noncomputable def absDet (M : Matrix (Fin 3) (Fin 3) ℝ) : ℝ :=
  |M 0 0 * M 1 1 * M 2 2| + |M 0 1 * M 1 2 * M 2 0| + |M 0 2 * M 1 0 * M 2 1| +
    |M 0 2 * M 1 1 * M 2 0| + |M 0 1 * M 1 0 * M 2 2| + |M 0 0 * M 1 2 * M 2 1|

end TinyDIP.LinSpec
