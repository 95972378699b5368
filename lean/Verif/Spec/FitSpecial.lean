import Verif.Model.FitSpecial

/-!
# Usable results of a fit
-/

namespace TinyDIP.Sp

/-- A width that can be divided by: infinite, or a number of at least one millionth (rounded to double). -/
def Width (v : Dbl) : Prop := v = .pinf ∨ ∃ s : ℝ, v = .num s ∧ Rnd.dbl 1e-6 ≤ s

/-- A correlation strictly between -1 and 1: a number of magnitude at most 0.999 (rounded to double). -/
def Correlation (v : Dbl) : Prop := ∃ r : ℝ, v = .num r ∧ |r| ≤ Rnd.dbl 0.999

/-- Widths and correlation of a result are usable. -/
structure ValidShape (p : ParD) : Prop where
  sigma_x : Width p.sigma_x
  sigma_y : Width p.sigma_y
  rho : Correlation p.rho

end TinyDIP.Sp
