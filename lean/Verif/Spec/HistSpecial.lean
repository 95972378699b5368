import Verif.Spec.Special
import Verif.Model.HistSpecial

/-!
# A histogram with bins of a picture of `double`
-/

namespace TinyDIP.Sp

/-- The value `v` lies in the interval number `b` of the `bins` equal parts of `[0, max]`, widened on both sides by
four relative rounding errors of `double`. -/
def NearBin (bins : Nat) (max v : ℝ) (b : Nat) : Prop :=
  b * (max / bins) * (1 - 4 / 2 ^ 53) ≤ v ∧ v ≤ (b + 1) * (max / bins) * (1 + 4 / 2 ^ 53)

end TinyDIP.Sp
