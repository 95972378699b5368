import Verif.Model.Res
import Mathlib.Analysis.Real.Sqrt

/-!
# What the distances mean
-/

namespace TinyDIP.Distance

/-- The Euclidean distance of two sequences of numbers. -/
noncomputable def l2 (l m : List ℝ) : ℝ := Real.sqrt (List.zipWith (fun x y => (x - y) ^ 2) l m).sum

/-- The sum of the absolute differences. -/
noncomputable def l1 (l m : List ℝ) : ℝ := (List.zipWith (fun x y => |x - y|) l m).sum

end TinyDIP.Distance
