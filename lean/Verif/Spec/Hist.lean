import Verif.Spec.Grid
import Mathlib.Algebra.BigOperators.Intervals
import Mathlib.Algebra.Field.Defs
import Mathlib.Algebra.Order.Ring.Defs

/-!
# Specification vocabulary: histograms
-/

namespace TinyDIP

/-- Number of pixels `(x, y)` of a `w × h` image with pixel function `f` whose value satisfies
`p`. -/
def pixelCount {α : Type} (w h : Nat) (f : Nat → Nat → α) (p : α → Bool) : Nat :=
  ((List.range h).map fun y => ((List.range w).filter fun x => p (f x y)).length).sum

section Otsu
variable {P : Type} [Field P]

/-- Weight of the levels up to `k`, and of the levels above `k`. -/
def lowWeight (h : List P) (k : Nat) : P := ∑ i ∈ Finset.range (k + 1), h.getD i 0
def highWeight (h : List P) (k : Nat) : P := ∑ i ∈ Finset.Ico (k + 1) h.length, h.getD i 0

/-- Mean level of the lower class, and of the upper class. -/
def lowMean (h : List P) (k : Nat) : P :=
  (∑ i ∈ Finset.range (k + 1), h.getD i 0 * (i : P)) / lowWeight h k
def highMean (h : List P) (k : Nat) : P :=
  (∑ i ∈ Finset.Ico (k + 1) h.length, h.getD i 0 * (i : P)) / highWeight h k

/-- Variance between the two classes when the levels are split after `k`. -/
def betweenVar (h : List P) (k : Nat) : P :=
  lowWeight h k * highWeight h k * (lowMean h k - highMean h k) ^ 2

end Otsu
end TinyDIP
