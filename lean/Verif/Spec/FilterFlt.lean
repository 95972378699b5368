import Mathlib.Data.Real.Basic
import Mathlib.Algebra.BigOperators.Group.Finset.Basic

/-!
# Specification vocabulary for Gaussian filtering with rounded arithmetic
-/

namespace TinyDIP.Filter

/-- `a` and `b` are not negative, and neither is smaller than `r` times the other. -/
def Near (r a b : ℝ) : Prop := 0 ≤ a ∧ 0 ≤ b ∧ r * a ≤ b ∧ r * b ≤ a

/-- The average of the picture `F` around `(x, y)`, with weights proportional to `m1` and `m2` along the two directions,
the pixel `(x, y)` itself meeting sample `(o1, o2)`. -/
noncomputable def average (m1 m2 : Nat → ℝ) (n1 n2 o1 o2 : Nat) (F : Int → Int → ℝ) (x y : Nat) : ℝ :=
  (Finset.range n2).sum fun j => (Finset.range n1).sum fun i =>
    (m2 j / (Finset.range n2).sum m2) * (m1 i / (Finset.range n1).sum m1) * F ((x : Int) + o1 - i) ((y : Int) + o2 - j)

end TinyDIP.Filter
