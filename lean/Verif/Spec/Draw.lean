import Verif.Spec.Grid
import Mathlib.Algebra.Order.Ring.Int
import Mathlib.Algebra.Order.Group.Abs

/-!
# Specification vocabulary: discs, circles and lines on the pixel grid
-/

namespace TinyDIP

/-- `(x, y)` is at distance less than `r` from `(px, py)`. -/
def InDisc (px py r x y : Nat) : Prop :=
  ((x : Int) - px) ^ 2 + ((y : Int) - py) ^ 2 < (r : Int) ^ 2

instance (px py r x y : Nat) : Decidable (InDisc px py r x y) := by unfold InDisc; infer_instance

/-- The offset `(X, Y)` is on the digital circle of radius `r`: with `a` the smaller and `b` the
larger of `|X|` and `|Y|`, `b` is the smallest number for which `(a, b)` is not inside the circle. -/
def OnCircle (r : Nat) (X Y : Int) : Prop :=
  let a := min X.natAbs Y.natAbs
  let b := max X.natAbs Y.natAbs
  r * r ≤ a * a + b * b ∧ a * a + (b - 1) * (b - 1) < r * r

instance (r : Nat) (X Y : Int) : Decidable (OnCircle r X Y) := by unfold OnCircle; infer_instance

/-- Neighbours on the grid: each coordinate differs by at most one. -/
def Adjacent (p q : Int × Int) : Prop := |q.1 - p.1| ≤ 1 ∧ |q.2 - p.2| ≤ 1

/-- `q` is within half a pixel of the line through `p1` and `p2`, measured along the axis on which
the line advances less. -/
def NearLine (p1 p2 q : Int × Int) : Prop :=
  2 * |(p2.1 - p1.1) * (q.2 - p1.2) - (p2.2 - p1.2) * (q.1 - p1.1)| ≤
    max |p2.1 - p1.1| |p2.2 - p1.2|

end TinyDIP
