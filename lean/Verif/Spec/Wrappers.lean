import Mathlib.Algebra.BigOperators.Group.Finset.Basic
import Mathlib.Data.Real.Basic
import Verif.Model.Cli

/-!
# Specification: patches, differences and LaTeX text
-/

namespace TinyDIP.Wrap

/-- Pixel `(i, j)` of the `w × h` patch around `(cx, cy)` of a `W × H` picture `f`; black outside. -/
def patchPx (W H : Nat) (f : Nat → Nat → ℝ) (w h cx cy i j : Nat) : ℝ :=
  if (w / 2 ≤ cx + i ∧ cx + i - w / 2 < W) ∧ h / 2 ≤ cy + j ∧ cy + j - h / 2 < H
  then f (cx + i - w / 2) (cy + j - h / 2) else 0

/-- The mean of the squared differences of two `w × h` patches. -/
noncomputable def meanSquare (w h : Nat) (P Q : Nat → Nat → ℝ) : ℝ :=
  (∑ j ∈ Finset.range h, ∑ i ∈ Finset.range w, (P i j - Q i j) ^ 2) / ((w * h : Nat) : ℝ)

/-- The decimal digits of `n`. -/
def dec (n : Nat) : String := toString n

/-- What is drawn for the pixel `(x, y)` with the channels `r`, `g`, `b`. -/
def drawn (x y r g b : Nat) : String :=
  "\\draw (" ++ dec x ++ "," ++ dec y ++ ") node[anchor=south,fill={rgb:red," ++ dec r ++ ";green," ++ dec g ++
    ";blue," ++ dec b ++ "}] {};\n"

end TinyDIP.Wrap
