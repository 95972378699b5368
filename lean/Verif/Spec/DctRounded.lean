import Mathlib.Analysis.SpecialFunctions.Trigonometric.Basic

/-!
# Cosines and sines as libraries compute them
-/

namespace TinyDIP.Rnd

/-- A cosine as libraries compute it: at most 1 in size and within `2 ^ -52` of the exact value. -/
def GoodCos (cosine : ℝ → ℝ) : Prop := ∀ x, |cosine x| ≤ 1 ∧ |cosine x - Real.cos x| ≤ 1 / 2 ^ 52

/-- A sine as libraries compute it. -/
def GoodSin (sine : ℝ → ℝ) : Prop := ∀ x, |sine x| ≤ 1 ∧ |sine x - Real.sin x| ≤ 1 / 2 ^ 52

end TinyDIP.Rnd
