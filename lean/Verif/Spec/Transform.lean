import Verif.Model.Transform
import Verif.Spec.Grid

/-!
# Specification vocabulary for the Fourier and cosine transforms
-/

namespace TinyDIP

open Finset

/-- The unitary two-dimensional discrete Fourier transform of `f` at `(x, y)`. -/
noncomputable def dftVal (w h : Nat) (f : Nat → Nat → ℂ) (x y : Nat) : ℂ :=
  (Real.sqrt (1 / (w * h : ℝ)) : ℂ) * ∑ n ∈ range h, ∑ m ∈ range w,
    f m n * Complex.exp (-(2 * Real.pi * Complex.I * ((x * m : ℝ) / w + (y * n : ℝ) / h)))

/-- The unitary inverse transform. -/
noncomputable def idftVal (w h : Nat) (f : Nat → Nat → ℂ) (x y : Nat) : ℂ :=
  (Real.sqrt (1 / (w * h : ℝ)) : ℂ) * ∑ n ∈ range h, ∑ m ∈ range w,
    f m n * Complex.exp (2 * Real.pi * Complex.I * ((x * m : ℝ) / w + (y * n : ℝ) / h))

/-- A stack of `w × h` images: pixel `(x, y)` of plane `z` is `g z x y`. -/
def StackShows (l : List (Image ℝ)) (w h : Nat) (g : Nat → Nat → Nat → ℝ) : Prop :=
  ∀ z, z < l.length → ∃ im, l[z]? = some im ∧ im.Shows w h (g z)

/-- The cosine basis: `cos((2p + 1) k π / (2N))`. -/
noncomputable def cosB (N p k : Nat) : ℝ := Real.cos (Real.pi / (2 * N) * (2 * p + 1) * k)

/-- The scaled three-dimensional cosine transform of `g` at `(x, y)` in plane `z`. -/
noncomputable def dctVal (w h d : Nat) (g : Nat → Nat → Nat → ℝ) (z x y : Nat) : ℝ :=
  8 * dctAlpha z * dctAlpha y * dctAlpha x * (∑ z' ∈ range d, ∑ y' ∈ range h, ∑ x' ∈ range w,
    g z' x' y' * cosB w x' x * cosB h y' y * cosB d z' z) / (w * h * d)

/-- The cosine expansion with coefficients `g`. -/
noncomputable def idctVal (w h d : Nat) (g : Nat → Nat → Nat → ℝ) (z x y : Nat) : ℝ :=
  ∑ z' ∈ range d, ∑ y' ∈ range h, ∑ x' ∈ range w, dctAlpha x' * dctAlpha y' * dctAlpha z' *
    g z' x' y' * cosB w x x' * cosB h y y' * cosB d z z'

end TinyDIP
