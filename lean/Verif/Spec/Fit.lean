import Verif.Model.Fit
import Verif.Spec.Grid
import Mathlib.Algebra.BigOperators.Group.Finset.Basic
import Mathlib.Analysis.Calculus.Deriv.Basic

/-!
# Specification vocabulary: the Gaussian fit
-/

namespace TinyDIP.Fit

/-- The value at `(x, y)` of the Gaussian bump with these parameters. -/
noncomputable def gaussianAt (p : GaussianParameters2D) (x y : ℝ) : ℝ :=
  let u := (x - p.x0) / p.sigma_x
  let v := (y - p.y0) / p.sigma_y
  p.amplitude * Real.exp (-(u ^ 2 - 2 * p.rho * u * v + v ^ 2) / (2 * (1 - p.rho ^ 2)))

/-- The squared error between the `w × h` image `f` and the bump. -/
noncomputable def squaredError (w h : Nat) (f : Nat → Nat → ℝ) (p : GaussianParameters2D) : ℝ :=
  ∑ y ∈ Finset.range h, ∑ x ∈ Finset.range w, (f x y - gaussianAt p x y) ^ 2

/-- The parameters describe a bump: widths at least `1e-6`, correlation at most `0.999`. -/
structure Proper (p : GaussianParameters2D) : Prop where
  sigma_x : 1e-6 ≤ p.sigma_x
  sigma_y : 1e-6 ≤ p.sigma_y
  rho : |p.rho| ≤ 0.999

/-- The parameters moved by `t` along the direction `d` (amplitude, x0, y0, sigma_x, sigma_y,
rho). -/
def along (p : GaussianParameters2D) (d : Nat → ℝ) (t : ℝ) : GaussianParameters2D :=
  ⟨p.amplitude + t * d 0, p.x0 + t * d 1, p.y0 + t * d 2, p.sigma_x + t * d 3, p.sigma_y + t * d 4,
    p.rho + t * d 5⟩

/-- The nearest parameters the fit allows: widths made positive and at least `1e-6`, correlation
limited to `[-0.999, 0.999]`. -/
noncomputable def limited (p : GaussianParameters2D) : GaussianParameters2D :=
  { p with
    sigma_x := max 1e-6 |p.sigma_x|
    sigma_y := max 1e-6 |p.sigma_y|
    rho := max (-0.999) (min 0.999 p.rho) }

/-- The direction of the parameter number `i`. -/
def unit (i : Nat) : Nat → ℝ := fun j => if j = i then 1 else 0

/-- The partial derivative of the bump's value at `(x, y)` with respect to parameter number `i`. -/
noncomputable def partialAt (p : GaussianParameters2D) (x y : ℝ) (i : Nat) : ℝ :=
  deriv (fun t => gaussianAt (along p (unit i) t) x y) 0

/-- The sum of `g x y * f x y` over the pixels brighter than a tenth of `A`. -/
noncomputable def moment (w h : Nat) (f : Nat → Nat → ℝ) (A : ℝ) (g : Nat → Nat → ℝ) : ℝ :=
  open scoped Classical in
  ∑ y ∈ Finset.range h, ∑ x ∈ Finset.range w, if A / 10 < f x y then g x y * f x y else 0

/-- Sum over the pixels of the product of the partial derivatives `i` and `j`. -/
noncomputable def normalMatrix (w h : Nat) (p : GaussianParameters2D) (i j : Nat) : ℝ :=
  ∑ y ∈ Finset.range h, ∑ x ∈ Finset.range w, partialAt p x y i * partialAt p x y j

/-- Sum over the pixels of the partial derivative `i` times the residual. -/
noncomputable def normalRhs (w h : Nat) (f : Nat → Nat → ℝ) (p : GaussianParameters2D) (i : Nat) : ℝ :=
  ∑ y ∈ Finset.range h, ∑ x ∈ Finset.range w, partialAt p x y i * (f x y - gaussianAt p x y)

/-- `d` solves the damped normal equations `(N + lam * D) d = r` in the six parameters, where `D` is
the diagonal of `N` with entries below `1e-24` replaced by one. -/
noncomputable def SolvesDamped (w h : Nat) (f : Nat → Nat → ℝ) (p : GaussianParameters2D) (lam : ℝ)
    (d : Nat → ℝ) : Prop :=
  ∀ i < 6, ∑ j ∈ Finset.range 6, normalMatrix w h p i j * d j +
    lam * (open scoped Classical in
      if normalMatrix w h p i i < 1e-24 then 1 else normalMatrix w h p i i) * d i =
    normalRhs w h f p i

/-- Every reduction visits every pixel once: `order` is a rearrangement of all indices. -/
def Covers (n : Nat) (order : List Nat) : Prop := order.Perm (List.range n)

end TinyDIP.Fit
