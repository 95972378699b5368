import Verif.Model.CliFit
import Verif.Spec.CliSift
import Verif.Spec.Fit

/-!
# Specification vocabulary for the command estimate_gaussian_params_2d
-/

namespace TinyDIP.Cli

open TinyDIP.Fit

/-- The trailing arguments ask for `n` iterations and the tolerance `tol`; the defaults are 1000 and `1e-7`. -/
def AsksFit (dbl : Str → Option ℝ) (params : List Str) (n : Nat) (tol : ℝ) : Prop :=
  Given params 0 (fun a k => k < 2 ^ 64 ∧ a = Nat.toDigits 10 k) 1000 n ∧ Given params 1 (Reads dbl) 1e-7 tol

/-- The bump the fit starts from: amplitude and position of the first brightest pixel; widths and correlation from
the second moments of the pixels brighter than a tenth of it, or 10, 10 and 0 when no pixel is positive. -/
def StartsAt (w h : Nat) (f : Nat → Nat → ℝ) (p : GaussianParameters2D) : Prop :=
  ∃ X Y, X < w ∧ Y < h ∧ p.x0 = X ∧ p.y0 = Y ∧ p.amplitude = f X Y ∧
    (∀ x y, x < w → y < h → f x y ≤ f X Y) ∧
    (∀ x y, x < w → y < h → y < Y ∨ (y = Y ∧ x < X) → f x y < f X Y) ∧
    (f X Y ≤ 0 → p.sigma_x = 10 ∧ p.sigma_y = 10 ∧ p.rho = 0) ∧
    (0 < f X Y →
      let m := moment w h f (f X Y)
      let mass := m fun _ _ => 1
      p.sigma_x = max 1e-6 (Real.sqrt (m (fun x _ => ((x : ℝ) - X) ^ 2) / mass)) ∧
      p.sigma_y = max 1e-6 (Real.sqrt (m (fun _ y => ((y : ℝ) - Y) ^ 2) / mass)) ∧
      p.rho = max (-0.99) (min 0.99
        (m (fun x y => ((x : ℝ) - X) * ((y : ℝ) - Y)) / mass / (p.sigma_x * p.sigma_y))))

end TinyDIP.Cli
