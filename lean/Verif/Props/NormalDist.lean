import Verif.Model.NormalDist
import Verif.Props.Fit
import Mathlib.Analysis.SpecialFunctions.Gaussian.GaussianIntegral
import Mathlib.MeasureTheory.Integral.Prod

/-!
# Property C227: the normal distributions are densities

Full statement of C227: `normalDistribution1D`, `normalDistribution2D` and the surface rendered by `gaussianFigure2D` with
parameters are probability densities: nowhere negative, and with integral one (times the normalisation factor passed to
`gaussianFigure2D`). For complex arguments that are real, `normalDistribution1D` has the value for real arguments.

For `normalDistribution1D` this is false: the factor is missing.
-/

namespace TinyDIP.Props

open TinyDIP Filter NormalDist Fit MeasureTheory

/-! ## C227 -/

theorem gauss_line {s : ℝ} (hs : 0 < s) : ∫ x : ℝ, Real.exp (-x * x / (2 * s * s)) = s * Real.sqrt (2 * Real.pi) := by
  have e : (fun x : ℝ => Real.exp (-x * x / (2 * s * s))) = fun x => Real.exp (-(1 / (2 * s * s)) * x ^ 2) := by
    funext x
    congr 1
    ring
  rw [e, integral_gaussian]
  have : Real.pi / (1 / (2 * s * s)) = s ^ 2 * (2 * Real.pi) := by
    field_simp
  rw [this, Real.sqrt_mul (by positivity), Real.sqrt_sq hs.le]

theorem root_square : Real.sqrt (2 * Real.pi) * Real.sqrt (2 * Real.pi) = 2 * Real.pi :=
  Real.mul_self_sqrt (by positivity)

/-- `normalDistribution2D` is a probability density on the plane for every positive standard deviation, and is greatest at
the origin. -/
theorem C227_plane {sd : ℝ} (hs : 0 < sd) : (∀ x y, 0 < normal2D x y sd) ∧ (∫ z : ℝ × ℝ, normal2D z.1 z.2 sd) = 1 ∧
    (∀ x y, normal2D x y sd ≤ normal2D 0 0 sd) ∧ normal2D 0 0 sd = 1 / (2 * Real.pi * sd ^ 2) := by
  have hpi := Real.pi_pos
  refine ⟨fun x y => ?_, ?_, fun x y => ?_, ?_⟩
  · unfold normal2D
    positivity
  · have e : (fun z : ℝ × ℝ => normal2D z.1 z.2 sd) = fun z =>
        (Real.exp (-z.1 * z.1 / (2 * sd * sd)) / (2 * Real.pi * sd * sd)) * Real.exp (-z.2 * z.2 / (2 * sd * sd)) := by
      funext z
      unfold normal2D
      rw [div_mul_eq_mul_div, ← Real.exp_add]
      congr 2
      ring
    rw [e, Measure.volume_eq_prod, integral_prod_mul (fun x : ℝ => Real.exp (-x * x / (2 * sd * sd)) /
      (2 * Real.pi * sd * sd)) (fun y : ℝ => Real.exp (-y * y / (2 * sd * sd))), integral_div, gauss_line hs]
    have := root_square
    field_simp
    nlinarith
  · unfold normal2D
    refine div_le_div_of_nonneg_right (Real.exp_le_exp.2 ?_) (by positivity)
    have h1 := mul_self_nonneg x
    have h2 := mul_self_nonneg y
    refine div_le_div_of_nonneg_right ?_ (by positivity)
    linarith
  · unfold normal2D
    simp
    ring

/-- Violation: the integral of `normalDistribution1D` over the line is `σ √(2π)`; it is a density for one standard
deviation only, and its greatest value is one for all of them. -/
theorem C227_line_violation {sd : ℝ} (hs : 0 < sd) : (∫ x : ℝ, normal1D x sd) = sd * Real.sqrt (2 * Real.pi) ∧
    ((∫ x : ℝ, normal1D x sd) = 1 ↔ sd = 1 / Real.sqrt (2 * Real.pi)) ∧ normal1D 0 sd = 1 ∧
    ∀ x, normal1D x sd ≤ 1 := by
  have e : (∫ x : ℝ, normal1D x sd) = sd * Real.sqrt (2 * Real.pi) := gauss_line hs
  have hp : (0 : ℝ) < Real.sqrt (2 * Real.pi) := Real.sqrt_pos.2 (by positivity)
  refine ⟨e, ?_, by simp [normal1D], fun x => ?_⟩
  · rw [e, eq_div_iff hp.ne']
  · unfold normal1D
    rw [Real.exp_le_one_iff]
    have := mul_self_nonneg x
    refine div_nonpos_of_nonpos_of_nonneg (by linarith) (by positivity)

/-- For complex arguments that are real the value is the one for real arguments, and it does not depend on the signs. -/
theorem C227_complex (x sd : ℝ) (z s : ℂ) : normal1DC x sd = (normal1D x sd : ℂ) ∧ normal1DC (-z) s = normal1DC z s ∧
    normal1DC z (-s) = normal1DC z s := by
  refine ⟨?_, ?_, ?_⟩
  · unfold normal1DC normal1D
    push_cast
    rfl
  · unfold normal1DC
    congr 2
    ring
  · unfold normal1DC
    congr 2
    ring

theorem bump_volume (q : GaussianParameters2D) (hx : 0 < q.sigma_x) (hy : 0 < q.sigma_y) (hr : q.rho ^ 2 < 1) :
    (∫ y : ℝ, ∫ x : ℝ, gaussianAt q x y) =
      q.amplitude * (2 * Real.pi * q.sigma_x * q.sigma_y * Real.sqrt (1 - q.rho ^ 2)) := by
  have hr' : 0 < 1 - q.rho ^ 2 := by linarith
  have hq := Real.sqrt_pos.2 hr'
  have sq := Real.mul_self_sqrt hr'.le
  set s := q.sigma_x * Real.sqrt (1 - q.rho ^ 2) with hs
  have s0 : 0 < s := mul_pos hx hq
  have ss : s * s = q.sigma_x ^ 2 * (1 - q.rho ^ 2) := by
    rw [hs, mul_mul_mul_comm, sq]
    ring
  have inner : ∀ y : ℝ, (∫ x : ℝ, gaussianAt q x y) =
      (q.amplitude * (s * Real.sqrt (2 * Real.pi))) *
        Real.exp (-(y - q.y0) * (y - q.y0) / (2 * q.sigma_y * q.sigma_y)) := by
    intro y
    set c := q.x0 + q.rho * ((y - q.y0) / q.sigma_y) * q.sigma_x with hc
    have e : (fun x : ℝ => gaussianAt q x y) = fun x =>
        (q.amplitude * Real.exp (-(y - q.y0) * (y - q.y0) / (2 * q.sigma_y * q.sigma_y))) *
          (fun t : ℝ => Real.exp (-t * t / (2 * s * s))) (x - c) := by
      funext x
      simp only [gaussianAt]
      rw [mul_assoc q.amplitude (Real.exp _) (Real.exp _), ← Real.exp_add]
      congr 2
      rw [mul_assoc 2 s s, ss, hc]
      have a := hx.ne'
      have b := hy.ne'
      have d := hr'.ne'
      field_simp
      ring
    rw [e, integral_const_mul, integral_sub_right_eq_self (fun t : ℝ => Real.exp (-t * t / (2 * s * s))) c, gauss_line s0]
    ring
  simp only [inner]
  rw [integral_const_mul, integral_sub_right_eq_self (fun t : ℝ => Real.exp (-t * t / (2 * q.sigma_y * q.sigma_y))) q.y0,
    gauss_line hy, hs]
  have := root_square
  calc _ = q.amplitude * q.sigma_x * q.sigma_y * Real.sqrt (1 - q.rho ^ 2) *
        (Real.sqrt (2 * Real.pi) * Real.sqrt (2 * Real.pi)) := by ring
    _ = _ := by rw [this]; ring

/-- The figure drawn with parameters shows, at the pixels, a Gaussian surface with the centre, widths and correlation
given, whose volume is the normalisation factor. -/
theorem C227_volume {xsize ysize : Nat} (hx : xsize < 2 ^ 64) (hy : ysize < 2 ^ 64) (hxy : xsize * ysize < 2 ^ 64)
    (p : GaussianParameters2D) (hsx : 0 < p.sigma_x) (hsy : 0 < p.sigma_y) (hr : p.rho ^ 2 < 1) (nf : ℝ) {rows : List Nat}
    (hrows : rows.Perm (List.range ysize)) :
    ∃ (out : Image ℝ) (a : ℝ), Fit.gaussianFigure2D rows xsize ysize p nf = .ok out ∧
      (out.Shows xsize ysize fun x y => gaussianAt { p with amplitude := a } x y) ∧
      (∫ y : ℝ, ∫ x : ℝ, gaussianAt { p with amplitude := a } x y) = nf := by
  obtain ⟨out, e, s⟩ := C100_render_partial hx hy hxy p hsx hsy hr nf hrows
  refine ⟨out, _, e, s, ?_⟩
  refine (bump_volume ⟨nf / (2 * Real.pi * p.sigma_x * p.sigma_y * Real.sqrt (1 - p.rho ^ 2)), p.x0, p.y0,
    p.sigma_x, p.sigma_y, p.rho⟩ hsx hsy hr).trans ?_
  have hq := Real.sqrt_pos.2 (show 0 < 1 - p.rho ^ 2 by linarith)
  have hpi := Real.pi_pos
  exact div_mul_cancel₀ _ (by positivity)

example := C227_plane (sd := 3) (by norm_num)

example := C227_line_violation (sd := 3) (by norm_num)

example := C227_volume (xsize := 3) (ysize := 2) (by decide) (by decide) (by decide) ⟨2, 1, 1, 3, 4, 1 / 2⟩
  (by norm_num) (by norm_num) (by norm_num) 1 (rows := [1, 0]) (by decide)

end TinyDIP.Props
