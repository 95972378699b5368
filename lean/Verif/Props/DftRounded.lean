import Verif.Lemmas.DftRounded
import Verif.Props.DctRounded
import Verif.Props.Transform

/-!
# Property C201: the Fourier transform in the arithmetic of long double
-/

namespace TinyDIP.Props

open TinyDIP TinyDIP.Rnd TinyDIP.Color

theorem norm_of_parts {z : ℂ} {e E : ℝ} (h1 : |z.re| ≤ e) (h2 : |z.im| ≤ e) (hE : 0 ≤ E)
    (h : 2 * e ^ 2 ≤ E ^ 2) : ‖z‖ ≤ E := by
  have a := sq_le_sq' (abs_le.mp h1).1 (abs_le.mp h1).2
  have b := sq_le_sq' (abs_le.mp h2).1 (abs_le.mp h2).2
  refine (pow_le_pow_iff_left₀ (norm_nonneg _) hE two_ne_zero).1 ?_
  rw [← Complex.normSq_eq_norm_sq, Complex.normSq_apply]
  nlinarith

/-- For every 8-bit picture of at most 1024 x 1024 pixels and every `long double` of at least 53 bits: `dft2` gives
the coefficients of the unitary Fourier transform up to `5 / 10 ^ 8` times the square root of the number of pixels,
`idft2` of them gives the picture back up to `16 / 10 ^ 8` times the number of pixels, and each real part rounds to
the level of the pixel. -/
theorem C201_round_trip (p : Nat) (hp : 53 ≤ p) (cosine sine : ℝ → ℝ) (hc : GoodCos cosine) (hs : GoodSin sine)
    (im : Image (BitVec 8)) (w h : Nat) (f : Nat → Nat → BitVec 8) (s : im.Shows w h f) (hw : 0 < w) (hh : 0 < h)
    (hw' : w ≤ 1024) (hh' : h ≤ 1024) :
    ∃ mid back F R, dft2L p cosine sine im = .ok mid ∧ mid.Shows w h F ∧
      (∀ x y, x < w → y < h → ‖F x y - dftVal w h (fun x y => ((f x y).toNat : ℂ)) x y‖ ≤
        5 / 10 ^ 8 * Real.sqrt (w * h)) ∧
      idft2L p cosine sine mid = .ok back ∧ back.Shows w h R ∧
      (∀ x y, x < w → y < h → ‖R x y - (f x y).toNat‖ ≤ 16 / 10 ^ 8 * (w * h) ∧
        ⌊(R x y).re + 1 / 2⌋ = (f x y).toNat) := by
  obtain ⟨mid, F, e1, s1, b1⟩ := dft2L_shows hp hc hs s hw hh hw' hh'
  have hreal : (fun x y => (real8 (f x y) : ℂ)) = fun x y => ((f x y).toNat : ℂ) := by
    funext x y; rw [real8]; push_cast; rfl
  have b1' : ∀ x y, x < w → y < h → _ := fun x y hx hy => (⟨(b1 x y hx hy).1, (b1 x y hx hy).2,
    dftVal_norm (x := x) (y := y) (fun x y => real8 (f x y)) hw hh (fun x y _ _ => by
      have := (f x y).isLt
      have h255 : (f x y).toNat ≤ 255 := by omega
      rw [real8, abs_of_nonneg (Nat.cast_nonneg _)]
      exact_mod_cast h255)⟩ : _ ∧ _ ∧ _)
  obtain ⟨back, R, e2, s2, b2⟩ := idft2L_shows hp hc hs s1 hw hh hw' hh' b1'
  refine ⟨mid, back, F, R, e1, s1, fun x y hx hy => ?_, e2, s2, fun x y hx hy => ?_⟩
  · rw [← hreal]
    obtain ⟨c1, c2⟩ := b1 x y hx hy
    have q0 := Real.sqrt_nonneg (w * h : ℝ)
    refine norm_of_parts (e := Real.sqrt (w * h) * (35 / 10 ^ 9)) (by rwa [Complex.sub_re])
      (by rwa [Complex.sub_im]) (by positivity) ?_
    rw [mul_pow, mul_pow]
    nlinarith [sq_nonneg (Real.sqrt (w * h : ℝ))]
  · obtain ⟨c1, c2⟩ := b2 x y hx hy
    rw [idft_dft hw hh _ hx hy] at c1 c2
    have n0 : (0 : ℝ) ≤ w * h := by positivity
    have n1 : (w * h : ℝ) ≤ 1024 * 1024 := by exact_mod_cast Nat.mul_le_mul hw' hh'
    have hr : (real8 (f x y) : ℂ) = ((f x y).toNat : ℂ) := congrFun (congrFun hreal x) y
    constructor
    · rw [← hr]
      refine norm_of_parts (e := w * h * (112 / 10 ^ 9)) (by rwa [Complex.sub_re])
        (by rwa [Complex.sub_im]) (by positivity) ?_
      rw [mul_pow, mul_pow]
      nlinarith [sq_nonneg (w * h : ℝ)]
    · rw [hr, Complex.natCast_re, abs_le] at c1
      have e := c1.1
      have e' := c1.2
      rw [Int.floor_eq_iff]
      push_cast
      norm_num at e e'
      constructor <;> linarith

theorem goodSin_rounded : GoodSin fun x => dbl (Real.sin x) := by
  intro x
  have h1 := Real.abs_sin_le_one x
  constructor
  · rw [abs_le]
    constructor
    · have := dbl_mono (Real.neg_one_le_sin x)
      have h : dbl (-1 : ℝ) = -1 := by rw [dbl, fl_neg]; exact congrArg _ dbl_one
      rwa [h] at this
    · have := dbl_mono (Real.sin_le_one x)
      rwa [dbl_one] at this
  · refine (dbl_err _).trans ((mul_le_mul_of_nonneg_left h1 eps_pos.le).trans ?_)
    unfold eps
    norm_num

/-- The claim on a 3 x 2 picture, with the 64 bits of x86 and correctly rounded sines and cosines. -/
example := C201_round_trip 64 (by norm_num) cosR (fun x => dbl (Real.sin x)) goodCos_cosR goodSin_rounded _ 3 2 _
  (picture_shows 3 2 fun x y => BitVec.ofNat 8 (100 * x + y)) (by norm_num) (by norm_num) (by norm_num) (by norm_num)

end TinyDIP.Props
