import Verif.Model.FisheyeFlt
import Verif.Spec.FisheyeFlt
import Verif.Lemmas.Rounded
import Verif.Props.BilateralByte
import Mathlib.Topology.Order.IntermediateValue
import Mathlib.Analysis.Calculus.Deriv.MeanValue
import Mathlib.Analysis.SpecialFunctions.ExpDeriv

/-!
# Property C212: the fisheye root finder in double precision
-/

namespace TinyDIP.Rnd

open TinyDIP

/-! ## Helpers -/

theorem dbl_eq_of_rep {x : ℝ} (h : Rep 53 x) : dbl x = x := fl_of_rep (by norm_num) h

theorem rep_half {x : ℝ} (h : Rep 53 x) : Rep 53 (x / 2) := by
  have := h.mul_pow (-1)
  rwa [zpow_neg_one, ← div_eq_mul_inv] at this

theorem rep_twice {x : ℝ} (h : Rep 53 x) : Rep 53 (2 * x) := by
  have := h.mul_pow 1
  rwa [zpow_one, mul_comm] at this

theorem midD_eq (lo hi : ℝ) : midD lo hi = dbl (lo + dbl (hi - lo) / 2) := by
  unfold midD
  rw [dbl_eq_of_rep (x := dbl (hi - lo) / 2) (rep_half (fl_rep _))]

theorem rep_midD (lo hi : ℝ) : Rep 53 (midD lo hi) := fl_rep _

/-- The rounded midpoint lies between the ends and halves the bracket up to rounding. -/
theorem midD_spec {lo hi D : ℝ} (h0 : 0 ≤ lo) (hle : lo ≤ hi) (hD : hi ≤ D) (rl : Rep 53 lo) (rh : Rep 53 hi) :
    lo ≤ midD lo hi ∧ midD lo hi ≤ hi ∧ midD lo hi - lo ≤ (hi - lo) / 2 + 3 / 2 * eps * D ∧
      hi - midD lo hi ≤ (hi - lo) / 2 + 3 / 2 * eps * D := by
  rw [midD_eq]
  have hw : 0 ≤ hi - lo := by linarith
  have e1 := dbl_err (hi - lo)
  rw [abs_of_nonneg hw, abs_le] at e1
  have he : eps = 1 / 2 ^ 53 := rfl
  have hep := eps_pos
  have hsmall : eps * (hi - lo) ≤ (hi - lo) * (1 / 2) := by
    rw [mul_comm]; exact mul_le_mul_of_nonneg_left (by rw [he]; norm_num) hw
  have hd0 : 0 ≤ dbl (hi - lo) := fl_nonneg hw
  have m1 : lo ≤ lo + dbl (hi - lo) / 2 := by linarith
  have m2 : lo + dbl (hi - lo) / 2 ≤ hi := by linarith
  have a1 : dbl lo ≤ dbl (lo + dbl (hi - lo) / 2) := fl_mono (by norm_num) m1
  have a2 : dbl (lo + dbl (hi - lo) / 2) ≤ dbl hi := fl_mono (by norm_num) m2
  rw [dbl_eq_of_rep rl] at a1
  rw [dbl_eq_of_rep rh] at a2
  have e2 := dbl_err (lo + dbl (hi - lo) / 2)
  rw [abs_of_nonneg (show (0 : ℝ) ≤ lo + dbl (hi - lo) / 2 by linarith), abs_le] at e2
  have k1 : eps * (lo + dbl (hi - lo) / 2) ≤ eps * D := mul_le_mul_of_nonneg_left (by linarith) hep.le
  have k2 : eps * (hi - lo) ≤ eps * D := mul_le_mul_of_nonneg_left (by linarith) hep.le
  refine ⟨a1, a2, by linarith, by linarith⟩

/-- The bracket after `n` steps. -/
theorem bisectD_spec (g : ℝ → ℝ) (r D : ℝ) (n : Nat) (lo hi : ℝ) (h0 : 0 ≤ lo) (hle : lo ≤ hi) (hD : hi ≤ D)
    (rl : Rep 53 lo) (rh : Rep 53 hi) (g1 : lo = 0 ∨ g lo < r) (g2 : hi = D ∨ r ≤ g hi) :
    let b := bisectD g r n lo hi
    0 ≤ b.1 ∧ b.1 ≤ b.2 ∧ b.2 ≤ D ∧ Rep 53 b.1 ∧ Rep 53 b.2 ∧ (b.1 = 0 ∨ g b.1 < r) ∧ (b.2 = D ∨ r ≤ g b.2) ∧
      b.2 - b.1 ≤ (hi - lo) / 2 ^ n + 3 * eps * D := by
  induction n generalizing lo hi with
  | zero =>
    refine ⟨h0, hle, hD, rl, rh, g1, g2, ?_⟩
    have : 0 ≤ eps * D := mul_nonneg eps_pos.le (by linarith)
    simp only [bisectD, pow_zero, div_one]
    linarith
  | succ n ih =>
    obtain ⟨m1, m2, m3, m4⟩ := midD_spec h0 hle hD rl rh
    have hED : 0 ≤ eps * D := mul_nonneg eps_pos.le (by linarith)
    have hpow : (0 : ℝ) < 2 ^ n := by positivity
    -- the width bound strengthened through the geometric sum
    have key : ∀ (n : Nat) (lo hi : ℝ), 0 ≤ lo → lo ≤ hi → hi ≤ D → Rep 53 lo → Rep 53 hi →
        (bisectD g r n lo hi).2 - (bisectD g r n lo hi).1 ≤ (hi - lo - 3 * eps * D) / 2 ^ n + 3 * eps * D := by
      intro n
      induction n with
      | zero => intro lo hi _ _ _ _ _; simp [bisectD]
      | succ n ihn =>
        intro lo hi h0 hle hD rl rh
        obtain ⟨m1, m2, m3, m4⟩ := midD_spec h0 hle hD rl rh
        have step : ∀ w : ℝ, w ≤ (hi - lo) / 2 + 3 / 2 * eps * D →
            (w - 3 * eps * D) / 2 ^ n ≤ (hi - lo - 3 * eps * D) / 2 ^ (n + 1) := by
          intro w hw
          have e : (hi - lo - 3 * eps * D) / 2 ^ (n + 1) = (hi - lo - 3 * eps * D) / 2 / 2 ^ n := by
            rw [pow_succ]; field_simp
          rw [e]
          exact div_le_div_of_nonneg_right (by linarith) (by positivity)
        simp only [bisectD]
        split
        · have := ihn (midD lo hi) hi (by linarith) m2 hD (rep_midD _ _) rh
          have := step _ m4
          linarith
        · have := ihn lo (midD lo hi) h0 m1 (by linarith) rl (rep_midD _ _)
          have := step _ m3
          linarith
    have hk := key (n + 1) lo hi h0 hle hD rl rh
    have hk2 : (hi - lo - 3 * eps * D) / 2 ^ (n + 1) ≤ (hi - lo) / 2 ^ (n + 1) :=
      div_le_div_of_nonneg_right (by linarith) (by positivity)
    have rest : 0 ≤ (bisectD g r (n + 1) lo hi).1 ∧ (bisectD g r (n + 1) lo hi).1 ≤ (bisectD g r (n + 1) lo hi).2 ∧
        (bisectD g r (n + 1) lo hi).2 ≤ D ∧ Rep 53 (bisectD g r (n + 1) lo hi).1 ∧
        Rep 53 (bisectD g r (n + 1) lo hi).2 ∧
        ((bisectD g r (n + 1) lo hi).1 = 0 ∨ g (bisectD g r (n + 1) lo hi).1 < r) ∧
        ((bisectD g r (n + 1) lo hi).2 = D ∨ r ≤ g (bisectD g r (n + 1) lo hi).2) := by
      simp only [bisectD]
      split
      · rename_i hc
        obtain ⟨a, b, c, d, e, f, k, -⟩ := ih (midD lo hi) hi (by linarith) m2 hD (rep_midD _ _) rh (.inr hc) g2
        exact ⟨a, b, c, d, e, f, k⟩
      · rename_i hc
        obtain ⟨a, b, c, d, e, f, k, -⟩ := ih lo (midD lo hi) h0 m1 (by linarith) rl (rep_midD _ _) g1
          (.inr (not_lt.1 hc))
        exact ⟨a, b, c, d, e, f, k⟩
    obtain ⟨a, b, c, d, e, f, k⟩ := rest
    exact ⟨a, b, c, d, e, f, k, by linarith⟩

theorem shownRadius_hasDerivAt (D0 x : ℝ) :
    HasDerivAt (shownRadius D0) ((1 - x ^ 2 / D0 ^ 2) * Real.exp (-(x ^ 2 / (2 * D0 ^ 2)))) x := by
  have h : HasDerivAt (shownRadius D0) (1 * Real.exp (-(x ^ 2 / (2 * D0 ^ 2))) +
      x * (Real.exp (-(x ^ 2 / (2 * D0 ^ 2))) * (-((2 : ℕ) * x ^ (2 - 1) * 1 / (2 * D0 ^ 2))))) x := by
    unfold shownRadius
    refine HasDerivAt.mul (hasDerivAt_id x) (HasDerivAt.exp ?_)
    exact (((hasDerivAt_id x).pow 2).div_const _).neg
  convert h using 1
  by_cases hD : D0 = 0
  · subst hD; simp
  · field_simp
    ring_nf

theorem shownRadius_diff (D0 : ℝ) : Differentiable ℝ (shownRadius D0) := fun x =>
  (shownRadius_hasDerivAt D0 x).differentiableAt

/-- The mapping rises by at most `y - x` and does not fall on `[0, D0]`. -/
theorem shownRadius_rise {D0 x y : ℝ} (hD : 0 < D0) (hx : 0 ≤ x) (hxy : x ≤ y) (hy : y ≤ D0) :
    0 ≤ shownRadius D0 y - shownRadius D0 x ∧ shownRadius D0 y - shownRadius D0 x ≤ y - x := by
  have hder : ∀ t ∈ interior (Set.Icc 0 D0), 0 ≤ deriv (shownRadius D0) t ∧ deriv (shownRadius D0) t ≤ 1 := by
    intro t ht
    rw [interior_Icc] at ht
    rw [(shownRadius_hasDerivAt D0 t).deriv]
    have e0 := Real.exp_pos (-(t ^ 2 / (2 * D0 ^ 2)))
    have e1 : Real.exp (-(t ^ 2 / (2 * D0 ^ 2))) ≤ 1 := by
      rw [Real.exp_le_one_iff]
      have : 0 ≤ t ^ 2 / (2 * D0 ^ 2) := by positivity
      linarith
    have q0 : 0 ≤ t ^ 2 / D0 ^ 2 := by positivity
    have q1 : t ^ 2 / D0 ^ 2 ≤ 1 := by
      rw [div_le_one (by positivity)]
      exact pow_le_pow_left₀ ht.1.le ht.2.le 2
    refine ⟨mul_nonneg (by linarith) e0.le, ?_⟩
    calc _ ≤ 1 * 1 := mul_le_mul (by linarith) e1 e0.le (by norm_num)
      _ = 1 := by norm_num
  have hc := (shownRadius_diff D0).continuous.continuousOn (s := Set.Icc 0 D0)
  have hd := (shownRadius_diff D0).differentiableOn (s := interior (Set.Icc 0 D0))
  have mx : x ∈ Set.Icc 0 D0 := ⟨hx, by linarith⟩
  have my : y ∈ Set.Icc 0 D0 := ⟨by linarith, hy⟩
  have a := Convex.image_sub_le_mul_sub_of_deriv_le (convex_Icc 0 D0) hc hd (fun t ht => (hder t ht).2) x mx y my hxy
  have b := Convex.mul_sub_le_image_sub_of_le_deriv (convex_Icc 0 D0) hc hd (fun t ht => (hder t ht).1) x mx y my hxy
  exact ⟨by linarith, by linarith⟩

/-- The mapping rises by at least a quarter of `y - x` on the inner three quarters. -/
theorem shownRadius_steep {D0 x y : ℝ} (hD : 0 < D0) (hx : 0 ≤ x) (hxy : x ≤ y) (hy : y ≤ 3 / 4 * D0) :
    (y - x) / 4 ≤ shownRadius D0 y - shownRadius D0 x := by
  have hder : ∀ t ∈ interior (Set.Icc 0 (3 / 4 * D0)), 1 / 4 ≤ deriv (shownRadius D0) t := by
    intro t ht
    rw [interior_Icc] at ht
    rw [(shownRadius_hasDerivAt D0 t).deriv]
    have q1 : t ^ 2 / D0 ^ 2 ≤ 9 / 16 := by
      rw [div_le_iff₀ (by positivity)]
      nlinarith [ht.1, ht.2]
    have e1 : 1 - t ^ 2 / (2 * D0 ^ 2) ≤ Real.exp (-(t ^ 2 / (2 * D0 ^ 2))) := by
      have := Real.add_one_le_exp (-(t ^ 2 / (2 * D0 ^ 2)))
      linarith
    have e2 : t ^ 2 / (2 * D0 ^ 2) = t ^ 2 / D0 ^ 2 / 2 := by field_simp
    rw [e2] at e1 ⊢
    have h1 : (23 / 32 : ℝ) ≤ Real.exp (-(t ^ 2 / D0 ^ 2 / 2)) := by linarith
    calc (1 / 4 : ℝ) ≤ (7 / 16) * (23 / 32) := by norm_num
      _ ≤ _ := mul_le_mul (by linarith) h1 (by norm_num) (by linarith)
  have hc := (shownRadius_diff D0).continuous.continuousOn (s := Set.Icc 0 (3 / 4 * D0))
  have hd := (shownRadius_diff D0).differentiableOn (s := interior (Set.Icc 0 (3 / 4 * D0)))
  have b := Convex.mul_sub_le_image_sub_of_le_deriv (convex_Icc 0 (3 / 4 * D0)) hc hd hder x ⟨hx, by linarith⟩ y
    ⟨by linarith, hy⟩ hxy
  linarith

/-- The computed exponent. -/
theorem exponent_err {D0 m : ℝ} (hD : 0 < D0) (hm : 0 ≤ m) (hmD : m ≤ D0) (rD : Rep 53 D0) :
    |dbl (-dbl (m * m) / dbl (dbl (2 * D0) * D0)) - -(m ^ 2 / (2 * D0 ^ 2))| ≤ 5 / 2 * eps := by
  rw [dbl_eq_of_rep (rep_twice rD)]
  have he : eps = 1 / 2 ^ 53 := rfl
  have hep := eps_pos
  set a := m * m with ha
  set b := 2 * D0 * D0 with hb
  have ha0 : 0 ≤ a := mul_nonneg hm hm
  have hb0 : 0 < b := by positivity
  have q0 : m ^ 2 / (2 * D0 ^ 2) = a / b := by rw [ha, hb]; ring
  rw [q0]
  have q1 : a / b ≤ 1 / 2 := by
    rw [div_le_iff₀ hb0, ha, hb]
    nlinarith
  clear_value a b
  have q2 : 0 ≤ a / b := by positivity
  have ea := dbl_err a
  have eb := dbl_err b
  rw [abs_of_nonneg ha0, abs_le] at ea
  rw [abs_of_pos hb0, abs_le] at eb
  have hbs : eps * b ≤ 1 / 100 * b := mul_le_mul_of_nonneg_right (by rw [he]; norm_num) hb0.le
  have hb1 : 0 < dbl b := by linarith
  have hq : |dbl a / dbl b - a / b| ≤ 3 * eps * (a / b) := by
    have e : dbl a / dbl b - a / b = (dbl a * b - a * dbl b) / (dbl b * b) := by field_simp
    have e' : 3 * eps * (a / b) = (3 * eps * (a * dbl b)) / (dbl b * b) := by field_simp
    rw [e, e', abs_div, abs_of_pos (mul_pos hb1 hb0)]
    refine div_le_div_of_nonneg_right ?_ (mul_pos hb1 hb0).le
    have x1 : dbl a * b - a * dbl b = (dbl a - a) * b - a * (dbl b - b) := by ring
    have x2 : |(dbl a - a) * b - a * (dbl b - b)| ≤ 2 * eps * (a * b) := by
      have y1 : |dbl a - a| ≤ eps * a := abs_le.2 ea
      have y2 : |dbl b - b| ≤ eps * b := abs_le.2 eb
      calc _ ≤ |(dbl a - a) * b| + |a * (dbl b - b)| := abs_sub _ _
        _ = |dbl a - a| * b + a * |dbl b - b| := by rw [abs_mul, abs_mul, abs_of_pos hb0, abs_of_nonneg ha0]
        _ ≤ eps * a * b + a * (eps * b) := add_le_add (mul_le_mul_of_nonneg_right y1 hb0.le)
          (mul_le_mul_of_nonneg_left y2 ha0)
        _ = _ := by ring
    rw [x1]
    refine x2.trans ?_
    have : a * (2 / 3 * b) ≤ a * dbl b := mul_le_mul_of_nonneg_left (by linarith) ha0
    have := mul_le_mul_of_nonneg_left this hep.le
    linarith
  have e3 := dbl_err (-dbl a / dbl b)
  have s1 : |-dbl a / dbl b| = dbl a / dbl b := by
    rw [neg_div, abs_neg, abs_of_nonneg]
    exact div_nonneg (fl_nonneg ha0) hb1.le
  rw [s1] at e3
  have s2 : -dbl a / dbl b = -(dbl a / dbl b) := neg_div _ _
  rw [s2] at e3 ⊢
  rw [abs_le] at hq e3 ⊢
  have t1 : eps * (a / b) ≤ eps * (1 / 2) := mul_le_mul_of_nonneg_left q1 hep.le
  have t2 : dbl a / dbl b ≤ 5 / 4 * (1 / 2) := by
    have : eps * (a / b) ≤ 1 / 100 * (1 / 2) := mul_le_mul (by rw [he]; norm_num) q1 q2 (by norm_num)
    linarith
  have t3 : eps * (dbl a / dbl b) ≤ eps * (5 / 4 * (1 / 2)) := mul_le_mul_of_nonneg_left t2 hep.le
  constructor <;> linarith

theorem exp_close {x y : ℝ} (h : |x - y| ≤ 5 / 2 * eps) : |Real.exp x - Real.exp y| ≤ 5 * eps * Real.exp y := by
  have he : eps = 1 / 2 ^ 53 := rfl
  have e : Real.exp x - Real.exp y = Real.exp y * (Real.exp (x - y) - 1) := by
    rw [mul_sub, ← Real.exp_add]; ring_nf
  rw [e, abs_mul, abs_of_pos (Real.exp_pos y), mul_comm]
  refine mul_le_mul_of_nonneg_right ?_ (Real.exp_pos y).le
  have h1 : |x - y| ≤ 1 := h.trans (by rw [he]; norm_num)
  have := Real.abs_exp_sub_one_le h1
  linarith

/-- The computed radius. -/
theorem fisheyeRadiusD_err {expo : ℝ → ℝ} (hx : GoodExp expo) {D0 m : ℝ} (hD : 0 < D0) (hm : 0 ≤ m)
    (hmD : m ≤ D0) (rD : Rep 53 D0) :
    |fisheyeRadiusD expo D0 m - shownRadius D0 m| ≤ 10 * eps * D0 := by
  unfold fisheyeRadiusD shownRadius
  have he : eps = 1 / 2 ^ 53 := rfl
  have hep := eps_pos
  have h1 := exponent_err hD hm hmD rD
  generalize dbl (-dbl (m * m) / dbl (dbl (2 * D0) * D0)) = q at *
  generalize hE : Real.exp (-(m ^ 2 / (2 * D0 ^ 2))) = E
  have hE0 : 0 < E := by rw [← hE]; exact Real.exp_pos _
  have hE1 : E ≤ 1 := by
    rw [← hE, Real.exp_le_one_iff]
    have : 0 ≤ m ^ 2 / (2 * D0 ^ 2) := by positivity
    linarith
  have h2 := exp_close h1
  rw [hE] at h2
  have h3 := hx q
  have c52 : (1 : ℝ) / 2 ^ 52 = 2 * eps := by rw [he]; norm_num
  rw [c52] at h3
  rw [abs_le] at h2 h3
  have u1 : eps * E ≤ 1 / 1000 * E := mul_le_mul_of_nonneg_right (by rw [he]; norm_num) hE0.le
  have u2 : eps * Real.exp q ≤ eps * (1001 / 1000 * E + 4 / 1000 * E) :=
    mul_le_mul_of_nonneg_left (by linarith) hep.le
  have h4 : |expo q - E| ≤ 8 * eps * E := by
    rw [abs_le]
    have : 0 < eps * E := mul_pos hep hE0
    constructor <;> linarith
  have h5 : |m * expo q - m * E| ≤ 8 * eps * D0 := by
    rw [← mul_sub, abs_mul, abs_of_nonneg hm]
    calc m * |expo q - E| ≤ D0 * (8 * eps * 1) :=
          mul_le_mul hmD (h4.trans (mul_le_mul_of_nonneg_left hE1 (by positivity))) (abs_nonneg _) hD.le
      _ = _ := by ring
  have h6 : |m * expo q| ≤ 2 * D0 := by
    have : m * E ≤ D0 * 1 := mul_le_mul hmD hE1 hE0.le hD.le
    have u3 : eps * D0 ≤ 1 / 1000 * D0 := mul_le_mul_of_nonneg_right (by rw [he]; norm_num) hD.le
    have : 0 ≤ m * E := mul_nonneg hm hE0.le
    rw [abs_le] at h5 ⊢
    constructor <;> linarith
  have h7 := dbl_err (m * expo q)
  have h8 : eps * |m * expo q| ≤ eps * (2 * D0) := mul_le_mul_of_nonneg_left h6 hep.le
  rw [abs_le] at h5 h7 ⊢
  constructor <;> linarith

theorem shownRadius_top {D0 : ℝ} (hD : 0 < D0) : shownRadius D0 D0 = D0 * Real.exp (-1 / 2) := by
  unfold shownRadius
  congr 2
  field_simp

theorem max_err {expo : ℝ → ℝ} (hx : GoodExp expo) {D0 : ℝ} (hD : 0 < D0) :
    |dbl (D0 * expo (-1 / 2)) - shownRadius D0 D0| ≤ 4 * eps * D0 := by
  rw [shownRadius_top hD]
  have he : eps = 1 / 2 ^ 53 := rfl
  have hep := eps_pos
  have h3 := hx (-1 / 2)
  have c52 : (1 : ℝ) / 2 ^ 52 = 2 * eps := by rw [he]; norm_num
  rw [c52] at h3
  have hE0 := Real.exp_pos (-1 / 2)
  have hE1 : Real.exp (-1 / 2) ≤ 1 := by rw [Real.exp_le_one_iff]; norm_num
  generalize Real.exp (-1 / 2) = E at *
  have h5 : |D0 * expo (-1 / 2) - D0 * E| ≤ 2 * eps * D0 := by
    rw [← mul_sub, abs_mul, abs_of_pos hD]
    calc D0 * |expo (-1 / 2) - E| ≤ D0 * (2 * eps * 1) :=
          mul_le_mul_of_nonneg_left (h3.trans (mul_le_mul_of_nonneg_left hE1 (by positivity))) hD.le
      _ = _ := by ring
  have h6 : |D0 * expo (-1 / 2)| ≤ 2 * D0 := by
    have : D0 * E ≤ D0 * 1 := mul_le_mul_of_nonneg_left hE1 hD.le
    have u3 : eps * D0 ≤ 1 / 1000 * D0 := mul_le_mul_of_nonneg_right (by rw [he]; norm_num) hD.le
    have : 0 ≤ D0 * E := mul_nonneg hD.le hE0.le
    rw [abs_le] at h5 ⊢
    constructor <;> linarith
  have h7 := dbl_err (D0 * expo (-1 / 2))
  have h8 : eps * |D0 * expo (-1 / 2)| ≤ eps * (2 * D0) := mul_le_mul_of_nonneg_left h6 hep.le
  rw [abs_le] at h5 h7 ⊢
  constructor <;> linarith

/-! ## C212 -/

/-- In double precision the root finder returns a radius inside `[0, D0]` that the fisheye shows at the wanted
radius, or at the largest radius it reaches when the wanted one lies beyond, with an error of at most
`D0 / 2^48`. -/
theorem C212_shown (expo : ℝ → ℝ) (hx : GoodExp expo) (r D0 : ℝ) (hD : 0 < D0) (rD : dbl D0 = D0) (hr : 0 ≤ r) :
    0 ≤ fisheyeRootD expo r D0 ∧ fisheyeRootD expo r D0 ≤ D0 ∧
      |shownRadius D0 (fisheyeRootD expo r D0) - min r (shownRadius D0 D0)| ≤ D0 / 2 ^ 48 := by
  have rep : Rep 53 D0 := by rw [← rD]; exact fl_rep _
  have he : eps = 1 / 2 ^ 53 := rfl
  have hu : D0 / 2 ^ 48 = 32 * eps * D0 := by rw [he]; ring
  have hpos : 0 < eps * D0 := mul_pos eps_pos hD
  have hz : shownRadius D0 0 = 0 := by simp [shownRadius]
  have htop : 0 ≤ shownRadius D0 D0 := by
    have := (shownRadius_rise hD le_rfl hD.le le_rfl).1
    linarith
  rw [hu]
  unfold fisheyeRootD
  by_cases h0 : r ≤ 0
  · rw [if_pos h0]
    have : r = 0 := le_antisymm h0 hr
    subst this
    refine ⟨le_rfl, hD.le, ?_⟩
    rw [hz, min_eq_left htop]
    simp; linarith
  rw [if_neg h0]
  have hmax := max_err hx hD
  rw [abs_le] at hmax
  by_cases h1 : r ≥ dbl (D0 * expo (-1 / 2))
  · rw [if_pos h1]
    refine ⟨hD.le, le_rfl, ?_⟩
    rcases min_cases r (shownRadius D0 D0) with ⟨e, l⟩ | ⟨e, l⟩
    · rw [e, abs_le]; constructor <;> linarith
    · rw [e, abs_le]; constructor <;> linarith
  rw [if_neg h1]
  have h1' : r < dbl (D0 * expo (-1 / 2)) := not_le.1 h1
  obtain ⟨a, b, c, d, e, f, k, l⟩ := bisectD_spec (fisheyeRadiusD expo D0) r D0 50 0 D0 le_rfl hD.le le_rfl
    ⟨0, 0, by simp, by simp⟩ rep (.inl rfl) (.inl rfl)
  simp only
  generalize bisectD (fisheyeRadiusD expo D0) r 50 0 D0 = B at *
  obtain ⟨m1, m2, -, -⟩ := midD_spec a b c d e
  generalize midD B.1 B.2 = M at *
  have hw : (D0 - 0) / 2 ^ 50 = 8 * eps * D0 := by rw [he]; ring
  rw [hw] at l
  refine ⟨by linarith, by linarith, ?_⟩
  have lo := shownRadius_rise hD a m1 (by linarith)
  have hi := shownRadius_rise hD (by linarith) m2 c
  have up := shownRadius_rise hD (by linarith : 0 ≤ M) (by linarith : M ≤ D0) le_rfl
  have L : shownRadius D0 B.1 ≤ r + 10 * eps * D0 := by
    rcases f with f | f
    · rw [f, hz]; linarith
    · have := fisheyeRadiusD_err hx hD a (by linarith) rep
      rw [abs_le] at this
      linarith
  have H : min r (shownRadius D0 D0) - 10 * eps * D0 ≤ shownRadius D0 B.2 := by
    rcases k with k | k
    · rw [k]; linarith [min_le_right r (shownRadius D0 D0)]
    · have := fisheyeRadiusD_err hx hD (by linarith) c rep
      rw [abs_le] at this
      linarith [min_le_left r (shownRadius D0 D0)]
  rw [abs_le]
  constructor
  · linarith
  · rcases min_cases r (shownRadius D0 D0) with ⟨e, l⟩ | ⟨e, l⟩ <;> rw [e] <;> linarith

/-- For radii whose solution lies in the inner half, the returned radius is within `D0 / 2^46` of it. -/
theorem C212_solution_partial (expo : ℝ → ℝ) (hx : GoodExp expo) (D0 x : ℝ) (hD : 0 < D0) (rD : dbl D0 = D0)
    (h0 : 0 ≤ x) (h1 : x ≤ D0 / 2) : |fisheyeRootD expo (shownRadius D0 x) D0 - x| ≤ D0 / 2 ^ 46 := by
  have hz : shownRadius D0 0 = 0 := by simp [shownRadius]
  have s0 := (shownRadius_rise hD le_rfl h0 (by linarith)).1
  have s1 := (shownRadius_rise hD h0 (by linarith : x ≤ D0) le_rfl).1
  obtain ⟨a, b, c⟩ := C212_shown expo hx (shownRadius D0 x) D0 hD rD (by linarith)
  rw [min_eq_left (by linarith)] at c
  generalize fisheyeRootD expo (shownRadius D0 x) D0 = R at *
  rw [abs_le] at c
  have hu : D0 / 2 ^ 46 = 4 * (D0 / 2 ^ 48) := by ring
  rw [hu, abs_le]
  rcases le_or_gt R x with h | h
  · have := shownRadius_steep hD a h (by linarith)
    constructor <;> linarith
  rcases le_or_gt R (3 / 4 * D0) with h' | h'
  · have := shownRadius_steep hD h0 h.le h'
    constructor <;> linarith
  · have k1 := shownRadius_steep hD h0 (by linarith : x ≤ 3 / 4 * D0) le_rfl
    have k2 := (shownRadius_rise hD (by linarith : 0 ≤ 3 / 4 * D0) h'.le b).1
    have : D0 / 2 ^ 48 < D0 / 16 := div_lt_div_of_pos_left hD (by norm_num) (by norm_num)
    exfalso
    linarith

/-- Radii that are not positive give 0. -/
theorem C212_zero (expo : ℝ → ℝ) (r D0 : ℝ) (hr : r ≤ 0) : fisheyeRootD expo r D0 = 0 := by
  rw [fisheyeRootD, if_pos hr]

theorem goodExp_rounded : GoodExp fun x => dbl (Real.exp x) := by
  intro x
  have h := dbl_err (Real.exp x)
  rw [abs_of_pos (Real.exp_pos x)] at h
  refine h.trans (mul_le_mul_of_nonneg_right ?_ (Real.exp_pos x).le)
  unfold eps; norm_num

/-- A fisheye of strength 640 and the radius 100. -/
example := C212_shown _ goodExp_rounded 100 640 (by norm_num) (dbl_nat (n := 640) (by norm_num)) (by norm_num)

example := C212_solution_partial _ goodExp_rounded 640 100 (by norm_num) (dbl_nat (n := 640) (by norm_num))
  (by norm_num) (by norm_num)

theorem exp_half : |Real.exp (-1 / 2) - 60653065971263342360379953499 / 10 ^ 29| ≤ 1 / 10 ^ 20 := by
  have h := Real.exp_bound (x := -1 / 2) (by rw [abs_le]; constructor <;> norm_num) (n := 18) (by norm_num)
  rw [abs_le] at h ⊢
  simp only [Finset.sum_range_succ, Finset.sum_range_zero, Nat.factorial] at h
  norm_num at h ⊢
  constructor <;> linarith [h.1, h.2]

theorem exp_half_double : dbl (Real.exp (-1 / 2)) = 5463142506141194 / 2 ^ 53 := by
  have h := exp_half
  rw [abs_le] at h
  unfold dbl
  rw [Filter.fl53_of (-1) 5463142506141194 (by norm_num; linarith) (by norm_num)
    (by rw [abs_lt]; constructor <;> norm_num <;> linarith)]
  norm_num

theorem top_nine : dbl (9 * dbl (Real.exp (-1 / 2))) = 6146035319408843 / 2 ^ 50 := by
  rw [exp_half_double]
  unfold dbl
  rw [Filter.fl53_of 2 6146035319408843 (by norm_num) (by norm_num) (by rw [abs_lt]; constructor <;> norm_num)]
  norm_num

/-- What is missing: near the largest radius the mapping is flat, and rounding is amplified. With a fisheye of
strength 9 and a correctly rounded exponential, there is a `double` radius for which the returned value is more
than `9 / 2^28` away from the only solution. -/
theorem C212_solution_violation : ∃ r x : ℝ, dbl r = r ∧ 0 ≤ x ∧ x ≤ 9 ∧ shownRadius 9 x = r ∧
    9 / 2 ^ 28 < |fisheyeRootD (fun y => dbl (Real.exp y)) r 9 - x| := by
  have h := exp_half
  rw [abs_le] at h
  have hroot : fisheyeRootD (fun y => dbl (Real.exp y)) (6146035319408843 / 2 ^ 50) 9 = 9 := by
    rw [fisheyeRootD, if_neg (by norm_num), if_pos (by rw [top_nine])]
  -- the mapping at a point slightly inside is still above this radius
  have hin : (6146035319408843 / 2 ^ 50 : ℝ) < shownRadius 9 (9 * (1 - 1 / 2 ^ 28)) := by
    unfold shownRadius
    have e : -((9 * (1 - 1 / 2 ^ 28)) ^ 2 / (2 * (9 : ℝ) ^ 2)) = -1 / 2 + (1 / 2 ^ 28 - 1 / 2 ^ 57) := by norm_num
    rw [e, Real.exp_add]
    have g := Real.add_one_le_exp ((1 : ℝ) / 2 ^ 28 - 1 / 2 ^ 57)
    have p := Real.exp_pos (-1 / 2)
    have : Real.exp (-1 / 2) * (1 / 2 ^ 28 - 1 / 2 ^ 57 + 1) ≤
      Real.exp (-1 / 2) * Real.exp (1 / 2 ^ 28 - 1 / 2 ^ 57) := mul_le_mul_of_nonneg_left g p.le
    norm_num at this ⊢
    linarith
  have hz : shownRadius 9 0 = 0 := by simp [shownRadius]
  obtain ⟨x, ⟨x0, x1⟩, hx⟩ := intermediate_value_Icc (show (0 : ℝ) ≤ 9 * (1 - 1 / 2 ^ 28) by norm_num)
    (shownRadius_diff 9).continuous.continuousOn ⟨by rw [hz]; norm_num, hin.le⟩
  refine ⟨6146035319408843 / 2 ^ 50, x, ?_, x0, x1.trans (by norm_num), hx, ?_⟩
  · rw [← top_nine]; exact dbl_eq_of_rep (fl_rep _)
  · rw [hroot]
    have hne : x ≠ 9 * (1 - 1 / 2 ^ 28) := fun h => by rw [h] at hx; linarith
    have hlt : x < 9 * (1 - 1 / 2 ^ 28) := lt_of_le_of_ne x1 hne
    rw [abs_of_nonneg (by linarith)]
    linarith

end TinyDIP.Rnd
