import Verif.Lemmas.DctRounded
import Verif.Model.DftRounded

/-!
# Lemmas on the Fourier transform in the arithmetic of long double
-/

namespace TinyDIP.Rnd

open TinyDIP Finset

variable {p : Nat}

theorem flL_bounds (hp : 53 ≤ p) {x : ℝ} (hx : 0 ≤ x) : (1 - eps) * x ≤ fl p x ∧ fl p x ≤ (1 + eps) * x := by
  have := fl53_err hp x
  rw [abs_of_nonneg hx, abs_le] at this
  constructor <;> linarith [this.1, this.2]

theorem fl_small (hp : 53 ≤ p) {n : Nat} (h : n ≤ 2 ^ 53) : fl p n = n :=
  fl_nat (by omega) (h.trans (Nat.pow_le_pow_right (by norm_num) hp))

/-! ### The angles -/

theorem dftAngleL_err (hp : 53 ≤ p) {w h x y m n : Nat} (hw' : w ≤ 1024) (hh' : h ≤ 1024) (hx : x < w) (hy : y < h)
    (hm : m < w) (hn : n < h) : |dftAngleL p w h x y m n - dftAngle w h x y m n| ≤ 81920 * eps := by
  have b1 : x * m ≤ 1024 * w := Nat.mul_le_mul (by omega) hm.le
  have b2 : y * n ≤ 1024 * h := Nat.mul_le_mul (by omega) hn.le
  have c1 : fl p (w : ℝ) = w := fl_small hp (by omega)
  have c2 : fl p (h : ℝ) = h := fl_small hp (by omega)
  have c3 : fl p ((x * m : Nat) : ℝ) = (x * m : Nat) := fl_small hp (by omega)
  have c4 : fl p ((y * n : Nat) : ℝ) = (y * n : Nat) := fl_small hp (by omega)
  have c5 : fl p (2 * fl p Real.pi) = 2 * fl p Real.pi := by
    refine fl_of_rep (by omega) ?_
    have := (fl_rep (p := p) Real.pi).mul_pow 1
    rwa [zpow_one, mul_comm] at this
  unfold dftAngleL dftAngle
  rw [wmul_of_lt (show x * m < 2 ^ 64 by omega), wmul_of_lt (show y * n < 2 ^ 64 by omega), c1, c2, c3, c4, c5]
  have w0 : (0 : ℝ) < w := by exact_mod_cast (show 0 < w by omega)
  have h0 : (0 : ℝ) < h := by exact_mod_cast (show 0 < h by omega)
  have hpi := Real.pi_pos
  have hpi4 : Real.pi ≤ 4 := Real.pi_le_four
  have heps := eps_pos
  have heps1 : eps ≤ 1 / 100 := by unfold eps; norm_num
  have q1 : ((x * m : Nat) : ℝ) / w ≤ 1024 := by
    rw [div_le_iff₀ w0]; exact_mod_cast b1
  have q2 : ((y * n : Nat) : ℝ) / h ≤ 1024 := by
    rw [div_le_iff₀ h0]; exact_mod_cast b2
  have q10 : 0 ≤ ((x * m : Nat) : ℝ) / w := by positivity
  have q20 : 0 ≤ ((y * n : Nat) : ℝ) / h := by positivity
  set A := ((x * m : Nat) : ℝ) / w
  set B := ((y * n : Nat) : ℝ) / h
  obtain ⟨p1, p2⟩ := flL_bounds hp hpi.le
  have p0 := fl_nonneg (p := p) hpi.le
  set P := fl p Real.pi
  obtain ⟨a1, a2⟩ := flL_bounds hp q10
  have a0 := fl_nonneg (p := p) q10
  set A' := fl p A
  obtain ⟨b1, b2⟩ := flL_bounds hp q20
  have b0 := fl_nonneg (p := p) q20
  set B' := fl p B
  obtain ⟨s1, s2⟩ := flL_bounds hp (add_nonneg a0 b0)
  have s0 := fl_nonneg (p := p) (add_nonneg a0 b0)
  set S := fl p (A' + B')
  obtain ⟨e1, e2⟩ := flL_bounds hp (x := 2 * P * S) (by positivity)
  set E := fl p (2 * P * S)
  have h1e : 0 ≤ 1 - eps := by linarith
  have h1p : 0 ≤ 1 + eps := by linarith
  have l1 : (1 - eps) ^ 2 * (A + B) ≤ S := by
    refine le_trans ?_ s1
    calc (1 - eps) ^ 2 * (A + B) = (1 - eps) * ((1 - eps) * A + (1 - eps) * B) := by ring
      _ ≤ _ := mul_le_mul_of_nonneg_left (add_le_add a1 b1) h1e
  have u1 : S ≤ (1 + eps) ^ 2 * (A + B) := by
    refine s2.trans ?_
    calc (1 + eps) * (A' + B') ≤ (1 + eps) * ((1 + eps) * A + (1 + eps) * B) :=
          mul_le_mul_of_nonneg_left (add_le_add a2 b2) h1p
      _ = _ := by ring
  have l2 : (1 - eps) ^ 4 * (2 * Real.pi * (A + B)) ≤ E := by
    refine le_trans ?_ e1
    calc (1 - eps) ^ 4 * (2 * Real.pi * (A + B)) =
        (1 - eps) * (2 * ((1 - eps) * Real.pi) * ((1 - eps) ^ 2 * (A + B))) := by ring
      _ ≤ (1 - eps) * (2 * P * S) := by gcongr
  have u2 : E ≤ (1 + eps) ^ 4 * (2 * Real.pi * (A + B)) := by
    refine e2.trans ?_
    calc (1 + eps) * (2 * P * S) ≤ (1 + eps) * (2 * ((1 + eps) * Real.pi) * ((1 + eps) ^ 2 * (A + B))) := by gcongr
      _ = _ := by ring
  have hA0 : 0 ≤ 2 * Real.pi * (A + B) := by positivity
  have hA : 2 * Real.pi * (A + B) ≤ 16384 := by
    calc 2 * Real.pi * (A + B) ≤ 2 * 4 * (1024 + 1024) := by gcongr
      _ = 16384 := by norm_num
  set T := 2 * Real.pi * (A + B)
  obtain ⟨f1, f2⟩ := pow4_bounds heps.le heps1
  have g1 : (1 - 5 * eps) * T ≤ E := (mul_le_mul_of_nonneg_right f1 hA0).trans l2
  have g2 : E ≤ (1 + 5 * eps) * T := u2.trans (mul_le_mul_of_nonneg_right f2 hA0)
  have g3 : 5 * eps * T ≤ 5 * eps * 16384 := mul_le_mul_of_nonneg_left hA (by positivity)
  rw [abs_le]
  constructor <;> linarith

theorem cosL_err {cosine : ℝ → ℝ} (hc : GoodCos cosine) {a b : ℝ} (h : |a - b| ≤ 81920 * eps) :
    |cosine a - Real.cos b| ≤ 1 / 2 ^ 36 := by
  have h1 := (hc a).2
  have h2 := Real.abs_cos_sub_cos_le a b
  have : cosine a - Real.cos b = (cosine a - Real.cos a) + (Real.cos a - Real.cos b) := by ring
  rw [this]
  refine (abs_add_le _ _).trans ?_
  have : (1 : ℝ) / 2 ^ 52 + 81920 * eps ≤ 1 / 2 ^ 36 := by unfold eps; norm_num
  linarith

theorem sinL_err {sine : ℝ → ℝ} (hc : GoodSin sine) {a b : ℝ} (h : |a - b| ≤ 81920 * eps) :
    |sine a - Real.sin b| ≤ 1 / 2 ^ 36 := by
  have h1 := (hc a).2
  have h2 := Real.abs_sin_sub_sin_le a b
  have : sine a - Real.sin b = (sine a - Real.sin a) + (Real.sin a - Real.sin b) := by ring
  rw [this]
  refine (abs_add_le _ _).trans ?_
  have : (1 : ℝ) / 2 ^ 52 + 81920 * eps ≤ 1 / 2 ^ 36 := by unfold eps; norm_num
  linarith

/-! ### Products and sums -/

theorem mulL_err (hp : 53 ≤ p) {a a' c c' A ea ec : ℝ} (ha : |a| ≤ A) (hea : |a' - a| ≤ ea) (hc' : |c'| ≤ 1)
    (hec : |c' - c| ≤ ec) : |fl p (a' * c') - a * c| ≤ ea + A * ec + eps * (A + ea) := by
  have h1 : |a' * c' - a * c| ≤ ea + A * ec := by
    have : a' * c' - a * c = (a' - a) * c' + a * (c' - c) := by ring
    rw [this]
    refine (abs_add_le _ _).trans (add_le_add ?_ ?_)
    · rw [abs_mul]
      calc |a' - a| * |c'| ≤ ea * 1 := mul_le_mul hea hc' (abs_nonneg _) ((abs_nonneg _).trans hea)
        _ = ea := mul_one _
    · rw [abs_mul]
      exact mul_le_mul ha hec (abs_nonneg _) ((abs_nonneg _).trans ha)
  have h2 : |a' * c'| ≤ A + ea := by
    rw [abs_mul]
    have h3 : |a'| ≤ A + ea := by
      have : a' = a + (a' - a) := by ring
      rw [this]
      exact (abs_add_le _ _).trans (add_le_add ha hea)
    calc |a'| * |c'| ≤ |a'| * 1 := mul_le_mul_of_nonneg_left hc' (abs_nonneg _)
      _ ≤ A + ea := by rw [mul_one]; exact h3
  have h4 := fl53_err hp (a' * c')
  have h5 : eps * |a' * c'| ≤ eps * (A + ea) := mul_le_mul_of_nonneg_left h2 eps_pos.le
  have : fl p (a' * c') - a * c = (fl p (a' * c') - a' * c') + (a' * c' - a * c) := by ring
  rw [this]
  refine (abs_add_le _ _).trans ?_
  linarith

/-- One rounded sum. -/
theorem addL_err (hp : 53 ≤ p) {a a' b b' ea eb M : ℝ} (h1 : |a' - a| ≤ ea) (h2 : |b' - b| ≤ eb)
    (hM : |a + b| ≤ M) : |fl p (a' + b') - (a + b)| ≤ ea + eb + eps * (M + (ea + eb)) := by
  have e : |a' + b' - (a + b)| ≤ ea + eb := by
    have : a' + b' - (a + b) = (a' - a) + (b' - b) := by ring
    rw [this]
    exact (abs_add_le _ _).trans (add_le_add h1 h2)
  have m : |a' + b'| ≤ M + (ea + eb) := by
    have : a' + b' = (a + b) + (a' + b' - (a + b)) := by ring
    rw [this]
    exact (abs_add_le _ _).trans (add_le_add hM e)
  have r := (fl53_err hp (a' + b')).trans (mul_le_mul_of_nonneg_left m eps_pos.le)
  have : fl p (a' + b') - (a + b) = (fl p (a' + b') - (a' + b')) + (a' + b' - (a + b)) := by ring
  rw [this]
  refine (abs_add_le _ _).trans ?_
  linarith

theorem SumR.stepL (hp : 53 ≤ p) {T d η : ℝ} {k K : Nat} {S s t t' : ℝ} (h : SumR T d k S s) (hk : k + 1 ≤ K)
    (ht : |t| ≤ T) (hη : |t' - t| ≤ η) (hη1 : η ≤ 1) (hd1 : d ≤ 1) (hd : η + eps * (K * (T + 2)) ≤ d) :
    SumR T d (k + 1) (S + t) (fl p (s + t')) := by
  obtain ⟨h1, h2⟩ := h
  have hT : 0 ≤ T := (abs_nonneg _).trans ht
  have hkK : (k : ℝ) + 1 ≤ K := by exact_mod_cast hk
  have hk0 : (0 : ℝ) ≤ k := Nat.cast_nonneg k
  have a1 : |S + t| ≤ (k + 1) * T := (abs_add_le _ _).trans (by linarith)
  refine ⟨?_, by push_cast; exact a1⟩
  refine (addL_err hp h1 hη a1).trans ?_
  have a2 : (k : ℝ) * d ≤ k * 1 := mul_le_mul_of_nonneg_left hd1 hk0
  have a3 : ((k : ℝ) + 1) * T ≤ K * T := mul_le_mul_of_nonneg_right hkK hT
  have a4 : ((k : ℝ) + 1) * T + (k * d + η) ≤ K * (T + 2) := by
    have : (K : ℝ) * (T + 2) = K * T + 2 * K := by ring
    linarith
  have := mul_le_mul_of_nonneg_left a4 eps_pos.le
  push_cast
  linarith

/-- A loop whose body adds `c` terms, with any kind of state. -/
theorem forUp_sumC {σ : Type} {R : Nat → ℂ → σ → Prop} {K n c : Nat} {t : Nat → ℂ} {body : σ → Nat → Res σ}
    (hb : ∀ i, i < n → ∀ k S s, R k S s → k + c ≤ K → ∃ s', body s i = .ok s' ∧ R (k + c) (S + t i) s')
    {k : Nat} {S : ℂ} {s : σ} (h : R k S s) (hk : k + n * c ≤ K) :
    ∃ s', forUp n body s = .ok s' ∧ R (k + n * c) (S + ∑ i ∈ range n, t i) s' := by
  refine forUp_inv (P := fun j s' => R (k + j * c) (S + ∑ i ∈ range j, t i) s') ?_ s (by simpa using h)
  intro j s' hj hR
  have hle : k + j * c + c ≤ K := by
    have : (j + 1) * c ≤ n * c := Nat.mul_le_mul_right _ hj
    rw [Nat.add_mul, one_mul] at this
    omega
  obtain ⟨s'', e, hR'⟩ := hb j hj _ _ _ hR hle
  refine ⟨s'', e, ?_⟩
  rw [sum_range_succ, ← add_assoc]
  have : k + (j + 1) * c = k + j * c + c := by ring
  rw [this]
  exact hR'

/-! ### The normalization -/

theorem dftNormL_err (hp : 53 ≤ p) {w h : Nat} (hw : 0 < w) (hh : 0 < h) (hw' : w ≤ 1024) (hh' : h ≤ 1024) :
    |dftNormL p w h - 1 / Real.sqrt (w * h)| ≤ 3 * eps * (1 / Real.sqrt (w * h)) := by
  have hK : w * h ≤ 2 ^ 20 := (Nat.mul_le_mul hw' hh').trans (by norm_num)
  unfold dftNormL
  rw [wmul_of_lt (show w * h < 2 ^ 64 by omega), fl_small hp (n := w * h) (by omega)]
  have n0 : (0 : ℝ) < (w * h : Nat) := by exact_mod_cast Nat.mul_pos hw hh
  have hq : Real.sqrt (w * h) = Real.sqrt ((w * h : Nat) : ℝ) := by push_cast; rfl
  rw [hq]
  generalize ((w * h : Nat) : ℝ) = N at n0 ⊢
  obtain ⟨a1, a2⟩ := flL_bounds hp (x := 1 / N) (by positivity)
  set X := fl p (1 / N)
  have heps := eps_pos
  have heps1 : eps ≤ 1 / 100 := by unfold eps; norm_num
  have q0 : 0 < 1 / Real.sqrt N := by positivity
  have e : 1 / Real.sqrt N = Real.sqrt (1 / N) := by rw [Real.sqrt_div' _ n0.le, Real.sqrt_one]
  have sq : (1 / Real.sqrt N) ^ 2 = 1 / N := by rw [e, Real.sq_sqrt (by positivity)]
  set u := 1 / Real.sqrt N
  have l : (1 - eps) * u ≤ Real.sqrt X := by
    apply Real.le_sqrt_of_sq_le
    refine le_trans ?_ a1
    rw [mul_pow, sq]
    exact mul_le_mul_of_nonneg_right (by nlinarith) (by positivity)
  have r : Real.sqrt X ≤ (1 + eps) * u := by
    apply Real.sqrt_le_iff.mpr ⟨by positivity, a2.trans ?_⟩
    rw [mul_pow, sq]
    exact mul_le_mul_of_nonneg_right (by nlinarith) (by positivity)
  obtain ⟨b1, b2⟩ := flL_bounds hp (x := Real.sqrt X) (Real.sqrt_nonneg _)
  have h1e : 0 ≤ 1 - eps := by linarith
  have h1p : 0 ≤ 1 + eps := by linarith
  have c1 := (mul_le_mul_of_nonneg_left l h1e).trans b1
  have c2 := b2.trans (mul_le_mul_of_nonneg_left r h1p)
  have s2 : eps * eps ≤ eps / 100 := by nlinarith
  rw [abs_le]
  constructor
  · have : (1 - eps) * ((1 - eps) * u) = u - 2 * eps * u + eps * eps * u := by ring
    have : 0 ≤ eps * eps * u := by positivity
    have : 0 ≤ eps * u := by positivity
    linarith
  · have : (1 + eps) * ((1 + eps) * u) = u + 2 * eps * u + eps * eps * u := by ring
    have : eps * eps * u ≤ eps / 100 * u := mul_le_mul_of_nonneg_right s2 q0.le
    have : 0 ≤ eps * u := by positivity
    linarith

/-- The scaled sum: `q` is the square root of the number of pixels. -/
theorem normL_err (hp : 53 ≤ p) {q c S s T d : ℝ} {N : Nat} (hq : 0 < q) (hN : (N : ℝ) = q * q)
    (hc : |c - 1 / q| ≤ 3 * eps * (1 / q)) (h : SumR T d N S s) (hT : 0 ≤ T) (hd : 0 ≤ d) :
    |fl p (c * s) - 1 / q * S| ≤ q * ((1 + 5 * eps) * d + 5 * eps * T) := by
  obtain ⟨h1, h2⟩ := h
  rw [hN] at h1 h2
  have heps := eps_pos
  have heps1 : eps ≤ 1 / 100 := by unfold eps; norm_num
  have iq : 0 < 1 / q := by positivity
  have e1 : 1 / q * (q * q) = q := by field_simp
  have k1 : |c| ≤ (1 + 3 * eps) * (1 / q) := by
    have : c = 1 / q + (c - 1 / q) := by ring
    rw [this]
    refine (abs_add_le _ _).trans ?_
    rw [abs_of_pos iq]
    linarith
  have b1 : |c| * |s - S| ≤ (1 + 3 * eps) * (q * d) := by
    calc |c| * |s - S| ≤ (1 + 3 * eps) * (1 / q) * (q * q * d) := mul_le_mul k1 h1 (abs_nonneg _) (by positivity)
      _ = (1 + 3 * eps) * ((1 / q * (q * q)) * d) := by ring
      _ = _ := by rw [e1]
  have b2 : |c - 1 / q| * |S| ≤ 3 * eps * (q * T) := by
    calc |c - 1 / q| * |S| ≤ 3 * eps * (1 / q) * (q * q * T) := mul_le_mul hc h2 (abs_nonneg _) (by positivity)
      _ = 3 * eps * ((1 / q * (q * q)) * T) := by ring
      _ = _ := by rw [e1]
  have a1 : |c * s - 1 / q * S| ≤ (1 + 3 * eps) * (q * d) + 3 * eps * (q * T) := by
    have : c * s - 1 / q * S = c * (s - S) + (c - 1 / q) * S := by ring
    rw [this]
    refine (abs_add_le _ _).trans ?_
    rw [abs_mul, abs_mul]
    linarith
  have b3 : |1 / q * S| ≤ q * T := by
    rw [abs_mul, abs_of_pos iq]
    calc 1 / q * |S| ≤ 1 / q * (q * q * T) := mul_le_mul_of_nonneg_left h2 iq.le
      _ = (1 / q * (q * q)) * T := by ring
      _ = _ := by rw [e1]
  have a2 : |c * s| ≤ q * T + ((1 + 3 * eps) * (q * d) + 3 * eps * (q * T)) := by
    have : c * s = 1 / q * S + (c * s - 1 / q * S) := by ring
    rw [this]
    exact (abs_add_le _ _).trans (add_le_add b3 a1)
  have r := (fl53_err hp (c * s)).trans (mul_le_mul_of_nonneg_left a2 heps.le)
  have : fl p (c * s) - 1 / q * S = (fl p (c * s) - c * s) + (c * s - 1 / q * S) := by ring
  rw [this]
  refine (abs_add_le _ _).trans ?_
  have d0 : 0 ≤ q * d := by positivity
  have t0 : 0 ≤ q * T := by positivity
  have m1 : eps * (3 * eps * (q * T)) ≤ eps * (q * T) := by
    have := mul_le_mul_of_nonneg_right (show 3 * eps ≤ 1 by linarith) (show 0 ≤ eps * (q * T) by positivity)
    linarith
  have m2 : eps * ((1 + 3 * eps) * (q * d)) ≤ 2 * eps * (q * d) := by
    have := mul_le_mul_of_nonneg_right (show 1 + 3 * eps ≤ 2 by linarith) (show 0 ≤ eps * (q * d) by positivity)
    linarith
  have : q * ((1 + 5 * eps) * d + 5 * eps * T) = (1 + 5 * eps) * (q * d) + 5 * eps * (q * T) := by ring
  linarith

/-! ### The exact transforms, in parts -/

theorem one_div_sqrt {w h : Nat} : Real.sqrt (1 / (w * h : ℝ)) = 1 / Real.sqrt (w * h) := by
  rw [Real.sqrt_div' _ (by positivity), Real.sqrt_one]

theorem dftVal_parts {w h x y : Nat} (f : Nat → Nat → ℝ) (hw : w * w < 2 ^ 64) (hh : h * h < 2 ^ 64) (hx : x < w)
    (hy : y < h) : dftVal w h (fun x y => (f x y : ℂ)) x y = ((1 / Real.sqrt (w * h) : ℝ) : ℂ) *
      ∑ n ∈ range h, ∑ m ∈ range w, (⟨f m n * Real.cos (dftAngle w h x y m n),
        -f m n * Real.sin (dftAngle w h x y m n)⟩ : ℂ) := by
  unfold dftVal
  rw [one_div_sqrt]
  congr 1
  refine sum_congr rfl fun n hn => sum_congr rfl fun m hm => ?_
  rw [mem_range] at hn hm
  rw [dftAngle_eq hx hm hy hn hw hh]
  set θ : ℝ := 2 * Real.pi * ((x * m : ℝ) / w + (y * n : ℝ) / h) with hθ
  have : (-(2 * Real.pi * Complex.I * ((x * m : ℝ) / w + (y * n : ℝ) / h)) : ℂ) = ((-θ : ℝ) : ℂ) * Complex.I := by
    rw [hθ]; push_cast; ring
  rw [this, Complex.exp_mul_I, ← Complex.ofReal_cos, ← Complex.ofReal_sin, Real.cos_neg, Real.sin_neg]
  generalize Real.cos θ = c
  generalize Real.sin θ = d
  apply Complex.ext <;> simp

theorem idftVal_parts {w h x y : Nat} (G : Nat → Nat → ℂ) (hw : w * w < 2 ^ 64) (hh : h * h < 2 ^ 64) (hx : x < w)
    (hy : y < h) : idftVal w h G x y = ((1 / Real.sqrt (w * h) : ℝ) : ℂ) *
      ∑ n ∈ range h, ∑ m ∈ range w, (⟨(G m n).re * Real.cos (dftAngle w h x y m n) +
        -((G m n).im * Real.sin (dftAngle w h x y m n)), (G m n).re * Real.sin (dftAngle w h x y m n) +
        (G m n).im * Real.cos (dftAngle w h x y m n)⟩ : ℂ) := by
  unfold idftVal
  rw [one_div_sqrt]
  congr 1
  refine sum_congr rfl fun n hn => sum_congr rfl fun m hm => ?_
  rw [mem_range] at hn hm
  rw [dftAngle_eq hx hm hy hn hw hh]
  set θ : ℝ := 2 * Real.pi * ((x * m : ℝ) / w + (y * n : ℝ) / h) with hθ
  have : (2 * Real.pi * Complex.I * ((x * m : ℝ) / w + (y * n : ℝ) / h) : ℂ) = (θ : ℂ) * Complex.I := by
    rw [hθ]; push_cast; ring
  rw [this, Complex.exp_mul_I, ← Complex.ofReal_cos, ← Complex.ofReal_sin]
  generalize Real.cos θ = c
  generalize Real.sin θ = d
  apply Complex.ext <;> simp [sub_eq_add_neg]

/-- The size of a coefficient. -/
theorem dftVal_norm {w h x y : Nat} (f : Nat → Nat → ℝ) (hw : 0 < w) (hh : 0 < h)
    (hf : ∀ x y, x < w → y < h → |f x y| ≤ 255) :
    ‖dftVal w h (fun x y => (f x y : ℂ)) x y‖ ≤ 255 * Real.sqrt (w * h) := by
  unfold dftVal
  rw [one_div_sqrt, norm_mul, Complex.norm_real, Real.norm_eq_abs, abs_of_nonneg (by positivity)]
  have n0 : (0 : ℝ) < w * h := by
    have a : (0 : ℝ) < w := by exact_mod_cast hw
    have b : (0 : ℝ) < h := by exact_mod_cast hh
    positivity
  have b : ‖∑ n ∈ range h, ∑ m ∈ range w, (f m n : ℂ) *
      Complex.exp (-(2 * Real.pi * Complex.I * ((x * m : ℝ) / w + (y * n : ℝ) / h)))‖ ≤ w * h * 255 := by
    refine (norm_sum_le_of_le _ (n := fun _ => (w : ℝ) * 255) fun n hn => ?_).trans ?_
    · refine (norm_sum_le_of_le _ (n := fun _ => (255 : ℝ)) fun m hm => ?_).trans ?_
      · rw [mem_range] at hn hm
        have : (-(2 * Real.pi * Complex.I * ((x * m : ℝ) / w + (y * n : ℝ) / h)) : ℂ) =
            ((-(2 * Real.pi * ((x * m : ℝ) / w + (y * n : ℝ) / h)) : ℝ) : ℂ) * Complex.I := by
          push_cast; ring
        rw [norm_mul, this, Complex.norm_exp_ofReal_mul_I, mul_one, Complex.norm_real]
        exact hf m n hm hn
      · simp
    · rw [sum_const, card_range, nsmul_eq_mul]
      exact le_of_eq (by ring)
  have q0 : 0 < Real.sqrt (w * h) := Real.sqrt_pos.mpr n0
  have sq : Real.sqrt (w * h) * Real.sqrt (w * h) = w * h := Real.mul_self_sqrt n0.le
  rw [div_mul_eq_mul_div, one_mul, div_le_iff₀ q0]
  refine b.trans (le_of_eq ?_)
  rw [mul_assoc 255, sq, mul_comm]

theorem re_im_le (a b c d A : ℝ) (h : ‖(⟨a, b⟩ : ℂ)‖ ≤ A) (hcd : c ^ 2 + d ^ 2 = 1) :
    |a * c + -(b * d)| ≤ A ∧ |a * d + b * c| ≤ A := by
  have h0 : 0 ≤ A := (norm_nonneg _).trans h
  have sq : a ^ 2 + b ^ 2 ≤ A ^ 2 := by
    have := pow_le_pow_left₀ (norm_nonneg _) h 2
    rw [← Complex.normSq_eq_norm_sq, Complex.normSq_apply] at this
    simp only at this
    nlinarith
  constructor
  · apply abs_le_of_sq_le_sq _ h0
    have : (a * c + -(b * d)) ^ 2 + (a * d + b * c) ^ 2 = (a ^ 2 + b ^ 2) * (c ^ 2 + d ^ 2) := by ring
    rw [hcd] at this
    nlinarith [sq_nonneg (a * d + b * c)]
  · apply abs_le_of_sq_le_sq _ h0
    have : (a * c + -(b * d)) ^ 2 + (a * d + b * c) ^ 2 = (a ^ 2 + b ^ 2) * (c ^ 2 + d ^ 2) := by ring
    rw [hcd] at this
    nlinarith [sq_nonneg (a * c + -(b * d))]

/-! ### The sums of the program -/

theorem dft_sumL (hp : 53 ≤ p) {cosine sine : ℝ → ℝ} (hc : GoodCos cosine) (hs : GoodSin sine)
    {im : Image (BitVec 8)} {w h : Nat} {f : Nat → Nat → BitVec 8}
    (s : im.Shows w h f) (hw' : w ≤ 1024) (hh' : h ≤ 1024) {x y : Nat} (hx : x < w) (hy : y < h) :
    ∃ r : ℝ × ℝ, forUp h (fun s n =>
        forUp w (fun (s : ℝ × ℝ) m => do
          let v ← im.at2u m n
          .ok (fl p (s.1 + fl p (Color.real8 v * cosine (dftAngleL p w h x y m n))),
               fl p (s.2 + fl p (-Color.real8 v * sine (dftAngleL p w h x y m n))))) s) (0, 0) = .ok r ∧
      SumR 255 (34 / 10 ^ 9) (w * h) (∑ n ∈ range h, ∑ m ∈ range w,
        (⟨Color.real8 (f m n) * Real.cos (dftAngle w h x y m n),
          -Color.real8 (f m n) * Real.sin (dftAngle w h x y m n)⟩ : ℂ)).re r.1 ∧
      SumR 255 (34 / 10 ^ 9) (w * h) (∑ n ∈ range h, ∑ m ∈ range w,
        (⟨Color.real8 (f m n) * Real.cos (dftAngle w h x y m n),
          -Color.real8 (f m n) * Real.sin (dftAngle w h x y m n)⟩ : ℂ)).im r.2 := by
  have hK : w * h ≤ 2 ^ 20 := (Nat.mul_le_mul hw' hh').trans (by norm_num)
  have key := forUp_sumC (σ := ℝ × ℝ) (R := fun k S s => SumR 255 (34 / 10 ^ 9) k S.re s.1 ∧
      SumR 255 (34 / 10 ^ 9) k S.im s.2) (K := 2 ^ 20) (n := h) (c := w * 1)
    (t := fun n => ∑ m ∈ range w, (⟨Color.real8 (f m n) * Real.cos (dftAngle w h x y m n),
          -Color.real8 (f m n) * Real.sin (dftAngle w h x y m n)⟩ : ℂ))
    (body := fun s n =>
        forUp w (fun (s : ℝ × ℝ) m => do
          let v ← im.at2u m n
          .ok (fl p (s.1 + fl p (Color.real8 v * cosine (dftAngleL p w h x y m n))),
               fl p (s.2 + fl p (-Color.real8 v * sine (dftAngleL p w h x y m n))))) s) ?_
    (k := 0) (S := 0) (s := (0, 0)) (by simp [SumR]) (by rw [mul_comm h, mul_one, zero_add]; exact hK)
  · simpa [mul_comm h w] using key
  · intro n hn k S t hR hk
    refine forUp_sumC (R := fun k S (s : ℝ × ℝ) => SumR 255 (34 / 10 ^ 9) k S.re s.1 ∧
      SumR 255 (34 / 10 ^ 9) k S.im s.2) (K := 2 ^ 20) (c := 1) ?_ hR hk
    intro m hm k S t hR hk
    rw [s.at2u hm hn, Res.ok_bind]
    refine ⟨_, rfl, ?_⟩
    have hv : |Color.real8 (f m n)| ≤ 255 := by
      have := (f m n).isLt
      have h255 : (f m n).toNat ≤ 255 := by omega
      rw [Color.real8, abs_of_nonneg (Nat.cast_nonneg _)]
      exact_mod_cast h255
    have ang := dftAngleL_err hp hw' hh' hx hy hm hn
    have g1 := mulL_err hp (a' := Color.real8 (f m n)) hv (ea := 0) (by simp) (hc _).1 (cosL_err hc ang)
    have g2 := mulL_err hp (a := -Color.real8 (f m n)) (a' := -Color.real8 (f m n)) (A := 255)
      (by rwa [abs_neg]) (ea := 0) (by simp) (hs _).1 (sinL_err hs ang)
    have m1 : |Color.real8 (f m n) * Real.cos (dftAngle w h x y m n)| ≤ 255 := by
      rw [abs_mul]
      calc _ ≤ 255 * 1 := mul_le_mul hv (Real.abs_cos_le_one _) (abs_nonneg _) (by norm_num)
        _ = 255 := by norm_num
    have m2 : |-Color.real8 (f m n) * Real.sin (dftAngle w h x y m n)| ≤ 255 := by
      rw [abs_mul, abs_neg]
      calc _ ≤ 255 * 1 := mul_le_mul hv (Real.abs_sin_le_one _) (abs_nonneg _) (by norm_num)
        _ = 255 := by norm_num
    constructor
    · exact hR.1.stepL hp hk m1 g1 (by unfold eps; norm_num) (by norm_num) (by unfold eps; norm_num)
    · exact hR.2.stepL hp hk m2 g2 (by unfold eps; norm_num) (by norm_num) (by unfold eps; norm_num)

theorem idft_sumL (hp : 53 ≤ p) {cosine sine : ℝ → ℝ} (hc : GoodCos cosine) (hs : GoodSin sine)
    {im : Image ℂ} {w h : Nat} {F G : Nat → Nat → ℂ} {q : ℝ} (hq1 : 1 ≤ q) (hq2 : q ≤ 1024)
    (s : im.Shows w h F) (hw' : w ≤ 1024) (hh' : h ≤ 1024)
    (hF : ∀ x y, x < w → y < h → |(F x y).re - (G x y).re| ≤ q * (35 / 10 ^ 9) ∧
      |(F x y).im - (G x y).im| ≤ q * (35 / 10 ^ 9) ∧ ‖G x y‖ ≤ 255 * q)
    {x y : Nat} (hx : x < w) (hy : y < h) :
    ∃ r : ℂ, forUp h (fun s n =>
        forUp w (fun (s : ℂ) m => do
          let v ← im.at2u m n
          let c := cosine (dftAngleL p w h x y m n)
          let d := sine (dftAngleL p w h x y m n)
          .ok (⟨fl p (s.re + fl p (fl p (v.re * c) - fl p (v.im * d))),
            fl p (s.im + fl p (fl p (v.re * d) + fl p (v.im * c)))⟩ : ℂ)) s) 0 = .ok r ∧
      SumR (255 * q) (q * (111 / 10 ^ 9)) (w * h) (∑ n ∈ range h, ∑ m ∈ range w,
        (⟨(G m n).re * Real.cos (dftAngle w h x y m n) +
        -((G m n).im * Real.sin (dftAngle w h x y m n)), (G m n).re * Real.sin (dftAngle w h x y m n) +
        (G m n).im * Real.cos (dftAngle w h x y m n)⟩ : ℂ)).re r.re ∧
      SumR (255 * q) (q * (111 / 10 ^ 9)) (w * h) (∑ n ∈ range h, ∑ m ∈ range w,
        (⟨(G m n).re * Real.cos (dftAngle w h x y m n) +
        -((G m n).im * Real.sin (dftAngle w h x y m n)), (G m n).re * Real.sin (dftAngle w h x y m n) +
        (G m n).im * Real.cos (dftAngle w h x y m n)⟩ : ℂ)).im r.im := by
  have hK : w * h ≤ 2 ^ 20 := (Nat.mul_le_mul hw' hh').trans (by norm_num)
  have key := forUp_sumC (σ := ℂ) (R := fun k S s => SumR (255 * q) (q * (111 / 10 ^ 9)) k S.re s.re ∧
      SumR (255 * q) (q * (111 / 10 ^ 9)) k S.im s.im) (K := 2 ^ 20) (n := h) (c := w * 1)
    (t := fun n => ∑ m ∈ range w, (⟨(G m n).re * Real.cos (dftAngle w h x y m n) +
        -((G m n).im * Real.sin (dftAngle w h x y m n)), (G m n).re * Real.sin (dftAngle w h x y m n) +
        (G m n).im * Real.cos (dftAngle w h x y m n)⟩ : ℂ))
    (body := fun s n =>
        forUp w (fun (s : ℂ) m => do
          let v ← im.at2u m n
          let c := cosine (dftAngleL p w h x y m n)
          let d := sine (dftAngleL p w h x y m n)
          .ok (⟨fl p (s.re + fl p (fl p (v.re * c) - fl p (v.im * d))),
            fl p (s.im + fl p (fl p (v.re * d) + fl p (v.im * c)))⟩ : ℂ)) s) ?_
    (k := 0) (S := 0) (s := 0) (by simp [SumR]) (by rw [mul_comm h, mul_one, zero_add]; exact hK)
  · simpa [mul_comm h w] using key
  · intro n hn k S t hR hk
    refine forUp_sumC (R := fun k S (s : ℂ) => SumR (255 * q) (q * (111 / 10 ^ 9)) k S.re s.re ∧
      SumR (255 * q) (q * (111 / 10 ^ 9)) k S.im s.im) (K := 2 ^ 20) (c := 1) ?_ hR hk
    intro m hm k S t hR hk
    rw [s.at2u hm hn, Res.ok_bind]
    refine ⟨_, rfl, ?_⟩
    obtain ⟨f1, f2, f3⟩ := hF m n hm hn
    have ang := dftAngleL_err hp hw' hh' hx hy hm hn
    have c1 := cosL_err hc ang
    have s1 := sinL_err hs ang
    have r1 : |(G m n).re| ≤ 255 * q := (Complex.abs_re_le_norm _).trans f3
    have i1 : |(G m n).im| ≤ 255 * q := (Complex.abs_im_le_norm _).trans f3
    obtain ⟨t1, t2⟩ := re_im_le (G m n).re (G m n).im (Real.cos (dftAngle w h x y m n))
      (Real.sin (dftAngle w h x y m n)) (255 * q) f3 (Real.cos_sq_add_sin_sq _)
    have b : q * (35 / 10 ^ 9) + 255 * q * (1 / 2 ^ 36) + eps * (255 * q + q * (35 / 10 ^ 9)) ≤ q * (39 / 10 ^ 9) := by
      unfold eps; norm_num; linarith
    have e1 := (mulL_err hp r1 f1 (hc _).1 c1).trans b
    have e2 := (mulL_err hp i1 f2 (hs _).1 s1).trans b
    have e3 := (mulL_err hp r1 f1 (hs _).1 s1).trans b
    have e4 := (mulL_err hp i1 f2 (hc _).1 c1).trans b
    have e2' : ∀ a b : ℝ, |a - b| = |-a - -b| := fun a b => by rw [neg_sub_neg, abs_sub_comm]
    rw [e2'] at e2
    have u1 := addL_err hp e1 e2 t1
    have u2 := addL_err hp e3 e4 t2
    rw [← sub_eq_add_neg] at u1
    constructor
    · exact hR.1.stepL hp hk t1 u1 (by unfold eps; norm_num; linarith) (by norm_num; linarith)
        (by unfold eps; norm_num; linarith)
    · exact hR.2.stepL hp hk t2 u2 (by unfold eps; norm_num; linarith) (by norm_num; linarith)
        (by unfold eps; norm_num; linarith)

/-- The forward transform. -/
theorem dft2L_shows (hp : 53 ≤ p) {cosine sine : ℝ → ℝ} (hc : GoodCos cosine) (hs : GoodSin sine)
    {im : Image (BitVec 8)} {w h : Nat} {f : Nat → Nat → BitVec 8} (s : im.Shows w h f)
    (hw : 0 < w) (hh : 0 < h) (hw' : w ≤ 1024) (hh' : h ≤ 1024) :
    ∃ out F, dft2L p cosine sine im = .ok out ∧ out.Shows w h F ∧ ∀ x y, x < w → y < h →
      |(F x y).re - (dftVal w h (fun x y => (Color.real8 (f x y) : ℂ)) x y).re| ≤
        Real.sqrt (w * h) * (35 / 10 ^ 9) ∧
      |(F x y).im - (dftVal w h (fun x y => (Color.real8 (f x y) : ℂ)) x y).im| ≤
        Real.sqrt (w * h) * (35 / 10 ^ 9) := by
  have hsum : ∀ x y, ∃ r : ℝ × ℝ, x < w → y < h → _ := fun x y => by
    by_cases hxy : x < w ∧ y < h
    · obtain ⟨r, hr⟩ := dft_sumL hp hc hs s hw' hh' hxy.1 hxy.2
      exact ⟨r, fun _ _ => hr⟩
    · exact ⟨(0, 0), fun a b => absurd ⟨a, b⟩ hxy⟩
  choose r hr using hsum
  have fill := forUp2_fill (fun x y => (⟨fl p (dftNormL p w h * (r x y).1), fl p (dftNormL p w h * (r x y).2)⟩ : ℂ))
    (fun (output : Image ℂ) x y => do
      let (sum_real, sum_imag) ← forUp h (fun s n =>
        forUp w (fun (s : ℝ × ℝ) m => do
          let v ← im.at2u m n
          .ok (fl p (s.1 + fl p (Color.real8 v * cosine (dftAngleL p w h x y m n))),
               fl p (s.2 + fl p (-Color.real8 v * sine (dftAngleL p w h x y m n))))) s) (0, 0)
      output.set2u x y ⟨fl p (dftNormL p w h * sum_real), fl p (dftNormL p w h * sum_imag)⟩)
    (fun x y hx hy im' f' s' => by
      simp only [(hr x y hx hy).1, Res.ok_bind]
      exact s'.set2u hx hy _) _ _ (ofSizes_shows 0 s.w_lt s.h_lt s.fits)
  obtain ⟨out, e, so⟩ := fill
  refine ⟨out, _, ?_, so, ?_⟩
  · unfold dft2L
    rw [s.width, s.height]
    exact e
  · intro x y hx hy
    have n0 : (0 : ℝ) < w * h := by
      have a : (0 : ℝ) < w := by exact_mod_cast hw
      have b : (0 : ℝ) < h := by exact_mod_cast hh
      positivity
    have q0 : 0 < Real.sqrt (w * h) := Real.sqrt_pos.mpr n0
    have sq : ((w * h : Nat) : ℝ) = Real.sqrt (w * h) * Real.sqrt (w * h) := by
      rw [Real.mul_self_sqrt n0.le]; push_cast; rfl
    have nrm := dftNormL_err hp hw hh hw' hh'
    obtain ⟨-, b1, b2⟩ := hr x y hx hy
    rw [dftVal_parts _ (by nlinarith) (by nlinarith) hx hy, Complex.re_ofReal_mul, Complex.im_ofReal_mul]
    have k : Real.sqrt (w * h) * ((1 + 5 * eps) * (34 / 10 ^ 9) + 5 * eps * 255) ≤
        Real.sqrt (w * h) * (35 / 10 ^ 9) := mul_le_mul_of_nonneg_left (by unfold eps; norm_num) q0.le
    exact ⟨(normL_err hp q0 sq nrm b1 (by norm_num) (by norm_num)).trans k,
      (normL_err hp q0 sq nrm b2 (by norm_num) (by norm_num)).trans k⟩

/-- The inverse transform of approximate coefficients. -/
theorem idft2L_shows (hp : 53 ≤ p) {cosine sine : ℝ → ℝ} (hc : GoodCos cosine) (hs : GoodSin sine)
    {im : Image ℂ} {w h : Nat} {F G : Nat → Nat → ℂ} (s : im.Shows w h F)
    (hw : 0 < w) (hh : 0 < h) (hw' : w ≤ 1024) (hh' : h ≤ 1024)
    (hF : ∀ x y, x < w → y < h → |(F x y).re - (G x y).re| ≤ Real.sqrt (w * h) * (35 / 10 ^ 9) ∧
      |(F x y).im - (G x y).im| ≤ Real.sqrt (w * h) * (35 / 10 ^ 9) ∧ ‖G x y‖ ≤ 255 * Real.sqrt (w * h)) :
    ∃ out R, idft2L p cosine sine im = .ok out ∧ out.Shows w h R ∧ ∀ x y, x < w → y < h →
      |(R x y).re - (idftVal w h G x y).re| ≤ w * h * (112 / 10 ^ 9) ∧
      |(R x y).im - (idftVal w h G x y).im| ≤ w * h * (112 / 10 ^ 9) := by
  have n0 : (1 : ℝ) ≤ w * h := by exact_mod_cast Nat.mul_pos hw hh
  have n1 : (w * h : ℝ) ≤ 1024 * 1024 := by exact_mod_cast Nat.mul_le_mul hw' hh'
  have q1 : 1 ≤ Real.sqrt (w * h) := by rw [Real.le_sqrt' one_pos]; linarith
  have q2 : Real.sqrt (w * h) ≤ 1024 := by rw [Real.sqrt_le_left (by norm_num)]; linarith
  have hsum : ∀ x y, ∃ r : ℂ, x < w → y < h → _ := fun x y => by
    by_cases hxy : x < w ∧ y < h
    · obtain ⟨r, hr⟩ := idft_sumL hp hc hs q1 q2 s hw' hh' hF hxy.1 hxy.2
      exact ⟨r, fun _ _ => hr⟩
    · exact ⟨0, fun a b => absurd ⟨a, b⟩ hxy⟩
  choose r hr using hsum
  have fill := forUp2_fill (fun x y => (⟨fl p (dftNormL p w h * (r x y).re), fl p (dftNormL p w h * (r x y).im)⟩ : ℂ))
    (fun (output : Image ℂ) x y => do
      let sum ← forUp h (fun s n =>
        forUp w (fun (s : ℂ) m => do
          let v ← im.at2u m n
          let c := cosine (dftAngleL p w h x y m n)
          let d := sine (dftAngleL p w h x y m n)
          .ok (⟨fl p (s.re + fl p (fl p (v.re * c) - fl p (v.im * d))),
            fl p (s.im + fl p (fl p (v.re * d) + fl p (v.im * c)))⟩ : ℂ)) s) 0
      output.set2u x y ⟨fl p (dftNormL p w h * sum.re), fl p (dftNormL p w h * sum.im)⟩)
    (fun x y hx hy im' f' s' => by
      simp only [(hr x y hx hy).1, Res.ok_bind]
      exact s'.set2u hx hy _) _ _ (ofSizes_shows 0 s.w_lt s.h_lt s.fits)
  obtain ⟨out, e, so⟩ := fill
  refine ⟨out, _, ?_, so, ?_⟩
  · unfold idft2L
    rw [s.width, s.height]
    exact e
  · intro x y hx hy
    have q0 : 0 < Real.sqrt (w * h) := by linarith
    have sq : ((w * h : Nat) : ℝ) = Real.sqrt (w * h) * Real.sqrt (w * h) := by
      rw [Real.mul_self_sqrt (by linarith)]; push_cast; rfl
    have nrm := dftNormL_err hp hw hh hw' hh'
    obtain ⟨-, b1, b2⟩ := hr x y hx hy
    rw [idftVal_parts _ (by nlinarith) (by nlinarith) hx hy, Complex.re_ofReal_mul, Complex.im_ofReal_mul]
    have k : Real.sqrt (w * h) * ((1 + 5 * eps) * (Real.sqrt (w * h) * (111 / 10 ^ 9)) +
        5 * eps * (255 * Real.sqrt (w * h))) ≤ w * h * (112 / 10 ^ 9) := by
      have : Real.sqrt (w * h) * ((1 + 5 * eps) * (Real.sqrt (w * h) * (111 / 10 ^ 9)) +
        5 * eps * (255 * Real.sqrt (w * h))) = Real.sqrt (w * h) * Real.sqrt (w * h) *
          ((1 + 5 * eps) * (111 / 10 ^ 9) + 5 * eps * 255) := by ring
      rw [this, ← sq]
      push_cast
      exact mul_le_mul_of_nonneg_left (by unfold eps; norm_num) (by linarith)
    exact ⟨(normL_err hp q0 sq nrm b1 (by positivity) (by positivity)).trans k,
      (normL_err hp q0 sq nrm b2 (by positivity) (by positivity)).trans k⟩

end TinyDIP.Rnd
