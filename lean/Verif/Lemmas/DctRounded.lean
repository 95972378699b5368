import Verif.Lemmas.Rounded
import Verif.Lemmas.Transform
import Verif.Model.DctRounded
import Verif.Spec.DctRounded
import Mathlib.Tactic.Choose

/-!
# Lemmas on cosine transforms in double precision
-/

namespace TinyDIP.Rnd

open TinyDIP Finset

/-- One rounded product: `a'` is within `ea` of `a`, `c'` within `ec` of `c`. -/
theorem mul_err {a a' c c' A ea ec : ℝ} (ha : |a| ≤ A) (hea : |a' - a| ≤ ea) (hc' : |c'| ≤ 1)
    (hec : |c' - c| ≤ ec) : |dbl (a' * c') - a * c| ≤ ea + A * ec + eps * (A + ea) := by
  have h1 : |a' * c' - a * c| ≤ ea + A * ec := by
    have : a' * c' - a * c = (a' - a) * c' + a * (c' - c) := by ring
    rw [this]
    refine (abs_add_le _ _).trans (add_le_add ?_ ?_)
    · rw [abs_mul]
      calc |a' - a| * |c'| ≤ ea * 1 := mul_le_mul hea hc' (abs_nonneg _) ((abs_nonneg _).trans hea)
        _ = ea := mul_one _
    · rw [abs_mul]
      exact mul_le_mul ha hec (abs_nonneg _) ((abs_nonneg _).trans ha)
  have h2 : |a' * c'| ≤ A + ea := by
    rw [abs_mul]
    have h3 : |a'| ≤ A + ea := by
      have : a' = a + (a' - a) := by ring
      rw [this]
      exact (abs_add_le _ _).trans (add_le_add ha hea)
    calc |a'| * |c'| ≤ |a'| * 1 := mul_le_mul_of_nonneg_left hc' (abs_nonneg _)
      _ ≤ A + ea := by rw [mul_one]; exact h3
  have h4 := dbl_err (a' * c')
  have h5 : eps * |a' * c'| ≤ eps * (A + ea) := mul_le_mul_of_nonneg_left h2 eps_pos.le
  have : dbl (a' * c') - a * c = (dbl (a' * c') - a' * c') + (a' * c' - a * c) := by ring
  rw [this]
  refine (abs_add_le _ _).trans ?_
  linarith

/-- The invariant of a rounded sum after `k` terms: `s` is within `k * d` of the exact sum `S` of terms of size at
most `T`. -/
def SumR (T d : ℝ) (k : Nat) (S s : ℝ) : Prop := |s - S| ≤ k * d ∧ |S| ≤ k * T

theorem SumR.step {T d η : ℝ} {k K : Nat} {S s t t' : ℝ} (h : SumR T d k S s) (hk : k + 1 ≤ K) (ht : |t| ≤ T)
    (hη : |t' - t| ≤ η) (hη1 : η ≤ 1) (hd1 : d ≤ 1) (hd : η + eps * (K * (T + 2)) ≤ d) :
    SumR T d (k + 1) (S + t) (dbl (s + t')) := by
  obtain ⟨h1, h2⟩ := h
  have hT : 0 ≤ T := (abs_nonneg _).trans ht
  have hkK : (k : ℝ) + 1 ≤ K := by exact_mod_cast hk
  have hk0 : (0 : ℝ) ≤ k := Nat.cast_nonneg k
  refine ⟨?_, ?_⟩
  · have e1 : |s + t' - (S + t)| ≤ k * d + η := by
      have : s + t' - (S + t) = (s - S) + (t' - t) := by ring
      rw [this]
      exact (abs_add_le _ _).trans (add_le_add h1 hη)
    have e2 : |s + t'| ≤ K * (T + 2) := by
      have : s + t' = (S + t) + (s + t' - (S + t)) := by ring
      rw [this]
      refine (abs_add_le _ _).trans ?_
      have a1 : |S + t| ≤ (k + 1) * T := (abs_add_le _ _).trans (by linarith)
      have a2 : (k : ℝ) * d ≤ k * 1 := mul_le_mul_of_nonneg_left hd1 hk0
      have a3 : ((k : ℝ) + 1) * T ≤ K * T := mul_le_mul_of_nonneg_right hkK hT
      have : (K : ℝ) * (T + 2) = K * T + 2 * K := by ring
      linarith
    have e3 := dbl_err (s + t')
    have e4 : eps * |s + t'| ≤ eps * (K * (T + 2)) := mul_le_mul_of_nonneg_left e2 eps_pos.le
    have : dbl (s + t') - (S + t) = (dbl (s + t') - (s + t')) + (s + t' - (S + t)) := by ring
    rw [this]
    refine (abs_add_le _ _).trans ?_
    push_cast
    linarith
  · push_cast
    exact (abs_add_le _ _).trans (by linarith)

/-- A loop whose body adds `c` terms. -/
theorem forUp_sumR {R : Nat → ℝ → ℝ → Prop} {K n c : Nat} {t : Nat → ℝ} {body : ℝ → Nat → Res ℝ}
    (hb : ∀ i, i < n → ∀ k S s, R k S s → k + c ≤ K → ∃ s', body s i = .ok s' ∧ R (k + c) (S + t i) s')
    {k : Nat} {S s : ℝ} (h : R k S s) (hk : k + n * c ≤ K) :
    ∃ s', forUp n body s = .ok s' ∧ R (k + n * c) (S + ∑ i ∈ range n, t i) s' := by
  refine forUp_inv (P := fun j s' => R (k + j * c) (S + ∑ i ∈ range j, t i) s') ?_ s (by simpa using h)
  intro j s' hj hR
  have hle : k + j * c + c ≤ K := by
    have : (j + 1) * c ≤ n * c := Nat.mul_le_mul_right _ hj
    rw [Nat.add_mul, one_mul] at this
    omega
  obtain ⟨s'', e, hR'⟩ := hb j hj _ _ _ hR hle
  refine ⟨s'', e, ?_⟩
  rw [sum_range_succ, ← add_assoc]
  have : k + (j + 1) * c = k + j * c + c := by ring
  rw [this]
  exact hR'

/-! ### The angles -/

theorem dctAngle_eq (N p k : Nat) : Real.pi / (2 * (N : ℝ)) * (2 * p + 1) * k = dctAngle N p k := rfl

theorem pow4_bounds {e : ℝ} (h0 : 0 ≤ e) (h1 : e ≤ 1 / 100) : 1 - 5 * e ≤ (1 - e) ^ 4 ∧ (1 + e) ^ 4 ≤ 1 + 5 * e := by
  have s2 : e ^ 2 ≤ e / 100 := by rw [pow_two]; calc e * e ≤ e * (1 / 100) := mul_le_mul_of_nonneg_left h1 h0
                                    _ = e / 100 := by ring
  have p2 : 0 ≤ e ^ 2 := sq_nonneg e
  have s3 : e ^ 3 ≤ e / 100 := by
    calc e ^ 3 = e * e ^ 2 := by ring
      _ ≤ e * (1 / 100) := mul_le_mul_of_nonneg_left (by linarith) h0
      _ = e / 100 := by ring
  have p3 : 0 ≤ e ^ 3 := pow_nonneg h0 3
  have s4 : e ^ 4 ≤ e / 100 := by
    calc e ^ 4 = e * e ^ 3 := by ring
      _ ≤ e * (1 / 100) := mul_le_mul_of_nonneg_left (by linarith) h0
      _ = e / 100 := by ring
  have p4 : 0 ≤ e ^ 4 := pow_nonneg h0 4
  have x1 : (1 - e) ^ 4 = 1 - 4 * e + 6 * e ^ 2 - 4 * e ^ 3 + e ^ 4 := by ring
  have x2 : (1 + e) ^ 4 = 1 + 4 * e + 6 * e ^ 2 + 4 * e ^ 3 + e ^ 4 := by ring
  rw [x1, x2]
  constructor <;> linarith

theorem dctAngleD_err {N p k : Nat} (hN : 0 < N) (hN' : N ≤ 1024) (hp : p < N) (hk : k < N) :
    |dctAngleD N p k - dctAngle N p k| ≤ 20480 * eps := by
  have c1 : dbl (N : ℝ) = N := dbl_nat (by omega)
  have c2 : dbl (2 * (N : ℝ)) = 2 * N := by
    have := dbl_nat (n := 2 * N) (by omega)
    simpa using this
  have c3 : dbl (p : ℝ) = p := dbl_nat (by omega)
  have c4 : dbl (2 * (p : ℝ)) = 2 * p := by
    have := dbl_nat (n := 2 * p) (by omega)
    simpa using this
  have c5 : dbl (2 * (p : ℝ) + 1) = 2 * p + 1 := by
    have := dbl_nat (n := 2 * p + 1) (by omega)
    simpa using this
  have c6 : dbl (k : ℝ) = k := dbl_nat (by omega)
  unfold dctAngleD dctAngle
  rw [c1, c2, c3, c4, c5, c6]
  have n0 : (0 : ℝ) < 2 * N := by positivity
  have q0 : (0 : ℝ) ≤ 2 * p + 1 := by positivity
  have k0 : (0 : ℝ) ≤ k := Nat.cast_nonneg k
  have hpi := Real.pi_pos
  have hpi4 : Real.pi ≤ 4 := Real.pi_le_four
  have heps := eps_pos
  have heps1 : eps ≤ 1 / 100 := by unfold eps; norm_num
  obtain ⟨a1, a2⟩ := dbl_bounds hpi.le
  have a0 : 0 ≤ dbl Real.pi := dbl_nonneg hpi.le
  set P := dbl Real.pi
  obtain ⟨b1, b2⟩ := dbl_bounds (x := P / (2 * N)) (by positivity)
  have b0 := dbl_nonneg (x := P / (2 * (N : ℝ))) (by positivity)
  set B := dbl (P / (2 * N))
  obtain ⟨d1, d2⟩ := dbl_bounds (x := B * (2 * p + 1)) (by positivity)
  have d0 := dbl_nonneg (x := B * (2 * (p : ℝ) + 1)) (by positivity)
  set D := dbl (B * (2 * p + 1))
  obtain ⟨e1, e2⟩ := dbl_bounds (x := D * k) (by positivity)
  set E := dbl (D * k)
  have h1e : 0 ≤ 1 - eps := by linarith
  have h1p : 0 ≤ 1 + eps := by linarith
  -- lower bounds
  have l2 : (1 - eps) ^ 2 * (Real.pi / (2 * N)) ≤ B := by
    refine le_trans ?_ b1
    have : (1 - eps) * Real.pi / (2 * N) ≤ P / (2 * N) := div_le_div_of_nonneg_right a1 n0.le
    calc (1 - eps) ^ 2 * (Real.pi / (2 * N)) = (1 - eps) * ((1 - eps) * Real.pi / (2 * N)) := by ring
      _ ≤ _ := mul_le_mul_of_nonneg_left this h1e
  have l3 : (1 - eps) ^ 3 * (Real.pi / (2 * N) * (2 * p + 1)) ≤ D := by
    refine le_trans ?_ d1
    calc (1 - eps) ^ 3 * (Real.pi / (2 * N) * (2 * p + 1)) =
        (1 - eps) * ((1 - eps) ^ 2 * (Real.pi / (2 * N)) * (2 * p + 1)) := by ring
      _ ≤ _ := mul_le_mul_of_nonneg_left (mul_le_mul_of_nonneg_right l2 q0) h1e
  have l4 : (1 - eps) ^ 4 * (Real.pi / (2 * N) * (2 * p + 1) * k) ≤ E := by
    refine le_trans ?_ e1
    calc (1 - eps) ^ 4 * (Real.pi / (2 * N) * (2 * p + 1) * k) =
        (1 - eps) * ((1 - eps) ^ 3 * (Real.pi / (2 * N) * (2 * p + 1)) * k) := by ring
      _ ≤ _ := mul_le_mul_of_nonneg_left (mul_le_mul_of_nonneg_right l3 k0) h1e
  have u2 : B ≤ (1 + eps) ^ 2 * (Real.pi / (2 * N)) := by
    refine b2.trans ?_
    have : P / (2 * N) ≤ (1 + eps) * Real.pi / (2 * N) := div_le_div_of_nonneg_right a2 n0.le
    calc (1 + eps) * (P / (2 * N)) ≤ (1 + eps) * ((1 + eps) * Real.pi / (2 * N)) :=
          mul_le_mul_of_nonneg_left this h1p
      _ = _ := by ring
  have u3 : D ≤ (1 + eps) ^ 3 * (Real.pi / (2 * N) * (2 * p + 1)) := by
    refine d2.trans ?_
    calc (1 + eps) * (B * (2 * p + 1)) ≤ (1 + eps) * ((1 + eps) ^ 2 * (Real.pi / (2 * N)) * (2 * p + 1)) :=
          mul_le_mul_of_nonneg_left (mul_le_mul_of_nonneg_right u2 q0) h1p
      _ = _ := by ring
  have u4 : E ≤ (1 + eps) ^ 4 * (Real.pi / (2 * N) * (2 * p + 1) * k) := by
    refine e2.trans ?_
    calc (1 + eps) * (D * k) ≤ (1 + eps) * ((1 + eps) ^ 3 * (Real.pi / (2 * N) * (2 * p + 1)) * k) :=
          mul_le_mul_of_nonneg_left (mul_le_mul_of_nonneg_right u3 k0) h1p
      _ = _ := by ring
  have hA : Real.pi / (2 * N) * (2 * p + 1) * k ≤ 4096 := by
    have hp' : (2 * p + 1 : ℝ) ≤ 2 * N := by
      have : 2 * p + 1 ≤ 2 * N := by omega
      exact_mod_cast this
    have hk' : (k : ℝ) ≤ 1024 := by
      have : k ≤ 1024 := by omega
      exact_mod_cast this
    have : Real.pi / (2 * N) * (2 * p + 1) ≤ 4 := by
      rw [div_mul_eq_mul_div, div_le_iff₀ n0]
      exact mul_le_mul hpi4 hp' q0 (by norm_num)
    calc Real.pi / (2 * N) * (2 * p + 1) * k ≤ 4 * 1024 := mul_le_mul this hk' k0 (by norm_num)
      _ = 4096 := by norm_num
  have hA0 : 0 ≤ Real.pi / (2 * N) * (2 * p + 1) * k := by positivity
  set A := Real.pi / (2 * N) * (2 * p + 1) * k
  obtain ⟨f1, f2⟩ := pow4_bounds heps.le heps1
  have g1 : (1 - 5 * eps) * A ≤ E := (mul_le_mul_of_nonneg_right f1 hA0).trans l4
  have g2 : E ≤ (1 + 5 * eps) * A := u4.trans (mul_le_mul_of_nonneg_right f2 hA0)
  have g3 : 5 * eps * A ≤ 5 * eps * 4096 := mul_le_mul_of_nonneg_left hA (by positivity)
  rw [abs_le]
  constructor <;> linarith

theorem cosD_err {cosine : ℝ → ℝ} (hc : GoodCos cosine) {N p k : Nat} (hN' : N ≤ 1024) (hp : p < N)
    (hk : k < N) : |cosine (dctAngleD N p k) - cosB N p k| ≤ 1 / 2 ^ 38 := by
  have h1 := (hc (dctAngleD N p k)).2
  have h2 := Real.abs_cos_sub_cos_le (dctAngleD N p k) (dctAngle N p k)
  have h3 := dctAngleD_err (by omega) hN' hp hk
  have : cosine (dctAngleD N p k) - cosB N p k = (cosine (dctAngleD N p k) - Real.cos (dctAngleD N p k)) +
      (Real.cos (dctAngleD N p k) - Real.cos (dctAngle N p k)) := by
    rw [show cosB N p k = Real.cos (dctAngle N p k) from rfl]; ring
  rw [this]
  refine (abs_add_le _ _).trans ?_
  have h4 := h2.trans h3
  have : (1 : ℝ) / 2 ^ 52 + 20480 * eps ≤ 1 / 2 ^ 38 := by unfold eps; norm_num
  linarith

theorem cosB_le (N p k : Nat) : |cosB N p k| ≤ 1 := Real.abs_cos_le_one _

/-! ### The weights -/

theorem dctAlpha_range (i : Nat) : 0 ≤ dctAlpha i ∧ dctAlpha i ≤ 1 := by
  unfold dctAlpha
  split
  · have h1 : Real.sqrt 2 ≤ 2 := by
      rw [Real.sqrt_le_left (by norm_num)]; norm_num
    have h0 := Real.sqrt_nonneg 2
    constructor <;> linarith
  · norm_num

theorem dctAlphaD_range (i : Nat) : 0 ≤ dctAlphaD i ∧ dctAlphaD i ≤ 1 := by
  unfold dctAlphaD
  split
  · have h1 : Real.sqrt 2 ≤ 2 := by
      rw [Real.sqrt_le_left (by norm_num)]; norm_num
    have h0 := Real.sqrt_nonneg 2
    have h2 : dbl (Real.sqrt 2) ≤ 2 := by
      have := dbl_le_nat (x := Real.sqrt 2) (n := 2) (by norm_num) (by exact_mod_cast h1)
      exact_mod_cast this
    have h3 := dbl_nonneg h0
    refine ⟨dbl_nonneg (by linarith), ?_⟩
    have := dbl_le_nat (x := dbl (Real.sqrt 2) / 2) (n := 1) (by norm_num) (by push_cast; linarith)
    exact_mod_cast this
  · norm_num

theorem dctAlphaD_err (i : Nat) : |dctAlphaD i - dctAlpha i| ≤ 3 * eps := by
  unfold dctAlphaD dctAlpha
  split
  · have h1 : Real.sqrt 2 ≤ 2 := by
      rw [Real.sqrt_le_left (by norm_num)]; norm_num
    have h0 := Real.sqrt_nonneg 2
    obtain ⟨a1, a2⟩ := dbl_bounds h0
    have a0 := dbl_nonneg h0
    obtain ⟨b1, b2⟩ := dbl_bounds (x := dbl (Real.sqrt 2) / 2) (by linarith)
    have heps := eps_pos
    have heps1 : eps ≤ 1 / 100 := by unfold eps; norm_num
    have hu : dbl (Real.sqrt 2) ≤ 3 := by nlinarith
    rw [abs_le]
    constructor <;> nlinarith
  · simp
    exact eps_pos.le

/-! ### The sums -/

theorem three_cos {a a' c1 c1' c2 c2' c3 c3' A ea : ℝ} (ha : |a| ≤ A) (hea : |a' - a| ≤ ea) (hea1 : ea ≤ 1)
    (hA : 1 ≤ A)
    (h1 : |c1' - c1| ≤ 1 / 2 ^ 38) (h2 : |c2' - c2| ≤ 1 / 2 ^ 38) (h3 : |c3' - c3| ≤ 1 / 2 ^ 38)
    (b1 : |c1'| ≤ 1) (b2 : |c2'| ≤ 1) (b3 : |c3'| ≤ 1) (d1 : |c1| ≤ 1) (d2 : |c2| ≤ 1) (d3 : |c3| ≤ 1) :
    |dbl (dbl (dbl (a' * c1') * c2') * c3') - a * c1 * c2 * c3| ≤ ea + A * (1 / 2 ^ 36) ∧
      |a * c1 * c2 * c3| ≤ A := by
  have m1 : |a * c1| ≤ A := by
    rw [abs_mul]
    calc |a| * |c1| ≤ A * 1 := mul_le_mul ha d1 (abs_nonneg _) (by linarith)
      _ = A := mul_one _
  have m2 : |a * c1 * c2| ≤ A := by
    rw [abs_mul]
    calc |a * c1| * |c2| ≤ A * 1 := mul_le_mul m1 d2 (abs_nonneg _) (by linarith)
      _ = A := mul_one _
  have m3 : |a * c1 * c2 * c3| ≤ A := by
    rw [abs_mul]
    calc |a * c1 * c2| * |c3| ≤ A * 1 := mul_le_mul m2 d3 (abs_nonneg _) (by linarith)
      _ = A := mul_one _
  have ea0 : 0 ≤ ea := (abs_nonneg _).trans hea
  have heps := eps_pos
  have e1 := mul_err ha hea b1 h1
  set x1 := ea + A * (1 / 2 ^ 38) + eps * (A + ea)
  have e2 := mul_err m1 e1 b2 h2
  set x2 := x1 + A * (1 / 2 ^ 38) + eps * (A + x1)
  have e3 := mul_err m2 e2 b3 h3
  refine ⟨e3.trans ?_, m3⟩
  have q : eps = 1 / 2 ^ 53 := rfl
  have y1 : x1 ≤ ea + A * (5 / 4 * (1 / 2 ^ 38)) := by
    simp only [x1]; rw [q]; norm_num; linarith
  have y1' : x1 ≤ 2 * A := y1.trans (by norm_num; linarith)
  have y2 : x2 ≤ ea + A * (10 / 4 * (1 / 2 ^ 38)) := by
    simp only [x2]; rw [q]; norm_num at y1 ⊢; linarith
  have y2' : x2 ≤ 2 * A := y2.trans (by norm_num; linarith)
  rw [q]; norm_num at y2 ⊢; linarith

theorem dct_sum {cosine : ℝ → ℝ} (hc : GoodCos cosine) {im : Image ℝ} {w h : Nat} {f : Nat → Nat → ℝ}
    (s : im.Shows w h f) (hw' : w ≤ 1024) (hh' : h ≤ 1024)
    (hf : ∀ x y, x < w → y < h → |f x y| ≤ 255) {x y : Nat} (hx : x < w) (hy : y < h) :
    ∃ r, forUp 1 (fun sum inner_z => do
      let plane ← vget [im] inner_z
      forUp plane.height (fun sum inner_y =>
        forUp plane.width (fun sum inner_x => do
          let v ← plane.at2 inner_x inner_y
          .ok (dbl (sum + dbl (dbl (dbl (v * cosine (dctAngleD w inner_x x)) *
            cosine (dctAngleD h inner_y y)) * cosine (dctAngleD 1 inner_z 0))))) sum) sum) 0 = .ok r ∧
      SumR 255 (34 / 10 ^ 9) (w * h) (∑ z' ∈ range 1, ∑ y' ∈ range h, ∑ x' ∈ range w,
        f x' y' * cosB w x' x * cosB h y' y * cosB 1 z' 0) r := by
  have hK : w * h ≤ 2 ^ 20 := (Nat.mul_le_mul hw' hh').trans (by norm_num)
  have key := forUp_sumR (R := SumR 255 (34 / 10 ^ 9)) (K := 2 ^ 20) (n := 1) (c := h * (w * 1))
    (t := fun z' => ∑ y' ∈ range h, ∑ x' ∈ range w, f x' y' * cosB w x' x * cosB h y' y * cosB 1 z' 0)
    (body := fun sum inner_z => do
      let plane ← vget [im] inner_z
      forUp plane.height (fun sum inner_y =>
        forUp plane.width (fun sum inner_x => do
          let v ← plane.at2 inner_x inner_y
          .ok (dbl (sum + dbl (dbl (dbl (v * cosine (dctAngleD w inner_x x)) *
            cosine (dctAngleD h inner_y y)) * cosine (dctAngleD 1 inner_z 0))))) sum) sum) ?_
    (k := 0) (S := 0) (s := 0) (by simp [SumR]) (by rw [mul_comm h, mul_one, one_mul, zero_add]; exact hK)
  · simpa [mul_comm h w] using key
  · intro z hz k S t hR hk
    obtain rfl : z = 0 := by omega
    simp only [vget, List.getElem?_cons_zero, Res.ok_bind, s.width, s.height]
    refine forUp_sumR (K := 2 ^ 20) (c := w * 1) ?_ hR hk
    intro y' hy' k S t hR hk
    refine forUp_sumR (K := 2 ^ 20) (c := 1) ?_ hR hk
    intro x' hx' k S t hR hk
    rw [s.px x' y' hx' hy', Res.ok_bind]
    refine ⟨_, rfl, ?_⟩
    obtain ⟨g1, g2⟩ := three_cos (hf x' y' hx' hy') (a' := f x' y') (ea := 0) (by simp) (by norm_num) (by norm_num)
      (cosD_err hc hw' hx' hx) (cosD_err hc hh' hy' hy) (cosD_err hc (N := 1) (p := 0) (k := 0) (by norm_num)
        (by norm_num) (by norm_num)) (hc _).1 (hc _).1 (hc _).1 (cosB_le _ _ _) (cosB_le _ _ _) (cosB_le _ _ _)
    exact hR.step hk g2 g1 (by norm_num) (by norm_num) (by unfold eps; norm_num)

theorem weight_err (z y x : Nat) :
    |dbl (dbl (dbl (8 * dctAlphaD z) * dctAlphaD y) * dctAlphaD x) - 8 * dctAlpha z * dctAlpha y * dctAlpha x| ≤
      100 * eps := by
  have r : ∀ i, |dctAlphaD i| ≤ 1 := fun i => by
    rw [abs_of_nonneg (dctAlphaD_range i).1]; exact (dctAlphaD_range i).2
  have q : ∀ i, |dctAlpha i| ≤ 1 := fun i => by
    rw [abs_of_nonneg (dctAlpha_range i).1]; exact (dctAlpha_range i).2
  have m1 : |8 * dctAlpha z| ≤ 8 := by
    rw [abs_mul, abs_of_pos (by norm_num : (0 : ℝ) < 8)]
    linarith [q z]
  have m2 : |8 * dctAlpha z * dctAlpha y| ≤ 8 := by
    rw [abs_mul]
    calc |8 * dctAlpha z| * |dctAlpha y| ≤ 8 * 1 := mul_le_mul m1 (q y) (abs_nonneg _) (by norm_num)
      _ = 8 := by norm_num
  have heps := eps_pos
  have e1 := mul_err (a := 8) (a' := 8) (A := 8) (ea := 0) (by norm_num) (by simp) (r z) (dctAlphaD_err z)
  have e2 := mul_err m1 e1 (r y) (dctAlphaD_err y)
  have e3 := mul_err m2 e2 (r x) (dctAlphaD_err x)
  refine e3.trans ?_
  unfold eps
  norm_num

theorem weight_le (y x : Nat) : |8 * dctAlpha 0 * dctAlpha y * dctAlpha x| ≤ 566 / 100 := by
  have hs : Real.sqrt 2 ≤ 1415 / 1000 := by
    rw [Real.sqrt_le_left (by norm_num)]; norm_num
  have h0 : 8 * dctAlpha 0 ≤ 566 / 100 := by
    rw [dctAlpha, if_pos rfl]; linarith
  obtain ⟨a0, -⟩ := dctAlpha_range 0
  obtain ⟨b0, b1⟩ := dctAlpha_range y
  obtain ⟨c0, c1⟩ := dctAlpha_range x
  rw [abs_of_nonneg (by positivity)]
  calc 8 * dctAlpha 0 * dctAlpha y * dctAlpha x ≤ 566 / 100 * 1 * 1 :=
        mul_le_mul (mul_le_mul h0 b1 b0 (by norm_num)) c1 c0 (by norm_num)
    _ = 566 / 100 := by norm_num

theorem coef_err {C C' S r : ℝ} {n : Nat} (hn : 0 < n) (hC : |C| ≤ 566 / 100) (hC' : |C' - C| ≤ 100 * eps)
    (h : SumR 255 (34 / 10 ^ 9) n S r) :
    |dbl (dbl (C' * r) / n) - C * S / n| ≤ 2 / 10 ^ 7 ∧ |C * S / n| ≤ 1444 := by
  obtain ⟨h1, h2⟩ := h
  have hn0 : (0 : ℝ) < n := by exact_mod_cast hn
  have heps : eps = 1 / 2 ^ 53 := rfl
  have hC1 : |C'| ≤ 567 / 100 := by
    have : C' = C + (C' - C) := by ring
    rw [this]
    refine (abs_add_le _ _).trans ?_
    rw [heps] at hC'
    norm_num at hC' ⊢
    linarith
  have a1 : |C' * r - C * S| ≤ n * (194 / 10 ^ 9) := by
    have : C' * r - C * S = C' * (r - S) + (C' - C) * S := by ring
    rw [this]
    refine (abs_add_le _ _).trans ?_
    rw [abs_mul, abs_mul]
    have b1 : |C'| * |r - S| ≤ 567 / 100 * (n * (34 / 10 ^ 9)) := mul_le_mul hC1 h1 (abs_nonneg _) (by norm_num)
    have b2 : |C' - C| * |S| ≤ 100 * eps * (n * 255) := mul_le_mul hC' h2 (abs_nonneg _) (by rw [heps]; norm_num)
    rw [heps] at b2
    norm_num at b1 b2 ⊢
    linarith
  have a2 : |C * S| ≤ n * 1444 := by
    rw [abs_mul]
    have b1 : |C| * |S| ≤ 566 / 100 * (n * 255) := mul_le_mul hC h2 (abs_nonneg _) (by norm_num)
    norm_num at b1 ⊢
    linarith
  have a3 : |C' * r| ≤ n * 1445 := by
    have : C' * r = C * S + (C' * r - C * S) := by ring
    rw [this]
    refine (abs_add_le _ _).trans ?_
    have : (n : ℝ) * (194 / 10 ^ 9) ≤ n * 1 := mul_le_mul_of_nonneg_left (by norm_num) hn0.le
    linarith
  have a4 : |dbl (C' * r) - C * S| ≤ n * (195 / 10 ^ 9) := by
    have : dbl (C' * r) - C * S = (dbl (C' * r) - C' * r) + (C' * r - C * S) := by ring
    rw [this]
    refine (abs_add_le _ _).trans ?_
    have := (dbl_err (C' * r)).trans (mul_le_mul_of_nonneg_left a3 eps_pos.le)
    rw [heps] at this
    norm_num at a1 this ⊢
    linarith
  have a5 : |C * S / n| ≤ 1444 := by
    rw [abs_div, abs_of_pos hn0, div_le_iff₀ hn0]
    linarith
  refine ⟨?_, a5⟩
  have a6 : |dbl (C' * r) / n - C * S / n| ≤ 195 / 10 ^ 9 := by
    rw [← sub_div, abs_div, abs_of_pos hn0, div_le_iff₀ hn0]
    linarith
  have a7 : |dbl (C' * r) / n| ≤ 1445 := by
    have : dbl (C' * r) / n = C * S / n + (dbl (C' * r) / n - C * S / n) := by ring
    rw [this]
    refine (abs_add_le _ _).trans ?_
    norm_num at a6 ⊢
    linarith
  have : dbl (dbl (C' * r) / n) - C * S / n =
      (dbl (dbl (C' * r) / n) - dbl (C' * r) / n) + (dbl (C' * r) / n - C * S / n) := by ring
  rw [this]
  refine (abs_add_le _ _).trans ?_
  have := (dbl_err (dbl (C' * r) / n)).trans (mul_le_mul_of_nonneg_left a7 eps_pos.le)
  rw [heps] at this
  norm_num at a6 this ⊢
  linarith

/-- The forward transform: each coefficient is within `2 / 10 ^ 7` of the exact one. -/
theorem dct3OnePlaneD_shows {cosine : ℝ → ℝ} (hc : GoodCos cosine) {im : Image ℝ} {w h : Nat}
    {f : Nat → Nat → ℝ} (s : im.Shows w h f) (hw : 0 < w) (hh : 0 < h) (hw' : w ≤ 1024) (hh' : h ≤ 1024)
    (hf : ∀ x y, x < w → y < h → |f x y| ≤ 255) (order : List (Nat × Nat)) (ho : order.Perm (iterYX w h)) :
    ∃ out F, dct3OnePlaneD cosine order [im] 0 = .ok out ∧ out.Shows w h F ∧ ∀ x y, x < w → y < h →
      |F x y - dctVal w h 1 (fun _ => f) 0 x y| ≤ 2 / 10 ^ 7 ∧ |dctVal w h 1 (fun _ => f) 0 x y| ≤ 1444 := by
  have hK : w * h ≤ 2 ^ 20 := (Nat.mul_le_mul hw' hh').trans (by norm_num)
  have hsum : ∀ x y, ∃ r, x < w → y < h → forUp 1 (fun sum inner_z => do
      let plane ← vget [im] inner_z
      forUp plane.height (fun sum inner_y =>
        forUp plane.width (fun sum inner_x => do
          let v ← plane.at2 inner_x inner_y
          .ok (dbl (sum + dbl (dbl (dbl (v * cosine (dctAngleD w inner_x x)) *
            cosine (dctAngleD h inner_y y)) * cosine (dctAngleD 1 inner_z 0))))) sum) sum) 0 = .ok r ∧
      SumR 255 (34 / 10 ^ 9) (w * h) (∑ z' ∈ range 1, ∑ y' ∈ range h, ∑ x' ∈ range w,
        f x' y' * cosB w x' x * cosB h y' y * cosB 1 z' 0) r := by
    intro x y
    by_cases hxy : x < w ∧ y < h
    · obtain ⟨r, hr⟩ := dct_sum hc s hw' hh' hf hxy.1 hxy.2
      exact ⟨r, fun _ _ => hr⟩
    · exact ⟨0, fun a b => absurd ⟨a, b⟩ hxy⟩
  choose r hr using hsum
  have hden : dbl (dbl (dbl (w : ℝ) * dbl (h : ℝ)) * dbl ((1 : Nat) : ℝ)) = ((w * h : Nat) : ℝ) := by
    rw [dbl_nat (n := w) (by omega), dbl_nat (n := h) (by omega), ← Nat.cast_mul, dbl_nat (n := w * h) (by omega),
      Nat.cast_one, dbl_one, mul_one, dbl_nat (by omega)]
  obtain ⟨out, e, so⟩ := pixFor_fill order (fun x _ => x) (fun _ y => y)
    (fun x y => dbl (dbl (dbl (dbl (dbl (8 * dctAlphaD 0) * dctAlphaD y) * dctAlphaD x) * r x y) /
      dbl (dbl (dbl (w : ℝ) * dbl (h : ℝ)) * dbl ((1 : Nat) : ℝ))))
    (fun (output : Image ℝ) x y => do
      let sum ← forUp 1 (fun sum inner_z => do
        let plane ← vget [im] inner_z
        forUp plane.height (fun sum inner_y =>
          forUp plane.width (fun sum inner_x => do
            let v ← plane.at2 inner_x inner_y
            .ok (dbl (sum + dbl (dbl (dbl (v * cosine (dctAngleD w inner_x x)) *
              cosine (dctAngleD h inner_y y)) * cosine (dctAngleD 1 inner_z 0))))) sum) sum) 0
      output.set2 x y (dbl (dbl (dbl (dbl (dbl (8 * dctAlphaD 0) * dctAlphaD y) * dctAlphaD x) * sum) /
        dbl (dbl (dbl (w : ℝ) * dbl (h : ℝ)) * dbl ((1 : Nat) : ℝ)))))
    (ofSizes_shows 0 s.w_lt s.h_lt s.fits)
    (fun x y hxy im f hs => by
      have hb := mem_iterYX.mp (ho.mem_iff.mp hxy)
      rw [(hr x y hb.1 hb.2).1, Res.ok_bind]
      exact hs.set2 hb.1 hb.2 _)
    (fun a b ha hb => ⟨a, b, ho.mem_iff.mpr (mem_iterYX.mpr ⟨ha, hb⟩), rfl, rfl⟩)
  refine ⟨out, _, ?_, so, ?_⟩
  · unfold dct3OnePlaneD
    simp only [vget, List.getElem?_cons_zero, Res.ok_bind, s.width, s.height, List.length_singleton]
    simpa only [vget, s.width, s.height] using e
  · intro x y hx hy
    have := coef_err (Nat.mul_pos hw hh) (weight_le y x) (weight_err 0 y x) (hr x y hx hy).2
    rw [hden]
    unfold dctVal
    rw [show ((w : ℝ) * h * ((1 : Nat) : ℝ)) = ((w * h : Nat) : ℝ) by push_cast; ring]
    exact this

theorem idct_sum {cosine : ℝ → ℝ} (hc : GoodCos cosine) {im : Image ℝ} {w h : Nat} {F G : Nat → Nat → ℝ}
    (s : im.Shows w h F) (hw' : w ≤ 1024) (hh' : h ≤ 1024)
    (hF : ∀ x y, x < w → y < h → |F x y - G x y| ≤ 2 / 10 ^ 7 ∧ |G x y| ≤ 1444) {x y : Nat} (hx : x < w)
    (hy : y < h) :
    ∃ r, forUp 1 (fun sum inner_z => do
      let plane ← vget [im] inner_z
      forUp plane.height (fun sum inner_y =>
        forUp plane.width (fun sum inner_x => do
          let v ← plane.at2 inner_x inner_y
          .ok (dbl (sum + dbl (dbl (dbl (dbl (dbl (dbl (dctAlphaD inner_x * dctAlphaD inner_y) *
            dctAlphaD inner_z) * v) * cosine (dctAngleD w x inner_x)) *
            cosine (dctAngleD h y inner_y)) * cosine (dctAngleD 1 0 inner_z))))) sum) sum) 0 = .ok r ∧
      SumR 1444 (4 / 10 ^ 7) (w * h) (∑ z' ∈ range 1, ∑ y' ∈ range h, ∑ x' ∈ range w,
        dctAlpha x' * dctAlpha y' * dctAlpha z' * G x' y' * cosB w x x' * cosB h y y' * cosB 1 0 z') r := by
  have hK : w * h ≤ 2 ^ 20 := (Nat.mul_le_mul hw' hh').trans (by norm_num)
  have rA : ∀ i, |dctAlphaD i| ≤ 1 := fun i => by
    rw [abs_of_nonneg (dctAlphaD_range i).1]; exact (dctAlphaD_range i).2
  have qA : ∀ i, |dctAlpha i| ≤ 1 := fun i => by
    rw [abs_of_nonneg (dctAlpha_range i).1]; exact (dctAlpha_range i).2
  have key := forUp_sumR (R := SumR 1444 (4 / 10 ^ 7)) (K := 2 ^ 20) (n := 1) (c := h * (w * 1))
    (t := fun z' => ∑ y' ∈ range h, ∑ x' ∈ range w,
      dctAlpha x' * dctAlpha y' * dctAlpha z' * G x' y' * cosB w x x' * cosB h y y' * cosB 1 0 z')
    (body := fun sum inner_z => do
      let plane ← vget [im] inner_z
      forUp plane.height (fun sum inner_y =>
        forUp plane.width (fun sum inner_x => do
          let v ← plane.at2 inner_x inner_y
          .ok (dbl (sum + dbl (dbl (dbl (dbl (dbl (dbl (dctAlphaD inner_x * dctAlphaD inner_y) *
            dctAlphaD inner_z) * v) * cosine (dctAngleD w x inner_x)) *
            cosine (dctAngleD h y inner_y)) * cosine (dctAngleD 1 0 inner_z))))) sum) sum) ?_
    (k := 0) (S := 0) (s := 0) (by simp [SumR]) (by rw [mul_comm h, mul_one, one_mul, zero_add]; exact hK)
  · simpa [mul_comm h w] using key
  · intro z hz k S t hR hk
    obtain rfl : z = 0 := by omega
    simp only [vget, List.getElem?_cons_zero, Res.ok_bind, s.width, s.height]
    refine forUp_sumR (K := 2 ^ 20) (c := w * 1) ?_ hR hk
    intro y' hy' k S t hR hk
    refine forUp_sumR (K := 2 ^ 20) (c := 1) ?_ hR hk
    intro x' hx' k S t hR hk
    rw [s.px x' y' hx' hy', Res.ok_bind]
    refine ⟨_, rfl, ?_⟩
    obtain ⟨f1, f2⟩ := hF x' y' hx' hy'
    have p1 := mul_err (qA x') (dctAlphaD_err x') (rA y') (dctAlphaD_err y')
    have m1 : |dctAlpha x' * dctAlpha y'| ≤ 1 := by
      rw [abs_mul]; exact mul_le_one₀ (qA x') (abs_nonneg _) (qA y')
    have p2 := mul_err m1 p1 (rA 0) (dctAlphaD_err 0)
    have hb : |dbl (dbl (dctAlphaD x' * dctAlphaD y') * dctAlphaD 0)| ≤ 1 := by
      have o : ∀ a b : ℝ, 0 ≤ a → a ≤ 1 → 0 ≤ b → b ≤ 1 → 0 ≤ dbl (a * b) ∧ dbl (a * b) ≤ 1 := by
        intro a b ha ha' hb hb'
        refine ⟨dbl_nonneg (mul_nonneg ha hb), ?_⟩
        have := dbl_mono (mul_le_one₀ ha' hb hb')
        rwa [dbl_one] at this
      obtain ⟨o1, o2⟩ := o _ _ (dctAlphaD_range x').1 (dctAlphaD_range x').2 (dctAlphaD_range y').1 (dctAlphaD_range y').2
      obtain ⟨o3, o4⟩ := o _ _ o1 o2 (dctAlphaD_range 0).1 (dctAlphaD_range 0).2
      rw [abs_of_nonneg o3]; exact o4
    have p3 := mul_err f2 f1 hb p2
    have m2 : |dctAlpha x' * dctAlpha y' * dctAlpha 0| ≤ 1 := by
      rw [abs_mul]; exact mul_le_one₀ m1 (abs_nonneg _) (qA 0)
    have m3 : |dctAlpha x' * dctAlpha y' * dctAlpha 0 * G x' y'| ≤ 1444 := by
      rw [abs_mul]
      calc _ ≤ 1 * 1444 := mul_le_mul m2 f2 (abs_nonneg _) (by norm_num)
        _ = 1444 := by norm_num
    rw [mul_comm (F x' y'), mul_comm (G x' y')] at p3
    have p4 : |dbl (dbl (dbl (dctAlphaD x' * dctAlphaD y') * dctAlphaD 0) * F x' y') -
        dctAlpha x' * dctAlpha y' * dctAlpha 0 * G x' y'| ≤ 201 / 10 ^ 9 := by
      refine p3.trans ?_
      unfold eps
      norm_num
    obtain ⟨g1, g2⟩ := three_cos m3 p4 (by norm_num) (by norm_num)
      (cosD_err hc hw' hx hx') (cosD_err hc hh' hy hy') (cosD_err hc (N := 1) (p := 0) (k := 0) (by norm_num)
        (by norm_num) (by norm_num)) (hc _).1 (hc _).1 (hc _).1 (cosB_le _ _ _) (cosB_le _ _ _) (cosB_le _ _ _)
    exact hR.step hk g2 g1 (by norm_num) (by norm_num) (by unfold eps; norm_num)

/-- The inverse transform of approximate coefficients. -/
theorem idct3OnePlaneD_shows {cosine : ℝ → ℝ} (hc : GoodCos cosine) {im : Image ℝ} {w h : Nat}
    {F G : Nat → Nat → ℝ} (s : im.Shows w h F) (hw' : w ≤ 1024) (hh' : h ≤ 1024)
    (hF : ∀ x y, x < w → y < h → |F x y - G x y| ≤ 2 / 10 ^ 7 ∧ |G x y| ≤ 1444)
    (order : List (Nat × Nat)) (ho : order.Perm (iterYX w h)) :
    ∃ out R, idct3OnePlaneD cosine order [im] 0 = .ok out ∧ out.Shows w h R ∧ ∀ x y, x < w → y < h →
      |R x y - idctVal w h 1 (fun _ => G) 0 x y| ≤ (w * h : Nat) * (4 / 10 ^ 7) := by
  have hsum : ∀ x y, ∃ r, x < w → y < h → forUp 1 (fun sum inner_z => do
      let plane ← vget [im] inner_z
      forUp plane.height (fun sum inner_y =>
        forUp plane.width (fun sum inner_x => do
          let v ← plane.at2 inner_x inner_y
          .ok (dbl (sum + dbl (dbl (dbl (dbl (dbl (dbl (dctAlphaD inner_x * dctAlphaD inner_y) *
            dctAlphaD inner_z) * v) * cosine (dctAngleD w x inner_x)) *
            cosine (dctAngleD h y inner_y)) * cosine (dctAngleD 1 0 inner_z))))) sum) sum) 0 = .ok r ∧
      SumR 1444 (4 / 10 ^ 7) (w * h) (∑ z' ∈ range 1, ∑ y' ∈ range h, ∑ x' ∈ range w,
        dctAlpha x' * dctAlpha y' * dctAlpha z' * G x' y' * cosB w x x' * cosB h y y' * cosB 1 0 z') r := by
    intro x y
    by_cases hxy : x < w ∧ y < h
    · obtain ⟨r, hr⟩ := idct_sum hc s hw' hh' hF hxy.1 hxy.2
      exact ⟨r, fun _ _ => hr⟩
    · exact ⟨0, fun a b => absurd ⟨a, b⟩ hxy⟩
  choose r hr using hsum
  obtain ⟨out, e, so⟩ := pixFor_fill order (fun x _ => x) (fun _ y => y) r
    (fun (output : Image ℝ) x y => do
      let sum ← forUp 1 (fun sum inner_z => do
        let plane ← vget [im] inner_z
        forUp plane.height (fun sum inner_y =>
          forUp plane.width (fun sum inner_x => do
            let v ← plane.at2 inner_x inner_y
            .ok (dbl (sum + dbl (dbl (dbl (dbl (dbl (dbl (dctAlphaD inner_x * dctAlphaD inner_y) *
              dctAlphaD inner_z) * v) * cosine (dctAngleD w x inner_x)) *
              cosine (dctAngleD h y inner_y)) * cosine (dctAngleD 1 0 inner_z))))) sum) sum) 0
      output.set2 x y sum)
    (ofSizes_shows 0 s.w_lt s.h_lt s.fits)
    (fun x y hxy im f hs => by
      have hb := mem_iterYX.mp (ho.mem_iff.mp hxy)
      rw [(hr x y hb.1 hb.2).1, Res.ok_bind]
      exact hs.set2 hb.1 hb.2 _)
    (fun a b ha hb => ⟨a, b, ho.mem_iff.mpr (mem_iterYX.mpr ⟨ha, hb⟩), rfl, rfl⟩)
  refine ⟨out, r, ?_, so, ?_⟩
  · unfold idct3OnePlaneD
    simp only [vget, List.getElem?_cons_zero, Res.ok_bind, s.width, s.height, List.length_singleton]
    simpa only [vget, s.width, s.height] using e
  · intro x y hx hy
    exact (hr x y hx hy).2.1

end TinyDIP.Rnd
