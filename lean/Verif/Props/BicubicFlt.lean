import Verif.Model.BicubicFlt
import Verif.Spec.BicubicFlt
import Verif.Props.Rounded
import Verif.Props.BilateralByte
import Verif.Props.OtsuFlt

/-!
# Property C213: bicubic interpolation of 8-bit pictures in double precision
-/

namespace TinyDIP.Rnd

open TinyDIP Image

/-! ## Helpers -/

theorem cubicKernelD_eq (x : ℝ) : cubicKernelD x =
    if |x| ≤ 1 then dbl (dbl (dbl (3 / 2 * dbl (dbl (|x| * |x|) * |x|)) - dbl (5 / 2 * dbl (|x| * |x|))) + 1)
    else if |x| < 2 then
      dbl (dbl (dbl (dbl (-1 / 2 * dbl (dbl (|x| * |x|) * |x|)) - dbl (-5 / 2 * dbl (|x| * |x|))) +
        dbl (-4 * |x|)) - -2)
    else 0 := by
  have c1 : dbl (-1 / 2 + 2) = 3 / 2 := by
    rw [dbl_of_rep ⟨3, -1, by norm_num, by norm_num⟩]; norm_num
  have c2 : dbl (-1 / 2 + 3) = 5 / 2 := by
    rw [dbl_of_rep ⟨5, -1, by norm_num, by norm_num⟩]; norm_num
  have c3 : dbl (5 * (-1 / 2)) = -5 / 2 := by
    rw [dbl_of_rep ⟨-5, -1, by norm_num, by norm_num⟩]; norm_num
  have c4 : dbl (8 * (-1 / 2)) = -4 := by
    rw [dbl_of_rep ⟨-4, 0, by norm_num, by norm_num⟩]; norm_num
  have c5 : dbl (4 * (-1 / 2)) = -2 := by
    rw [dbl_of_rep ⟨-2, 0, by norm_num, by norm_num⟩]; norm_num
  unfold cubicKernelD
  simp only [c1, c2, c3, c4, c5]

theorem dbl_step {x M : ℝ} (h : |x| ≤ M) : |dbl x - x| ≤ eps * M :=
  (dbl_err x).trans (mul_le_mul_of_nonneg_left h eps_pos.le)

theorem eps_tiny : eps ≤ 1 / 10 ^ 15 := by unfold eps; norm_num

theorem cubicWeight_le (d : ℝ) : |cubicWeight d| ≤ 1 := by
  unfold cubicWeight
  have h0 := abs_nonneg d
  generalize |d| = t at *
  split_ifs with h1 h2
  · rw [abs_le]
    constructor
    · nlinarith [mul_nonneg h0 h0, mul_nonneg (mul_nonneg h0 h0) h0, mul_nonneg (mul_nonneg h0 h0) (sub_nonneg.2 h1)]
    · nlinarith [mul_nonneg h0 h0, mul_nonneg (mul_nonneg h0 h0) h0, mul_nonneg (mul_nonneg h0 h0) (sub_nonneg.2 h1)]
  · have e : -1 / 2 * t ^ 3 + 5 / 2 * t ^ 2 - 4 * t + 2 = -1 / 2 * ((t - 1) * (t - 2) ^ 2) := by ring
    have a1 : 0 ≤ t - 1 := by linarith
    have a2 : t - 1 ≤ 1 := by linarith
    have b1 : 0 ≤ (t - 2) ^ 2 := sq_nonneg _
    have b2 : (t - 2) ^ 2 ≤ 1 := by nlinarith
    have c1 := mul_nonneg a1 b1
    have c2 : (t - 1) * (t - 2) ^ 2 ≤ 1 * 1 := mul_le_mul a2 b2 b1 (by norm_num)
    rw [e, abs_le]
    constructor <;> linarith
  · norm_num

/-- The computed kernel. -/
theorem cubicKernelD_err {d : ℝ} (hd : |d| ≤ 2) : |cubicKernelD d - cubicWeight d| ≤ 128 * eps := by
  rw [cubicKernelD_eq]
  unfold cubicWeight
  have h0 := abs_nonneg d
  have he := eps_pos
  have ht := eps_tiny
  generalize |d| = t at *
  by_cases h1 : t ≤ 1
  · rw [if_pos h1, if_pos h1]
    have q0 : 0 ≤ t * t := mul_nonneg h0 h0
    have q1 : t * t ≤ 1 := by nlinarith
    have e2 := dbl_step (show |t * t| ≤ 1 by rw [abs_of_nonneg q0]; exact q1)
    have n2 := dbl_nonneg q0
    generalize dbl (t * t) = t2 at *
    rw [abs_le] at e2
    have r1 : t2 * t - t * t * t = (t2 - t * t) * t := by ring
    have r2 : |t2 * t - t * t * t| ≤ eps := by
      rw [r1, abs_mul, abs_of_nonneg h0]
      have : |t2 - t * t| ≤ eps := by rw [abs_le]; constructor <;> linarith
      calc _ ≤ eps * 1 := mul_le_mul this h1 h0 he.le
        _ = eps := mul_one _
    rw [abs_le] at r2
    have r3 : t * t * t ≤ 1 := by nlinarith
    have r4 : 0 ≤ t * t * t := by positivity
    have e3 := dbl_step (show |t2 * t| ≤ 2 by rw [abs_le]; constructor <;> linarith)
    generalize dbl (t2 * t) = t3 at *
    rw [abs_le] at e3
    have eA := dbl_step (show |3 / 2 * t3| ≤ 2 by rw [abs_le]; constructor <;> linarith)
    generalize dbl (3 / 2 * t3) = A at *
    rw [abs_le] at eA
    have eB := dbl_step (show |5 / 2 * t2| ≤ 3 by rw [abs_le]; constructor <;> linarith)
    generalize dbl (5 / 2 * t2) = B at *
    rw [abs_le] at eB
    have eC := dbl_step (show |A - B| ≤ 5 by rw [abs_le]; constructor <;> linarith)
    generalize dbl (A - B) = C at *
    rw [abs_le] at eC
    have eD := dbl_step (show |C + 1| ≤ 8 by rw [abs_le]; constructor <;> linarith)
    generalize dbl (C + 1) = D at *
    rw [abs_le] at eD
    have p2 : t ^ 2 = t * t := by ring
    have p3 : t ^ 3 = t * t * t := by ring
    rw [p2, p3, abs_le]
    constructor <;> linarith
  rw [if_neg h1, if_neg h1]
  by_cases h2 : t < 2
  · rw [if_pos h2, if_pos h2.le]
    have q0 : 0 ≤ t * t := mul_nonneg h0 h0
    have q1 : t * t ≤ 4 := by nlinarith
    have e2 := dbl_step (show |t * t| ≤ 4 by rw [abs_of_nonneg q0]; exact q1)
    have n2 := dbl_nonneg q0
    generalize dbl (t * t) = t2 at *
    rw [abs_le] at e2
    have r1 : t2 * t - t * t * t = (t2 - t * t) * t := by ring
    have r2 : |t2 * t - t * t * t| ≤ 8 * eps := by
      rw [r1, abs_mul, abs_of_nonneg h0]
      have : |t2 - t * t| ≤ eps * 4 := by rw [abs_le]; constructor <;> linarith
      calc _ ≤ eps * 4 * 2 := mul_le_mul this h2.le h0 (by positivity)
        _ = 8 * eps := by ring
    rw [abs_le] at r2
    have r3 : t * t * t ≤ 8 := by
      calc t * t * t ≤ 4 * 2 := mul_le_mul q1 h2.le h0 (by norm_num)
        _ = 8 := by norm_num
    have r4 : 0 ≤ t * t * t := by positivity
    have e3 := dbl_step (show |t2 * t| ≤ 9 by rw [abs_le]; constructor <;> linarith)
    generalize dbl (t2 * t) = t3 at *
    rw [abs_le] at e3
    have eA := dbl_step (show |-1 / 2 * t3| ≤ 5 by rw [abs_le]; constructor <;> linarith)
    generalize dbl (-1 / 2 * t3) = A at *
    rw [abs_le] at eA
    have eB := dbl_step (show |-5 / 2 * t2| ≤ 11 by rw [abs_le]; constructor <;> linarith)
    generalize dbl (-5 / 2 * t2) = B at *
    rw [abs_le] at eB
    have eC := dbl_step (show |A - B| ≤ 16 by rw [abs_le]; constructor <;> linarith)
    generalize dbl (A - B) = C at *
    rw [abs_le] at eC
    have eE := dbl_step (show |-4 * t| ≤ 8 by rw [abs_le]; constructor <;> linarith)
    generalize dbl (-4 * t) = E at *
    rw [abs_le] at eE
    have eF := dbl_step (show |C + E| ≤ 19 by rw [abs_le]; constructor <;> linarith)
    generalize dbl (C + E) = F at *
    rw [abs_le] at eF
    have eG := dbl_step (show |F - -2| ≤ 22 by rw [abs_le]; constructor <;> linarith)
    generalize dbl (F - -2) = G at *
    rw [abs_le] at eG
    have p2 : t ^ 2 = t * t := by ring
    have p3 : t ^ 3 = t * t * t := by ring
    rw [p2, p3, abs_le]
    constructor <;> linarith
  · have : t = 2 := by linarith
    rw [if_neg h2, if_pos hd, this]
    norm_num
    positivity

theorem prod_err {a a' k k' α A : ℝ} (h1 : |a' - a| ≤ α) (h2 : |k' - k| ≤ 128 * eps) (h3 : |a| ≤ A) (h4 : |k| ≤ 1)
    (hα : α ≤ 1) (hA : 1 ≤ A) : |dbl (a' * k') - a * k| ≤ 2 * α + 132 * eps * A := by
  have he := eps_pos
  have ht := eps_tiny
  have hα0 : 0 ≤ α := (abs_nonneg _).trans h1
  have hk : |k'| ≤ 3 / 2 := by
    have := abs_add_le (k' - k) k
    rw [sub_add_cancel] at this
    linarith
  have ha : |a'| ≤ A + 1 := by
    have := abs_add_le (a' - a) a
    rw [sub_add_cancel] at this
    linarith
  have e1 : |a' * k' - a * k| ≤ α * (3 / 2) + A * (128 * eps) := by
    have e : a' * k' - a * k = (a' - a) * k' + a * (k' - k) := by ring
    rw [e]
    refine (abs_add_le _ _).trans ?_
    rw [abs_mul, abs_mul]
    exact add_le_add (mul_le_mul h1 hk (abs_nonneg _) hα0) (mul_le_mul h3 h2 (abs_nonneg _) (by linarith))
  have e2 : |a' * k'| ≤ (A + 1) * (3 / 2) := by
    rw [abs_mul]
    exact mul_le_mul ha hk (abs_nonneg _) (by linarith)
  have e3 := dbl_step (e2.trans (by linarith : _ ≤ 3 * A))
  have e4 := abs_add_le (dbl (a' * k') - a' * k') (a' * k' - a * k)
  rw [sub_add_sub_cancel] at e4
  have : 0 < eps * A := mul_pos he (by linarith)
  linarith

theorem sum_err {s S p P e π M : ℝ} (h1 : |s - S| ≤ e) (h2 : |p - P| ≤ π) (h3 : |S + P| ≤ M) (h4 : e + π ≤ M) :
    |dbl (s + p) - (S + P)| ≤ e + π + 2 * eps * M := by
  have e1 : |s + p - (S + P)| ≤ e + π := by
    have : s + p - (S + P) = (s - S) + (p - P) := by ring
    rw [this]
    exact (abs_add_le _ _).trans (add_le_add h1 h2)
  have e2 : |s + p| ≤ 2 * M := by
    have := abs_add_le (s + p - (S + P)) (S + P)
    rw [sub_add_cancel] at this
    linarith
  have e3 := dbl_step e2
  have e4 := abs_add_le (dbl (s + p) - (s + p)) (s + p - (S + P))
  rw [sub_add_sub_cancel] at e4
  linarith

/-- The computed sum of four weighted values. -/
noncomputable def dotD (a0 a1 a2 a3 k0 k1 k2 k3 : ℝ) : ℝ :=
  dbl (dbl (dbl (dbl (0 + dbl (a0 * k0)) + dbl (a1 * k1)) + dbl (a2 * k2)) + dbl (a3 * k3))

theorem dotD_err {α A : ℝ} {a a' k k' : Fin 4 → ℝ} (h1 : ∀ i, |a' i - a i| ≤ α) (h2 : ∀ i, |k' i - k i| ≤ 128 * eps)
    (h3 : ∀ i, |a i| ≤ A) (h4 : ∀ i, |k i| ≤ 1) (hα : α ≤ 1 / 1000) (hA : 1 ≤ A) :
    |dotD (a' 0) (a' 1) (a' 2) (a' 3) (k' 0) (k' 1) (k' 2) (k' 3) -
      (0 + a 0 * k 0 + a 1 * k 1 + a 2 * k 2 + a 3 * k 3)| ≤ 8 * α + 548 * eps * A := by
  have he := eps_pos
  have ht := eps_tiny
  have hα0 : 0 ≤ α := (abs_nonneg _).trans (h1 0)
  have hp : ∀ i, |dbl (a' i * k' i) - a i * k i| ≤ 2 * α + 132 * eps * A := fun i =>
    prod_err (h1 i) (h2 i) (h3 i) (h4 i) (by linarith) hA
  have hb : ∀ i, |a i * k i| ≤ A := by
    intro i
    rw [abs_mul]
    calc _ ≤ A * 1 := mul_le_mul (h3 i) (h4 i) (abs_nonneg _) (by linarith)
      _ = A := mul_one A
  have hs : eps * A ≤ 1 / 10 ^ 15 * A := mul_le_mul_of_nonneg_right ht (by linarith)
  have hs0 : 0 < eps * A := mul_pos he (by linarith)
  unfold dotD
  have b0 := abs_le.1 (hb 0)
  have b1 := abs_le.1 (hb 1)
  have b2 := abs_le.1 (hb 2)
  have b3 := abs_le.1 (hb 3)
  have s0 := sum_err (s := 0) (S := 0) (e := 0) (by simp) (hp 0) (M := A) (by rw [zero_add]; exact hb 0) (by linarith)
  have s1 := sum_err s0 (hp 1) (M := 2 * A) (by rw [abs_le]; constructor <;> linarith) (by linarith)
  have s2 := sum_err s1 (hp 2) (M := 3 * A) (by rw [abs_le]; constructor <;> linarith) (by linarith)
  have s3 := sum_err s2 (hp 3) (M := 4 * A) (by rw [abs_le]; constructor <;> linarith) (by linarith)
  linarith

/-- Distances to the samples are exact. -/
theorem rep_diff {x : ℝ} (hr : Rep 53 x) (h1 : 1 ≤ x) {u : Nat} (hu : |x - u| ≤ 2) : Rep 53 (x - u) := by
  have hint : ∀ n : ℤ, x = n → Rep 53 (x - u) := by
    rintro n rfl
    have e : ((n : ℝ) - (u : ℝ)) = ((n - u : ℤ) : ℝ) := by push_cast; ring
    rw [e] at hu ⊢
    refine rep_int ?_
    have : |n - (u : ℤ)| ≤ 2 := by exact_mod_cast hu
    exact this.trans (by norm_num)
  obtain ⟨m, e, hm, hx⟩ := hr
  rcases le_or_gt 0 e with h | h
  · obtain ⟨k, rfl⟩ := Int.eq_ofNat_of_zero_le h
    exact hint (m * 2 ^ k) (by rw [hx]; push_cast; simp)
  · obtain ⟨k, rfl⟩ : ∃ k : Nat, e = -(k : ℤ) := ⟨(-e).toNat, by omega⟩
    have hk : (0 : ℝ) < 2 ^ k := by positivity
    rw [zpow_neg, zpow_natCast] at hx
    have hxm : x * 2 ^ k = m := by rw [hx]; field_simp
    rcases le_or_gt k 52 with hk2 | hk2
    · refine ⟨m - u * 2 ^ k, -(k : ℤ), ?_, ?_⟩
      · have : |(x - u) * 2 ^ k| ≤ 2 * 2 ^ 52 := by
          rw [abs_mul, abs_of_pos hk]
          exact mul_le_mul hu (pow_le_pow_right₀ (by norm_num) hk2) hk.le (by norm_num)
        rw [sub_mul, hxm] at this
        have h2 : |((m - u * 2 ^ k : ℤ) : ℝ)| ≤ ((2 ^ 53 : ℤ) : ℝ) := by
          push_cast
          refine this.trans (by norm_num)
        exact_mod_cast h2
      · rw [zpow_neg, zpow_natCast]
        push_cast
        rw [← hxm]
        field_simp
    · have h53 : (2 : ℝ) ^ 53 ≤ 2 ^ k := pow_le_pow_right₀ (by norm_num) hk2
      have hmle : (m : ℝ) ≤ 2 ^ 53 := by
        have := (abs_le.1 hm).2
        exact_mod_cast this
      have : (2 : ℝ) ^ k ≤ x * 2 ^ k := by nlinarith
      have hm1 : (m : ℝ) = 2 ^ k := by linarith
      exact hint 1 (by rw [hx, hm1]; field_simp; norm_num)

theorem bicubicD_inside {im : Image (BitVec 8)} {w h : Nat} {f : Nat → Nat → BitVec 8} (s : im.Shows w h f)
    (hw53 : w ≤ 2 ^ 53) (hh53 : h ≤ 2 ^ 53) {x y : ℝ} (rx : Rep 53 x) (ry : Rep 53 y)
    (hx0 : 1 ≤ x) (hx : x < (w : ℝ) - 2) (hy0 : 1 ≤ y) (hy : y < (h : ℝ) - 2) :
    ∃ i j : Nat, ⌊x⌋₊ = i ∧ ⌊y⌋₊ = j ∧ 1 ≤ i ∧ i + 2 < w ∧ 1 ≤ j ∧ j + 2 < h ∧ 
      (let K := cubicKernelD
       let row := fun v : Nat => dotD (f (i - 1) v).toNat (f i v).toNat (f (i + 1) v).toNat (f (i + 2) v).toNat
          (K (x - i + 1)) (K (x - i)) (K (x - i - 1)) (K (x - i - 2))
       bicubicD im x y = .ok (Conv.u8.fromR (dotD (row (j - 1)) (row j) (row (j + 1)) (row (j + 2))
          (K (y - j + 1)) (K (y - j)) (K (y - j - 1)) (K (y - j - 2))))) := by
  have hx0' : 0 ≤ x := by linarith
  have hy0' : 0 ≤ y := by linarith
  have hi1 : 1 ≤ ⌊x⌋₊ := by rw [Nat.one_le_floor_iff]; exact hx0
  have hj1 : 1 ≤ ⌊y⌋₊ := by rw [Nat.one_le_floor_iff]; exact hy0
  have hi2 : ⌊x⌋₊ + 2 < w := by
    have h1 := Nat.floor_le hx0'
    have : ((⌊x⌋₊ + 2 : Nat) : ℝ) < w := by push_cast; linarith
    exact_mod_cast this
  have hj2 : ⌊y⌋₊ + 2 < h := by
    have h1 := Nat.floor_le hy0'
    have : ((⌊y⌋₊ + 2 : Nat) : ℝ) < h := by push_cast; linarith
    exact_mod_cast this
  obtain ⟨i, hi⟩ : ∃ i, ⌊x⌋₊ = i := ⟨_, rfl⟩
  obtain ⟨j, hj⟩ : ∃ j, ⌊y⌋₊ = j := ⟨_, rfl⟩
  rw [hi] at hi1 hi2
  rw [hj] at hj1 hj2
  have fx : (i : ℝ) ≤ x := by rw [← hi]; exact Nat.floor_le hx0'
  have fx' : x < (i : ℝ) + 1 := by rw [← hi]; exact Nat.lt_floor_add_one x
  have fy : (j : ℝ) ≤ y := by rw [← hj]; exact Nat.floor_le hy0'
  have fy' : y < (j : ℝ) + 1 := by rw [← hj]; exact Nat.lt_floor_add_one y
  refine ⟨i, j, hi, hj, hi1, hi2, hj1, hj2, ?_⟩
  have two : ∀ n : Nat, 2 ≤ n → n ≤ 2 ^ 53 → dbl (dbl n - 2) = (n : ℝ) - 2 := by
    intro n h2 hn
    rw [dbl_nat hn]
    have e : (n : ℝ) - 2 = ((n - 2 : Nat) : ℝ) := by rw [Nat.cast_sub h2]; simp
    rw [e, dbl_nat (by omega)]
  have hno : ¬ (x < 1 ∨ x ≥ dbl (dbl w - 2) ∨ y < 1 ∨ y ≥ dbl (dbl h - 2)) := by
    rw [two w (by omega) hw53, two h (by omega) hh53]
    push Not; exact ⟨hx0, hx, hy0, hy⟩
  have hw := s.w_lt
  have hh := s.h_lt
  have a0 : ∀ n m : Nat, 1 ≤ n → n + 2 < m → m < 2 ^ 64 → wadd (wsub n 1) 0 = n - 1 := by
    intro n m h1 h2 h3; rw [wsub_of_le h1 (by omega), wadd_of_lt (by omega)]; rfl
  have a1 : ∀ n m : Nat, 1 ≤ n → n + 2 < m → m < 2 ^ 64 → wadd (wsub n 1) 1 = n := by
    intro n m h1 h2 h3; rw [wsub_of_le h1 (by omega), wadd_of_lt (by omega)]; omega
  have a2 : ∀ n m : Nat, 1 ≤ n → n + 2 < m → m < 2 ^ 64 → wadd (wsub n 1) 2 = n + 1 := by
    intro n m h1 h2 h3; rw [wsub_of_le h1 (by omega), wadd_of_lt (by omega)]; omega
  have a3 : ∀ n m : Nat, 1 ≤ n → n + 2 < m → m < 2 ^ 64 → wadd (wsub n 1) 3 = n + 2 := by
    intro n m h1 h2 h3; rw [wsub_of_le h1 (by omega), wadd_of_lt (by omega)]; omega
  -- the four distances
  have dist : ∀ (z : ℝ) (n : Nat), Rep 53 z → 1 ≤ z → (n : ℝ) ≤ z → z < n + 1 → 1 ≤ n → n + 2 < 2 ^ 53 →
      dbl (z - dbl ((n - 1 : Nat) : ℝ)) = z - n + 1 ∧ dbl (z - dbl (n : ℝ)) = z - n ∧
      dbl (z - dbl ((n + 1 : Nat) : ℝ)) = z - n - 1 ∧ dbl (z - dbl ((n + 2 : Nat) : ℝ)) = z - n - 2 := by
    intro z n rz h1 l u n1 n2
    have c : ((n - 1 : Nat) : ℝ) = (n : ℝ) - 1 := by rw [Nat.cast_sub n1]; simp
    have key : ∀ k : Nat, k ≤ 2 ^ 53 → |z - k| ≤ 2 → dbl (z - dbl (k : ℝ)) = z - k := fun k hk hd => by
      rw [dbl_nat hk, dbl_of_rep (rep_diff rz h1 hd)]
    refine ⟨?_, ?_, ?_, ?_⟩
    · rw [key (n - 1) (by omega) (by rw [c, abs_le]; constructor <;> linarith), c]; ring
    · rw [key n (by omega) (by rw [abs_le]; constructor <;> linarith)]
    · rw [key (n + 1) (by omega) (by push_cast; rw [abs_le]; constructor <;> linarith)]; push_cast; ring
    · rw [key (n + 2) (by omega) (by push_cast; rw [abs_le]; constructor <;> linarith)]; push_cast; ring
  obtain ⟨dx0, dx1, dx2, dx3⟩ := dist x i rx hx0 fx fx' hi1 (by omega)
  obtain ⟨dy0, dy1, dy2, dy3⟩ := dist y j ry hy0 fy fy' hj1 (by omega)
  have hrow : ∀ v, v < h → forUp 4 (fun (row : ℝ) k => do
        let u := wadd (wsub i 1) k
        let q ← im.at2 u v
        .ok (dbl (row + dbl ((q.toNat : ℝ) * cubicKernelD (dbl (x - dbl (u : ℝ))))))) (0 : ℝ)
      = .ok (dotD (f (i - 1) v).toNat (f i v).toNat (f (i + 1) v).toNat (f (i + 2) v).toNat
          (cubicKernelD (x - i + 1)) (cubicKernelD (x - i)) (cubicKernelD (x - i - 1)) (cubicKernelD (x - i - 2))) := by
    intro v hv
    rw [forUp_four]
    simp only [a0 i w hi1 hi2 hw, a1 i w hi1 hi2 hw, a2 i w hi1 hi2 hw, a3 i w hi1 hi2 hw]
    rw [s.px _ _ (by omega) hv, Res.ok_bind, Res.ok_bind, s.px _ _ (by omega) hv, Res.ok_bind,
      Res.ok_bind, s.px _ _ (by omega) hv, Res.ok_bind, Res.ok_bind, s.px _ _ (by omega) hv, Res.ok_bind,
      dx0, dx1, dx2, dx3]
    rfl
  simp only
  unfold bicubicD
  simp only [s.width, s.height]
  rw [if_neg hno, toSize_ok hx0' (real_lt_W hw (by linarith)), Res.ok_bind,
    toSize_ok hy0' (real_lt_W hh (by linarith)), Res.ok_bind, hi, hj, forUp_four]
  simp only [a0 j h hj1 hj2 hh, a1 j h hj1 hj2 hh, a2 j h hj1 hj2 hh, a3 j h hj1 hj2 hh]
  rw [hrow _ (by omega), Res.ok_bind, Res.ok_bind, hrow _ (by omega), Res.ok_bind,
    Res.ok_bind, hrow _ (by omega), Res.ok_bind, Res.ok_bind, hrow _ (by omega), Res.ok_bind, Res.ok_bind,
    dy0, dy1, dy2, dy3]
  rfl


theorem bicubicD_border {im : Image (BitVec 8)} {w h : Nat} {f : Nat → Nat → BitVec 8} (s : im.Shows w h f)
    (hw : w ≤ 2 ^ 53) (hh : h ≤ 2 ^ 53) {x y : ℝ}
    (hb : ¬ (1 ≤ x ∧ x < (w : ℝ) - 2 ∧ 1 ≤ y ∧ y < (h : ℝ) - 2)) : bicubicD im x y = bilinearD im x y := by
  unfold bicubicD
  simp only [s.width, s.height]
  refine if_pos ?_
  by_contra hn
  push Not at hn
  obtain ⟨h1, h2, h3, h4⟩ := hn
  have key : ∀ (n : Nat) (z : ℝ), n ≤ 2 ^ 53 → 1 ≤ z → z < dbl (dbl n - 2) → z < (n : ℝ) - 2 := by
    intro n z hn z1 hz
    rw [dbl_nat hn] at hz
    rcases Nat.lt_or_ge n 2 with h | h
    · have hle : (n : ℝ) - 2 ≤ 0 := by
        have : (n : ℝ) ≤ 2 := by exact_mod_cast h.le
        linarith
      have := dbl_mono hle
      rw [dbl_zero] at this
      linarith
    · have e : (n : ℝ) - 2 = ((n - 2 : Nat) : ℝ) := by rw [Nat.cast_sub h]; simp
      rw [e, dbl_nat (by omega)] at hz
      rw [e]; exact hz
  exact hb ⟨h1, key w x hw h1 h2, h3, key h y hh h3 h4⟩

theorem kerD_zero : cubicKernelD 0 = 1 := by
  rw [cubicKernelD_eq, if_pos (by norm_num)]
  simp [dbl_zero, dbl_one]

theorem kerD_one {d : ℝ} (h : |d| = 1) : cubicKernelD d = 0 := by
  rw [cubicKernelD_eq, h, if_pos le_rfl]
  have c1 : dbl (3 / 2) = 3 / 2 := dbl_of_rep ⟨3, -1, by norm_num, by norm_num⟩
  have c2 : dbl (5 / 2) = 5 / 2 := dbl_of_rep ⟨5, -1, by norm_num, by norm_num⟩
  have c3 : dbl (-1) = -1 := dbl_of_rep ⟨-1, 0, by norm_num, by norm_num⟩
  simp only [mul_one, dbl_one, c1, c2]
  rw [show (3 / 2 - 5 / 2 : ℝ) = -1 by norm_num, c3, show (-1 + 1 : ℝ) = 0 by norm_num, dbl_zero]

theorem kerD_two {d : ℝ} (h : |d| = 2) : cubicKernelD d = 0 := by
  rw [cubicKernelD_eq, h, if_neg (by norm_num), if_neg (by norm_num)]

theorem dotD_unit (a b c d : ℝ) (hb : dbl b = b) : dotD a b c d 0 1 0 0 = b := by
  unfold dotD
  simp only [mul_zero, mul_one, dbl_zero, add_zero, zero_add, hb]

theorem dotD_unit' (a b c d : ℝ) : dotD a b c d 0 1 0 0 = dbl (dbl (dbl (dbl b))) := by
  unfold dotD
  simp only [mul_zero, mul_one, dbl_zero, add_zero, zero_add]

theorem byte_dbl (b : BitVec 8) : dbl (b.toNat : ℝ) = b.toNat := dbl_nat (by have := b.isLt; omega)

theorem fromR_int (v : ℝ) : ((Conv.u8.fromR v).toNat : ℤ) = max 0 (min 255 ⌊v⌋) := by
  show ((if v > 255 then 255#8 else if v < 0 then 0#8 else BitVec.ofNat 8 ⌊v⌋₊).toNat : ℤ) = _
  split_ifs with h1 h2
  · have : (255 : ℤ) ≤ ⌊v⌋ := Int.le_floor.2 (by exact_mod_cast h1.le)
    rw [min_eq_left this]; rfl
  · have : ⌊v⌋ < 0 := Int.floor_lt.2 (by exact_mod_cast h2)
    rw [max_eq_left (by omega)]; rfl
  · rw [not_lt] at h1 h2
    have a : ((⌊v⌋₊ : Nat) : ℤ) = ⌊v⌋ := Int.natCast_floor_eq_floor h2
    have b : ⌊v⌋ ≤ 255 := by
      have := Int.floor_mono h1
      rwa [show ⌊(255 : ℝ)⌋ = 255 by exact_mod_cast Int.floor_natCast (R := ℝ) 255] at this
    have c : ⌊v⌋₊ < 256 := by omega
    rw [BitVec.toNat_ofNat, Nat.mod_eq_of_lt (by omega), a]
    omega

theorem cubicWeight_mid {d : ℝ} (h1 : 1 ≤ |d|) (h2 : |d| ≤ 2) :
    cubicWeight d = -1 / 2 * |d| ^ 3 + 5 / 2 * |d| ^ 2 - 4 * |d| + 2 := by
  unfold cubicWeight
  split_ifs with h
  · have : |d| = 1 := le_antisymm h h1
    rw [this]; norm_num
  · rfl

theorem cubicWeight_sum {t : ℝ} (h0 : 0 ≤ t) (h1 : t ≤ 1) :
    cubicWeight (t + 1) + cubicWeight t + cubicWeight (t - 1) + cubicWeight (t - 2) = 1 := by
  have a1 : |t + 1| = t + 1 := abs_of_nonneg (by linarith)
  have a2 : |t| = t := abs_of_nonneg h0
  have a3 : |t - 1| = 1 - t := by rw [abs_of_nonpos (by linarith)]; ring
  have a4 : |t - 2| = 2 - t := by rw [abs_of_nonpos (by linarith)]; ring
  rw [cubicWeight_mid (d := t + 1) (by rw [a1]; linarith) (by rw [a1]; linarith),
    cubicWeight_mid (d := t - 2) (by rw [a4]; linarith) (by rw [a4]; linarith), a1, a4]
  unfold cubicWeight
  rw [a2, a3, if_pos h1, if_pos (by linarith)]
  ring

theorem ker_a {d : ℝ} (h : |d| = 2097677 / 2 ^ 21) : cubicKernelD d = -1100453619 / 2 ^ 43 := by
  rw [cubicKernelD_eq, h, if_neg (by norm_num), if_pos (by norm_num),
    (show dbl ((2097677 / 2 ^ 21) * (2097677 / 2 ^ 21)) = 4400248796329 / 2 ^ 42 by
      rw [show ((2097677 / 2 ^ 21) * (2097677 / 2 ^ 21) : ℝ) = (4400248796329 : ℤ) * (2 : ℝ) ^ (-42 : ℤ) by norm_num]; exact (Props.fl_exact (4400248796329) (-42) (by norm_num) rfl).trans (by norm_num)),
    (show dbl ((4400248796329 / 2 ^ 42) * (2097677 / 2 ^ 21)) = 68771099257 / 2 ^ 36 by
      exact (Filter.fl53_of (0) 4506982760906752 (by norm_num) (by norm_num) (by norm_num [abs_lt])).trans (by norm_num)),
    (show dbl (-1 / 2 * (68771099257 / 2 ^ 36)) = -68771099257 / 2 ^ 37 by
      rw [show (-1 / 2 * (68771099257 / 2 ^ 36) : ℝ) = (-68771099257 : ℤ) * (2 : ℝ) ^ (-37 : ℤ) by norm_num]; exact (Props.fl_exact (-68771099257) (-37) (by norm_num) rfl).trans (by norm_num)),
    (show dbl (-5 / 2 * (4400248796329 / 2 ^ 42)) = -22001243981645 / 2 ^ 43 by
      rw [show (-5 / 2 * (4400248796329 / 2 ^ 42) : ℝ) = (-22001243981645 : ℤ) * (2 : ℝ) ^ (-43 : ℤ) by norm_num]; exact (Props.fl_exact (-22001243981645) (-43) (by norm_num) rfl).trans (by norm_num)),
    (show dbl (-68771099257 / 2 ^ 37 - -22001243981645 / 2 ^ 43) = 17599893629197 / 2 ^ 43 by
      rw [show (-68771099257 / 2 ^ 37 - -22001243981645 / 2 ^ 43 : ℝ) = (17599893629197 : ℤ) * (2 : ℝ) ^ (-43 : ℤ) by norm_num]; exact (Props.fl_exact (17599893629197) (-43) (by norm_num) rfl).trans (by norm_num)),
    (show dbl (-4 * (2097677 / 2 ^ 21)) = -2097677 / 2 ^ 19 by
      rw [show (-4 * (2097677 / 2 ^ 21) : ℝ) = (-2097677 : ℤ) * (2 : ℝ) ^ (-19 : ℤ) by norm_num]; exact (Props.fl_exact (-2097677) (-19) (by norm_num) rfl).trans (by norm_num)),
    (show dbl (17599893629197 / 2 ^ 43 + -2097677 / 2 ^ 19) = -17593286498035 / 2 ^ 43 by
      rw [show (17599893629197 / 2 ^ 43 + -2097677 / 2 ^ 19 : ℝ) = (-17593286498035 : ℤ) * (2 : ℝ) ^ (-43 : ℤ) by norm_num]; exact (Props.fl_exact (-17593286498035) (-43) (by norm_num) rfl).trans (by norm_num)),
    (show dbl (-17593286498035 / 2 ^ 43 - -2) = -1100453619 / 2 ^ 43 by
      rw [show (-17593286498035 / 2 ^ 43 - -2 : ℝ) = (-1100453619 : ℤ) * (2 : ℝ) ^ (-43 : ℤ) by norm_num]; exact (Props.fl_exact (-1100453619) (-43) (by norm_num) rfl).trans (by norm_num))]

theorem ker_b {d : ℝ} (h : |d| = 525 / 2 ^ 21) : cubicKernelD d = 9007197843752959 / 2 ^ 53 := by
  rw [cubicKernelD_eq, h, if_pos (by norm_num),
    (show dbl ((525 / 2 ^ 21) * (525 / 2 ^ 21)) = 275625 / 2 ^ 42 by
      rw [show ((525 / 2 ^ 21) * (525 / 2 ^ 21) : ℝ) = (275625 : ℤ) * (2 : ℝ) ^ (-42 : ℤ) by norm_num]; exact (Props.fl_exact (275625) (-42) (by norm_num) rfl).trans (by norm_num)),
    (show dbl ((275625 / 2 ^ 42) * (525 / 2 ^ 21)) = 144703125 / 2 ^ 63 by
      rw [show ((275625 / 2 ^ 42) * (525 / 2 ^ 21) : ℝ) = (144703125 : ℤ) * (2 : ℝ) ^ (-63 : ℤ) by norm_num]; exact (Props.fl_exact (144703125) (-63) (by norm_num) rfl).trans (by norm_num)),
    (show dbl (3 / 2 * (144703125 / 2 ^ 63)) = 434109375 / 2 ^ 64 by
      rw [show (3 / 2 * (144703125 / 2 ^ 63) : ℝ) = (434109375 : ℤ) * (2 : ℝ) ^ (-64 : ℤ) by norm_num]; exact (Props.fl_exact (434109375) (-64) (by norm_num) rfl).trans (by norm_num)),
    (show dbl (5 / 2 * (275625 / 2 ^ 42)) = 1378125 / 2 ^ 43 by
      rw [show (5 / 2 * (275625 / 2 ^ 42) : ℝ) = (1378125 : ℤ) * (2 : ℝ) ^ (-43 : ℤ) by norm_num]; exact (Props.fl_exact (1378125) (-43) (by norm_num) rfl).trans (by norm_num)),
    (show dbl (434109375 / 2 ^ 64 - 1378125 / 2 ^ 43) = -2889703490625 / 2 ^ 64 by
      rw [show (434109375 / 2 ^ 64 - 1378125 / 2 ^ 43 : ℝ) = (-2889703490625 : ℤ) * (2 : ℝ) ^ (-64 : ℤ) by norm_num]; exact (Props.fl_exact (-2889703490625) (-64) (by norm_num) rfl).trans (by norm_num)),
    (show dbl (-2889703490625 / 2 ^ 64 + 1) = 9007197843752959 / 2 ^ 53 by
      exact (Filter.fl53_of (-1) 9007197843752959 (by norm_num) (by norm_num) (by norm_num [abs_lt])).trans (by norm_num))]

theorem ker_c {d : ℝ} (h : |d| = 2096627 / 2 ^ 21) : cubicKernelD d = 1102107093 / 2 ^ 43 := by
  rw [cubicKernelD_eq, h, if_pos (by norm_num),
    (show dbl ((2096627 / 2 ^ 21) * (2096627 / 2 ^ 21)) = 4395844777129 / 2 ^ 42 by
      rw [show ((2096627 / 2 ^ 21) * (2096627 / 2 ^ 21) : ℝ) = (4395844777129 : ℤ) * (2 : ℝ) ^ (-42 : ℤ) by norm_num]; exact (Props.fl_exact (4395844777129) (-42) (by norm_num) rfl).trans (by norm_num)),
    (show dbl ((4395844777129 / 2 ^ 42) * (2096627 / 2 ^ 21)) = 2197372161755 / 2 ^ 41 by
      exact (Filter.fl53_of (-1) 9000436374548480 (by norm_num) (by norm_num) (by norm_num [abs_lt])).trans (by norm_num)),
    (show dbl (3 / 2 * (2197372161755 / 2 ^ 41)) = 6592116485265 / 2 ^ 42 by
      rw [show (3 / 2 * (2197372161755 / 2 ^ 41) : ℝ) = (6592116485265 : ℤ) * (2 : ℝ) ^ (-42 : ℤ) by norm_num]; exact (Props.fl_exact (6592116485265) (-42) (by norm_num) rfl).trans (by norm_num)),
    (show dbl (5 / 2 * (4395844777129 / 2 ^ 42)) = 21979223885645 / 2 ^ 43 by
      rw [show (5 / 2 * (4395844777129 / 2 ^ 42) : ℝ) = (21979223885645 : ℤ) * (2 : ℝ) ^ (-43 : ℤ) by norm_num]; exact (Props.fl_exact (21979223885645) (-43) (by norm_num) rfl).trans (by norm_num)),
    (show dbl (6592116485265 / 2 ^ 42 - 21979223885645 / 2 ^ 43) = -8794990915115 / 2 ^ 43 by
      rw [show (6592116485265 / 2 ^ 42 - 21979223885645 / 2 ^ 43 : ℝ) = (-8794990915115 : ℤ) * (2 : ℝ) ^ (-43 : ℤ) by norm_num]; exact (Props.fl_exact (-8794990915115) (-43) (by norm_num) rfl).trans (by norm_num)),
    (show dbl (-8794990915115 / 2 ^ 43 + 1) = 1102107093 / 2 ^ 43 by
      rw [show (-8794990915115 / 2 ^ 43 + 1 : ℝ) = (1102107093 : ℤ) * (2 : ℝ) ^ (-43 : ℤ) by norm_num]; exact (Props.fl_exact (1102107093) (-43) (by norm_num) rfl).trans (by norm_num))]

theorem ker_d {d : ℝ} (h : |d| = 4193779 / 2 ^ 21) : cubicKernelD d = -68889 / 2 ^ 41 := by
  rw [cubicKernelD_eq, h, if_neg (by norm_num), if_pos (by norm_num),
    (show dbl ((4193779 / 2 ^ 21) * (4193779 / 2 ^ 21)) = 17587782300841 / 2 ^ 42 by
      rw [show ((4193779 / 2 ^ 21) * (4193779 / 2 ^ 21) : ℝ) = (17587782300841 : ℤ) * (2 : ℝ) ^ (-42 : ℤ) by norm_num]; exact (Props.fl_exact (17587782300841) (-42) (by norm_num) rfl).trans (by norm_num)),
    (show dbl ((17587782300841 / 2 ^ 42) * (4193779 / 2 ^ 21)) = 35171161684913 / 2 ^ 42 by
      exact (Filter.fl53_of (2) 9003817391337728 (by norm_num) (by norm_num) (by norm_num [abs_lt])).trans (by norm_num)),
    (show dbl (-1 / 2 * (35171161684913 / 2 ^ 42)) = -35171161684913 / 2 ^ 43 by
      rw [show (-1 / 2 * (35171161684913 / 2 ^ 42) : ℝ) = (-35171161684913 : ℤ) * (2 : ℝ) ^ (-43 : ℤ) by norm_num]; exact (Props.fl_exact (-35171161684913) (-43) (by norm_num) rfl).trans (by norm_num)),
    (show dbl (-5 / 2 * (17587782300841 / 2 ^ 42)) = -87938911504205 / 2 ^ 43 by
      rw [show (-5 / 2 * (17587782300841 / 2 ^ 42) : ℝ) = (-87938911504205 : ℤ) * (2 : ℝ) ^ (-43 : ℤ) by norm_num]; exact (Props.fl_exact (-87938911504205) (-43) (by norm_num) rfl).trans (by norm_num)),
    (show dbl (-35171161684913 / 2 ^ 43 - -87938911504205 / 2 ^ 43) = 13191937454823 / 2 ^ 41 by
      rw [show (-35171161684913 / 2 ^ 43 - -87938911504205 / 2 ^ 43 : ℝ) = (13191937454823 : ℤ) * (2 : ℝ) ^ (-41 : ℤ) by norm_num]; exact (Props.fl_exact (13191937454823) (-41) (by norm_num) rfl).trans (by norm_num)),
    (show dbl (-4 * (4193779 / 2 ^ 21)) = -4193779 / 2 ^ 19 by
      rw [show (-4 * (4193779 / 2 ^ 21) : ℝ) = (-4193779 : ℤ) * (2 : ℝ) ^ (-19 : ℤ) by norm_num]; exact (Props.fl_exact (-4193779) (-19) (by norm_num) rfl).trans (by norm_num)),
    (show dbl (13191937454823 / 2 ^ 41 + -4193779 / 2 ^ 19) = -4398046579993 / 2 ^ 41 by
      rw [show (13191937454823 / 2 ^ 41 + -4193779 / 2 ^ 19 : ℝ) = (-4398046579993 : ℤ) * (2 : ℝ) ^ (-41 : ℤ) by norm_num]; exact (Props.fl_exact (-4398046579993) (-41) (by norm_num) rfl).trans (by norm_num)),
    (show dbl (-4398046579993 / 2 ^ 41 - -2) = -68889 / 2 ^ 41 by
      rw [show (-4398046579993 / 2 ^ 41 - -2 : ℝ) = (-68889 : ℤ) * (2 : ℝ) ^ (-41 : ℤ) by norm_num]; exact (Props.fl_exact (-68889) (-41) (by norm_num) rfl).trans (by norm_num))]

theorem dot_white : dotD 255 255 255 255 (-1100453619 / 2 ^ 43) (9007197843752959 / 2 ^ 53) (1102107093 / 2 ^ 43) (-68889 / 2 ^ 41) = 8972014882652159 / 2 ^ 45 := by
  rw [dotD,
    (show dbl (255 * (-1100453619 / 2 ^ 43)) = -280615672845 / 2 ^ 43 by
      rw [show (255 * (-1100453619 / 2 ^ 43) : ℝ) = (-280615672845 : ℤ) * (2 : ℝ) ^ (-43 : ℤ) by norm_num]; exact (Props.fl_exact (-280615672845) (-43) (by norm_num) rfl).trans (by norm_num)),
    (show dbl (255 * (9007197843752959 / 2 ^ 53)) = 8972013477175799 / 2 ^ 45 by
      exact (Filter.fl53_of (7) 8972013477175799 (by norm_num) (by norm_num) (by norm_num [abs_lt])).trans (by norm_num)),
    (show dbl (255 * (1102107093 / 2 ^ 43)) = 281037308715 / 2 ^ 43 by
      rw [show (255 * (1102107093 / 2 ^ 43) : ℝ) = (281037308715 : ℤ) * (2 : ℝ) ^ (-43 : ℤ) by norm_num]; exact (Props.fl_exact (281037308715) (-43) (by norm_num) rfl).trans (by norm_num)),
    (show dbl (255 * (-68889 / 2 ^ 41)) = -17566695 / 2 ^ 41 by
      rw [show (255 * (-68889 / 2 ^ 41) : ℝ) = (-17566695 : ℤ) * (2 : ℝ) ^ (-41 : ℤ) by norm_num]; exact (Props.fl_exact (-17566695) (-41) (by norm_num) rfl).trans (by norm_num)),
    (show dbl (0 + -280615672845 / 2 ^ 43) = -280615672845 / 2 ^ 43 by
      rw [show (0 + -280615672845 / 2 ^ 43 : ℝ) = (-280615672845 : ℤ) * (2 : ℝ) ^ (-43 : ℤ) by norm_num]; exact (Props.fl_exact (-280615672845) (-43) (by norm_num) rfl).trans (by norm_num)),
    (show dbl (-280615672845 / 2 ^ 43 + 8972013477175799 / 2 ^ 45) = 8970891014484419 / 2 ^ 45 by
      rw [show (-280615672845 / 2 ^ 43 + 8972013477175799 / 2 ^ 45 : ℝ) = (8970891014484419 : ℤ) * (2 : ℝ) ^ (-45 : ℤ) by norm_num]; exact (Props.fl_exact (8970891014484419) (-45) (by norm_num) rfl).trans (by norm_num)),
    (show dbl (8970891014484419 / 2 ^ 45 + 281037308715 / 2 ^ 43) = 8972015163719279 / 2 ^ 45 by
      rw [show (8970891014484419 / 2 ^ 45 + 281037308715 / 2 ^ 43 : ℝ) = (8972015163719279 : ℤ) * (2 : ℝ) ^ (-45 : ℤ) by norm_num]; exact (Props.fl_exact (8972015163719279) (-45) (by norm_num) rfl).trans (by norm_num)),
    (show dbl (8972015163719279 / 2 ^ 45 + -17566695 / 2 ^ 41) = 8972014882652159 / 2 ^ 45 by
      rw [show (8972015163719279 / 2 ^ 45 + -17566695 / 2 ^ 41 : ℝ) = (8972014882652159 : ℤ) * (2 : ℝ) ^ (-45 : ℤ) by norm_num]; exact (Props.fl_exact (8972014882652159) (-45) (by norm_num) rfl).trans (by norm_num))]

/-! ## C213 -/

/-- Bicubic interpolation of an 8-bit picture: for every picture and every position at least one pixel from the
left and upper and two pixels from the right and lower border, the result is a number `T` within `1 / 2^32` of the
exact bicubic value, cut to the integer below and to the range of 8 bits. -/
theorem C213_level {im : Image (BitVec 8)} {w h : Nat} {f : Nat → Nat → BitVec 8} (s : im.Shows w h f)
    (hw : w ≤ 2 ^ 53) (hh : h ≤ 2 ^ 53) {x y : ℝ} (rx : dbl x = x) (ry : dbl y = y)
    (hx0 : 1 ≤ x) (hx : x < (w : ℝ) - 2) (hy0 : 1 ≤ y) (hy : y < (h : ℝ) - 2) :
    ∃ v T, bicubicD im x y = .ok v ∧ |T - cubicMean (fun i j => ((f i j).toNat : ℝ)) x y| ≤ 1 / 2 ^ 32 ∧
      (v.toNat : ℤ) = max 0 (min 255 ⌊T⌋) := by
  obtain ⟨i, j, hi, hj, hi1, hi2, hj1, hj2, e⟩ := bicubicD_inside s hw hh (rx ▸ dbl_rep x) (ry ▸ dbl_rep y) hx0 hx hy0 hy
  refine ⟨_, _, e, ?_, fromR_int _⟩
  have fx : (i : ℝ) ≤ x := by rw [← hi]; exact Nat.floor_le (by linarith)
  have fx' : x < (i : ℝ) + 1 := by rw [← hi]; exact Nat.lt_floor_add_one x
  have fy : (j : ℝ) ≤ y := by rw [← hj]; exact Nat.floor_le (by linarith)
  have fy' : y < (j : ℝ) + 1 := by rw [← hj]; exact Nat.lt_floor_add_one y
  have he := eps_pos
  have htiny := eps_tiny
  -- the four weights of one direction
  have kerr : ∀ (z : ℝ) (n : Nat), (n : ℝ) ≤ z → z < n + 1 → ∀ q : Fin 4,
      |cubicKernelD (![z - n + 1, z - n, z - n - 1, z - n - 2] q) -
        cubicWeight (![z - n + 1, z - n, z - n - 1, z - n - 2] q)| ≤ 128 * eps := by
    intro z n l u q
    refine cubicKernelD_err ?_
    fin_cases q <;> simp [abs_le] <;> constructor <;> linarith
  have row : ∀ v : Nat, |dotD (f (i - 1) v).toNat (f i v).toNat (f (i + 1) v).toNat (f (i + 2) v).toNat
        (cubicKernelD (x - i + 1)) (cubicKernelD (x - i)) (cubicKernelD (x - i - 1)) (cubicKernelD (x - i - 2)) -
      (0 + (f (i - 1) v).toNat * cubicWeight (x - i + 1) + (f i v).toNat * cubicWeight (x - i) +
        (f (i + 1) v).toNat * cubicWeight (x - i - 1) + (f (i + 2) v).toNat * cubicWeight (x - i - 2))| ≤
      140000 * eps := by
    intro v
    have := dotD_err (α := 0) (A := 255)
      (a := fun q => ((![f (i - 1) v, f i v, f (i + 1) v, f (i + 2) v] q).toNat : ℝ))
      (a' := fun q => ((![f (i - 1) v, f i v, f (i + 1) v, f (i + 2) v] q).toNat : ℝ))
      (k := fun q => cubicWeight (![x - i + 1, x - i, x - i - 1, x - i - 2] q))
      (k' := fun q => cubicKernelD (![x - i + 1, x - i, x - i - 1, x - i - 2] q))
      (fun q => by simp) (kerr x i fx fx')
      (fun q => by
        rw [abs_of_nonneg (by positivity)]
        exact_mod_cast Nat.le_of_lt_succ (BitVec.isLt _))
      (fun q => cubicWeight_le _) (by norm_num) (by norm_num)
    refine (le_trans ?_ this).trans (by linarith)
    simp
  have rowb : ∀ v : Nat, |0 + (f (i - 1) v).toNat * cubicWeight (x - i + 1) + (f i v).toNat * cubicWeight (x - i) +
        (f (i + 1) v).toNat * cubicWeight (x - i - 1) + (f (i + 2) v).toNat * cubicWeight (x - i - 2)| ≤ 1020 := by
    intro v
    have one : ∀ (b : BitVec 8) (d : ℝ), |(b.toNat : ℝ) * cubicWeight d| ≤ 255 := by
      intro b d
      rw [abs_mul, abs_of_nonneg (by positivity)]
      have : (b.toNat : ℝ) ≤ 255 := by exact_mod_cast Nat.le_of_lt_succ b.isLt
      calc _ ≤ 255 * (1 : ℝ) := mul_le_mul this (cubicWeight_le d) (abs_nonneg _) (by norm_num)
        _ = 255 := by norm_num
    have b0 := abs_le.1 (one (f (i - 1) v) (x - i + 1))
    have b1 := abs_le.1 (one (f i v) (x - i))
    have b2 := abs_le.1 (one (f (i + 1) v) (x - i - 1))
    have b3 := abs_le.1 (one (f (i + 2) v) (x - i - 2))
    rw [abs_le]
    constructor <;> linarith
  have main := dotD_err (α := 140000 * eps) (A := 1020)
    (a := fun q => (fun v : Nat => 0 + (f (i - 1) v).toNat * cubicWeight (x - i + 1) +
      (f i v).toNat * cubicWeight (x - i) + (f (i + 1) v).toNat * cubicWeight (x - i - 1) +
      (f (i + 2) v).toNat * cubicWeight (x - i - 2)) (![j - 1, j, j + 1, j + 2] q))
    (a' := fun q => (fun v : Nat => dotD (f (i - 1) v).toNat (f i v).toNat (f (i + 1) v).toNat (f (i + 2) v).toNat
      (cubicKernelD (x - i + 1)) (cubicKernelD (x - i)) (cubicKernelD (x - i - 1)) (cubicKernelD (x - i - 2)))
        (![j - 1, j, j + 1, j + 2] q))
    (k := fun q => cubicWeight (![y - j + 1, y - j, y - j - 1, y - j - 2] q))
    (k' := fun q => cubicKernelD (![y - j + 1, y - j, y - j - 1, y - j - 2] q))
    (fun q => row _) (kerr y j fy fy') (fun q => rowb _) (fun q => cubicWeight_le _) (by linarith) (by norm_num)
  have bound : 8 * (140000 * eps) + 548 * eps * 1020 ≤ 1 / 2 ^ 32 := by unfold eps; norm_num
  refine (le_trans (le_of_eq ?_) main).trans bound
  have ci : ((i - 1 : Nat) : ℝ) = (i : ℝ) - 1 := by rw [Nat.cast_sub hi1]; simp
  have cj : ((j - 1 : Nat) : ℝ) = (j : ℝ) - 1 := by rw [Nat.cast_sub hj1]; simp
  have i1 : i - 1 + 1 = i := by omega
  have i2 : i - 1 + 2 = i + 1 := by omega
  have i3 : i - 1 + 3 = i + 2 := by omega
  have j1 : j - 1 + 1 = j := by omega
  have j2 : j - 1 + 2 = j + 1 := by omega
  have j3 : j - 1 + 3 = j + 2 := by omega
  have x0 : x - ((i : ℝ) - 1) = x - i + 1 := by ring
  have x1 : x - ((i : ℝ) - 1 + 1) = x - i := by ring
  have x2 : x - ((i : ℝ) - 1 + 2) = x - i - 1 := by ring
  have x3 : x - ((i : ℝ) - 1 + 3) = x - i - 2 := by ring
  have y0 : y - ((j : ℝ) - 1) = y - j + 1 := by ring
  have y1 : y - ((j : ℝ) - 1 + 1) = y - j := by ring
  have y2 : y - ((j : ℝ) - 1 + 2) = y - j - 1 := by ring
  have y3 : y - ((j : ℝ) - 1 + 3) = y - j - 2 := by ring
  congr 2
  unfold cubicMean
  rw [hi, hj]
  simp only [Finset.sum_range_succ, Finset.sum_range_zero, add_zero, i1, i2, i3, j1, j2, j3, ci, cj,
    Nat.cast_add, Nat.cast_one, Nat.cast_ofNat, Nat.cast_zero, x0, x1, x2, x3, y0, y1, y2, y3]
  simp

example := C213_level (picture_shows 5 4 fun x y => BitVec.ofNat 8 (40 * x + 7 * y)) (by decide) (by decide)
  (x := 3 / 2) (y := 5 / 4) (dbl_of_rep ⟨3, -1, by norm_num, by norm_num⟩)
  (dbl_of_rep ⟨5, -2, by norm_num, by norm_num⟩) (by norm_num) (by norm_num) (by norm_num) (by norm_num)

/-- At pixel positions, also at the border, the pixel itself results. -/
theorem C213_grid {im : Image (BitVec 8)} {w h : Nat} {f : Nat → Nat → BitVec 8} (s : im.Shows w h f)
    (hw : w ≤ 2 ^ 53) (hh : h ≤ 2 ^ 53) (i j : Nat) (hi : i < w) (hj : j < h) :
    bicubicD im (i : ℝ) (j : ℝ) = .ok (f i j) := by
  by_cases hb : 1 ≤ (i : ℝ) ∧ (i : ℝ) < (w : ℝ) - 2 ∧ 1 ≤ (j : ℝ) ∧ (j : ℝ) < (h : ℝ) - 2
  · obtain ⟨h1, h2, h3, h4⟩ := hb
    obtain ⟨i', j', hi', hj', -, -, -, -, e⟩ := bicubicD_inside s hw hh (x := i) (y := j)
      (by rw [← dbl_nat (n := i) (by omega)]; exact dbl_rep _)
      (by rw [← dbl_nat (n := j) (by omega)]; exact dbl_rep _) h1 h2 h3 h4
    rw [Nat.floor_natCast] at hi' hj'
    subst hi'; subst hj'
    rw [e]
    simp only [sub_self, zero_add, zero_sub]
    rw [kerD_zero, kerD_one (d := 1) (by norm_num), kerD_one (d := -1) (by norm_num), kerD_two (d := -2) (by norm_num),
      dotD_unit' (dotD _ _ _ _ _ _ _ _), dotD_unit _ _ _ _ (byte_dbl _)]
    simp only [byte_dbl]
    congr 1
    apply BitVec.eq_of_toNat_eq
    have hv := (f i j).isLt
    rw [Props.fromR_floor (hi := (f i j).toNat) (by omega) (by positivity) (by rw [Nat.floor_natCast]),
      Nat.floor_natCast]
  · rw [bicubicD_border s hw hh hb]
    exact Props.C152_grid s hw hh i j hi hj

example := C213_grid (picture_shows 5 4 fun x y => BitVec.ofNat 8 (40 * x + 7 * y)) (by decide) (by decide) 2 1
  (by decide) (by decide)

/-- A picture of one colour: every position inside gives this colour or the next darker one. -/
theorem C213_constant_partial {im : Image (BitVec 8)} {w h : Nat} {c : BitVec 8} (s : im.Shows w h fun _ _ => c)
    (hw : w ≤ 2 ^ 53) (hh : h ≤ 2 ^ 53) {x y : ℝ} (rx : dbl x = x) (ry : dbl y = y)
    (hx0 : 0 ≤ x) (hx : x ≤ (w : ℝ) - 1) (hy0 : 0 ≤ y) (hy : y ≤ (h : ℝ) - 1) :
    ∃ v, bicubicD im x y = .ok v ∧ (v.toNat = c.toNat ∨ v.toNat + 1 = c.toNat) := by
  by_cases hb : 1 ≤ x ∧ x < (w : ℝ) - 2 ∧ 1 ≤ y ∧ y < (h : ℝ) - 2
  · obtain ⟨h1, h2, h3, h4⟩ := hb
    obtain ⟨v, T, e, hT, hv⟩ := C213_level s hw hh rx ry h1 h2 h3 h4
    refine ⟨v, e, ?_⟩
    have hx1 : 1 ≤ ⌊x⌋₊ := by rw [Nat.one_le_floor_iff]; exact h1
    have hy1 : 1 ≤ ⌊y⌋₊ := by rw [Nat.one_le_floor_iff]; exact h3
    have mean : cubicMean (fun _ _ => (c.toNat : ℝ)) x y = c.toNat := by
      have sx := cubicWeight_sum (t := x - ⌊x⌋₊) (by linarith [Nat.floor_le hx0]) (by linarith [Nat.lt_floor_add_one x])
      have sy := cubicWeight_sum (t := y - ⌊y⌋₊) (by linarith [Nat.floor_le hy0]) (by linarith [Nat.lt_floor_add_one y])
      have four : ∀ (z : ℝ) (n : Nat), 1 ≤ n →
          ∑ k ∈ Finset.range 4, cubicWeight (z - (n - 1 + k : Nat)) = cubicWeight (z - n + 1) + cubicWeight (z - n) +
            cubicWeight (z - n - 1) + cubicWeight (z - n - 2) := by
        intro z n hn
        obtain ⟨m, rfl⟩ : ∃ m, n = m + 1 := ⟨n - 1, by omega⟩
        simp only [Finset.sum_range_succ, Finset.sum_range_zero, zero_add, Nat.add_sub_cancel, Nat.cast_add,
          Nat.cast_one, Nat.cast_ofNat, Nat.cast_zero, add_zero]
        congr 1
        · congr 1
          · congr 1
            congr 1; ring
          · congr 1; ring
        · congr 1; ring
      unfold cubicMean
      simp only [← Finset.mul_sum]
      rw [four x _ hx1, sx, four y _ hy1, sy]
      ring
    rw [mean, abs_le] at hT
    have hc := c.isLt
    have l1 : (c.toNat : ℤ) - 1 ≤ ⌊T⌋ := by
      rw [Int.le_floor]; push_cast
      have : (1 : ℝ) / 2 ^ 32 ≤ 1 := by norm_num
      linarith [hT.1]
    have l2 : ⌊T⌋ < (c.toNat : ℤ) + 1 := by
      rw [Int.floor_lt]; push_cast
      have : (1 : ℝ) / 2 ^ 32 < 1 := by norm_num
      linarith [hT.2]
    omega
  · rw [bicubicD_border s hw hh hb]
    obtain ⟨v, e, h1, h2⟩ := Props.C152_between_partial s hw hh x y hx0 hx hy0 hy c.toNat c.toNat
      (fun _ _ _ _ _ _ => ⟨le_rfl, le_rfl⟩)
    exact ⟨v, e, by omega⟩

example := C213_constant_partial (picture_shows 5 4 fun _ _ => 200#8) (by decide) (by decide)
  (x := 3 / 2) (y := 5 / 4) (dbl_of_rep ⟨3, -1, by norm_num, by norm_num⟩)
  (dbl_of_rep ⟨5, -2, by norm_num, by norm_num⟩) (by norm_num) (by norm_num) (by norm_num) (by norm_num)

/-- What is missing: the next darker colour does occur. A white picture of 4 x 4 pixels has the level 254 at a
position between its pixels. -/
theorem C213_constant_violation : ∃ (im : Image (BitVec 8)) (x y : ℝ), im.Shows 4 4 (fun _ _ => 255#8) ∧
    dbl x = x ∧ dbl y = y ∧ 1 ≤ x ∧ x < 2 ∧ 1 ≤ y ∧ y < 2 ∧ bicubicD im x y = .ok 254#8 := by
  have s := picture_shows 4 4 fun _ _ => 255#8
  have rx : Rep 53 (1 + 525 / 2 ^ 21 : ℝ) := ⟨2097677, -21, by norm_num, by norm_num⟩
  have ry : Rep 53 (1 : ℝ) := ⟨1, 0, by norm_num, by norm_num⟩
  refine ⟨picture 4 4 fun _ _ => 255#8, 1 + 525 / 2 ^ 21, 1, s, dbl_of_rep rx, dbl_of_rep ry,
    by norm_num, by norm_num, le_rfl, by norm_num, ?_⟩
  obtain ⟨i, j, hi, hj, -, -, -, -, e⟩ := bicubicD_inside s (by norm_num) (by norm_num) rx ry
    (by norm_num) (by norm_num) le_rfl (by norm_num)
  have hi' : i = 1 := by
    rw [← hi, Nat.floor_eq_iff (by norm_num)]; constructor <;> norm_num
  have hj' : j = 1 := by rw [← hj, Nat.floor_one]
  subst hi'; subst hj'
  rw [e]
  have e255 : ((255#8).toNat : ℝ) = 255 := by
    have : (255#8).toNat = 255 := by decide
    rw [this]; norm_num
  simp only [e255, Nat.cast_one, sub_self, zero_add, zero_sub]
  rw [ker_a (d := 1 + 525 / 2 ^ 21 - 1 + 1) (by norm_num [abs_of_pos]),
    ker_b (d := 1 + 525 / 2 ^ 21 - 1) (by norm_num [abs_of_pos]),
    ker_c (d := 1 + 525 / 2 ^ 21 - 1 - 1) (by norm_num [abs_of_neg]),
    ker_d (d := 1 + 525 / 2 ^ 21 - 1 - 2) (by norm_num [abs_of_neg]), dot_white,
    kerD_zero, kerD_one (d := 1) (by norm_num), kerD_one (d := -1) (by norm_num), kerD_two (d := -2) (by norm_num),
    dotD_unit _ _ _ _ (dbl_of_rep ⟨8972014882652159, -45, by norm_num, by norm_num⟩)]
  congr 1
  apply BitVec.eq_of_toNat_eq
  have hf : ⌊(8972014882652159 / 2 ^ 45 : ℝ)⌋₊ = 254 := by
    rw [Nat.floor_eq_iff (by norm_num)]; constructor <;> norm_num
  rw [Props.fromR_floor (hi := 254) (by norm_num) (by norm_num) (by rw [hf]), hf]
  decide

end TinyDIP.Rnd
