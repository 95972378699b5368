import Verif.Model.MulFlt
import Verif.Props.InvertFlt
import Mathlib.Algebra.Order.BigOperators.Group.Finset

/-!
# C219-C220: matrix products and scaled homographies in double precision

`A.Is M` is Spec/LinAlg.lean's, products and transposes of matrices are Mathlib's.
-/

namespace TinyDIP.Props

open TinyDIP Mat Rnd

/-- The rounded sum of the first `n` rounded values. -/
noncomputable def sumF (f : Nat → ℝ) : Nat → ℝ
  | 0 => 0
  | n + 1 => dbl (sumF f n + dbl (f n))

theorem multiplyF_reads {A B : Mat ℝ} {m n p : Nat} {f g : Nat → Nat → ℝ}
    (hA : A.Reads m n f) (hB : B.Reads n p g) (hf : m * p < 2 ^ 64) :
    ∃ C, multiplyF A B = .ok C ∧ C.Reads m p (fun i j => sumF (fun k => f i k * g k j) n) := by
  unfold multiplyF
  rw [if_neg (by rw [hA.cols, hB.rows]; simp), hA.rows, hB.cols, hA.cols]
  refine forUp_fill _ (fun C i j => do
        let sum ← forUp n (fun sum k => do
          let a ← A.get i k
          let b ← B.get k j
          .ok (dbl (sum + dbl (a * b)))) 0
        C.set i j sum) ?_ _ _ (mk'_reads 0 hf)
  intro r c hr hc C k hC
  obtain ⟨s, e, hs⟩ := forUp_inv (n := n) (body := fun sum k => do
      let a ← A.get r k
      let b ← B.get k c
      .ok (dbl (sum + dbl (a * b)))) (fun k s => s = sumF (fun k => f r k * g k c) k)
    (by
      rintro k s hk rfl
      refine ⟨_, ?_, rfl⟩
      simp [hA.get hr hk, hB.get hk hc, sumF]) 0 rfl
  rw [e, hs]
  simp only [Res.ok_bind]
  exact hC.set hr hc _

theorem sumF_near (f : Nat → ℝ) (n : Nat) :
    Near (n + 1) (sumF f n) ((Finset.range n).sum f) ((Finset.range n).sum fun k => |f k|) := by
  induction n with
  | zero => simp [Near, sumF]
  | succ n ih =>
    have h1 : ∀ n, Near (n + 1) (dbl (f n)) (f n) |f n| ∧ True := fun n => ⟨by
      have : ∀ j k, Near (j + 1) (dbl (f k)) (f k) |f k| := by
        intro j k
        induction j with
        | zero => exact (Near.exact (f k)).rnd
        | succ j ih => exact ih.mono
      exact this n n, trivial⟩
    rw [Finset.sum_range_succ, Finset.sum_range_succ]
    exact (ih.add (h1 n).1).rnd

theorem sumF_int (f : Nat → ℤ) (n : Nat) (h : (Finset.range n).sum (fun k => |f k|) ≤ 2 ^ 53) :
    sumF (fun k => (f k : ℝ)) n = (((Finset.range n).sum f : ℤ) : ℝ) := by
  induction n with
  | zero => simp [sumF]
  | succ n ih =>
    have hs := h
    rw [Finset.sum_range_succ] at hs
    have h0 : 0 ≤ (Finset.range n).sum (fun k => |f k|) := Finset.sum_nonneg fun _ _ => abs_nonneg _
    have hn := abs_nonneg (f n)
    have ha : |(Finset.range (n + 1)).sum f| ≤ 2 ^ 53 := (Finset.abs_sum_le_sum_abs _ _).trans h
    rw [Finset.sum_range_succ] at ha ⊢
    unfold sumF
    rw [ih (by linarith), dbl_int (by linarith), ← Int.cast_add, dbl_int ha]

/-- `multiply` in `double`, for all sizes: every entry is the entry of the product up to the error of
`n + 1` roundings relative to the sum of the absolute values of the `n` products it is made of. -/
theorem C219_error {m n p : Nat} {A B : Mat ℝ} {M : Matrix (Fin m) (Fin n) ℝ}
    {N : Matrix (Fin n) (Fin p) ℝ} (hA : A.Is M) (hB : B.Is N) (hf : m * p < 2 ^ 64) :
    ∃ C K, multiplyF A B = .ok C ∧ C.Is K ∧
      ∀ i j, |K i j - (M * N) i j| ≤
        ((1 + 1 / 2 ^ 53) ^ (n + 1) - 1) * Finset.univ.sum fun k => |M i k * N k j| := by
  obtain ⟨C, e, r⟩ := multiplyF_reads (hA.reads 0) (hB.reads 0) hf
  refine ⟨C, _, e, r.is, fun i j => ?_⟩
  have h := (sumF_near (fun k => ext 0 M i k * ext 0 N k j) n).2
  rw [Matrix.of_apply, Matrix.mul_apply]
  rw [Finset.sum_range, Finset.sum_range] at h
  have he : eps = 1 / 2 ^ 53 := rfl
  rw [he] at h
  simpa [ext] using h

/-- Integer matrices whose sums of absolute products are at most `2^53` are multiplied exactly. -/
theorem C219_exact {m n p : Nat} {A B : Mat ℝ} {M : Matrix (Fin m) (Fin n) ℤ}
    {N : Matrix (Fin n) (Fin p) ℤ} (hA : A.Is (M.map (Int.cast : ℤ → ℝ)))
    (hB : B.Is (N.map (Int.cast : ℤ → ℝ))) (hf : m * p < 2 ^ 64)
    (hs : ∀ i j, (Finset.univ.sum fun k => |M i k * N k j|) ≤ 2 ^ 53) :
    ∃ C, multiplyF A B = .ok C ∧ C.Is ((M * N).map (Int.cast : ℤ → ℝ)) := by
  obtain ⟨C, e, r⟩ := multiplyF_reads (hA.reads 0) (hB.reads 0) hf
  refine ⟨C, e, r.is.congr ?_⟩
  ext i j
  have h := sumF_int (fun k => ext 0 M i k * ext 0 N k j) n (by
    rw [Finset.sum_range]
    simpa [ext] using hs i j)
  rw [Matrix.of_apply, Matrix.map_apply, Matrix.mul_apply]
  rw [Finset.sum_range] at h
  have e1 : (fun k => ext 0 (M.map (Int.cast : ℤ → ℝ)) i k * ext 0 (N.map (Int.cast : ℤ → ℝ)) k j) =
      fun k => ((ext 0 M i k * ext 0 N k j : ℤ) : ℝ) := by
    funext k
    by_cases hk : k < n <;> simp [ext, hk]
  rw [e1, h]
  simp [ext]

/-- Inner sizes that differ: the call throws. -/
theorem C219_throws {m n n' p : Nat} {A B : Mat ℝ} {M : Matrix (Fin m) (Fin n) ℝ}
    {N : Matrix (Fin n') (Fin p) ℝ} (hA : A.Is M) (hB : B.Is N) (h : n ≠ n') :
    multiplyF A B = .throw .runtime := by
  unfold multiplyF; rw [if_pos (by rw [hA.cols, hB.rows]; exact h)]

/-- The product of the transpose of a matrix and the matrix, the input of the eigenvalue solver, is
exactly symmetric in spite of rounding. -/
theorem C219_gram {m n : Nat} {A : Mat ℝ} {M : Matrix (Fin m) (Fin n) ℝ} (hA : A.Is M)
    (hf : n * n < 2 ^ 64) :
    ∃ C, ∃ K : Matrix (Fin n) (Fin n) ℝ,
      (A.transpose 0 >>= fun T => multiplyF T A) = .ok C ∧ C.Is K ∧ K.transpose = K := by
  obtain ⟨T, e, r⟩ := transpose_reads 0 (hA.reads 0)
  obtain ⟨C, e', r'⟩ := multiplyF_reads r (hA.reads 0) hf
  refine ⟨C, _, by rw [e]; exact e', r'.is, ?_⟩
  ext i j
  rw [Matrix.transpose_apply, Matrix.of_apply, Matrix.of_apply]
  congr 1
  funext k
  exact mul_comm _ _

/-- One number as a matrix. -/
noncomputable def mat1 (x : ℝ) : Mat ℝ := ⟨1, 1, [x]⟩

theorem mat1_is (x : ℝ) : (mat1 x).Is !![x] := by
  refine ⟨rfl, rfl, rfl, by norm_num, ?_⟩
  intro i j
  fin_cases i; fin_cases j; rfl

theorem mat1_mul (x y : ℝ) : multiplyF (mat1 x) (mat1 y) = .ok (mat1 (dbl (x * y))) := by
  obtain ⟨C, e, r⟩ := multiplyF_reads ((mat1_is x).reads 0) ((mat1_is y).reads 0) (by norm_num)
  have : C = mat1 (dbl (x * y)) := by
    refine r.is.unique ((mat1_is _).congr ?_)
    ext i j
    fin_cases i; fin_cases j
    simp [sumF, ext, dbl_of_rep (dbl_rep _)]
  rw [e, this]

/-- Products of matrices of doubles are not associative: three 1×1 matrices of integers below `2^53`
for which `(A B) C` and `A (B C)` differ. -/
theorem C219_assoc_violation : ∃ (A B C : Mat ℝ) (a b c : ℤ), A.Is !![(a : ℝ)] ∧ B.Is !![(b : ℝ)] ∧
    C.Is !![(c : ℝ)] ∧ |a| < 2 ^ 53 ∧ |b| < 2 ^ 53 ∧ |c| < 2 ^ 53 ∧
    ∃ X Y x y, (multiplyF A B >>= fun R => multiplyF R C) = .ok X ∧ X.Is !![x] ∧
      (multiplyF B C >>= fun R => multiplyF A R) = .ok Y ∧ Y.Is !![y] ∧ x ≠ y := by
  have p2 : dbl (5629499534213105 * 5) = 28147497671065524 := by
    have := Filter.fl53_of (x := 5629499534213105 * 5) 54 (28147497671065524 / 4) (by norm_num) (by norm_num)
      (by norm_num [abs_lt])
    norm_num at this
    unfold dbl; norm_num; exact this
  have p6 : dbl (28147497671065524 * 7) = 197032483697458656 := by
    have := Filter.fl53_of (x := 28147497671065524 * 7) 57 (197032483697458656 / 32) (by norm_num) (by norm_num)
      (by norm_num [abs_lt])
    norm_num at this
    unfold dbl; norm_num; exact this
  have p7 : dbl (5 * 7) = 35 := by
    have := dbl_nat (n := 35) (by norm_num); norm_num at this ⊢; exact this
  have p8 : dbl (5629499534213105 * 35) = 197032483697458688 := by
    have := Filter.fl53_of (x := 5629499534213105 * 35) 57 (197032483697458688 / 32) (by norm_num) (by norm_num)
      (by norm_num [abs_lt])
    norm_num at this
    unfold dbl; norm_num; exact this
  refine ⟨mat1 5629499534213105, mat1 5, mat1 7, 5629499534213105, 5, 7, by exact_mod_cast mat1_is _,
    by exact_mod_cast mat1_is _, by exact_mod_cast mat1_is _, by norm_num, by norm_num, by norm_num,
    mat1 197032483697458656, mat1 197032483697458688, _, _, ?_, mat1_is _, ?_, mat1_is _, by norm_num⟩
  · rw [mat1_mul, p2, Res.ok_bind, mat1_mul, p6]
  · rw [mat1_mul, p7, Res.ok_bind, mat1_mul, p8]

/-! The hypotheses hold for a 2×3 and a 3×2 matrix. -/

noncomputable def matU : Mat ℝ := ⟨2, 3, [1, 2, 3, 4, 5, 6]⟩
noncomputable def matV : Mat ℝ := ⟨3, 2, [7, 8, 9, 10, 11, 12]⟩

theorem matU_is : matU.Is ((!![1, 2, 3; 4, 5, 6] : Matrix (Fin 2) (Fin 3) ℤ).map (Int.cast : ℤ → ℝ)) := by
  refine ⟨rfl, rfl, rfl, by norm_num, ?_⟩
  intro i j
  fin_cases i <;> fin_cases j <;> simp [matU, Matrix.map_apply] <;> rfl

theorem matV_is : matV.Is ((!![7, 8; 9, 10; 11, 12] : Matrix (Fin 3) (Fin 2) ℤ).map (Int.cast : ℤ → ℝ)) := by
  refine ⟨rfl, rfl, rfl, by norm_num, ?_⟩
  intro i j
  fin_cases i <;> fin_cases j <;> simp [matV, Matrix.map_apply] <;> rfl

example := C219_error matU_is matV_is (by norm_num)
example := C219_exact matU_is matV_is (by norm_num) (by
  intro i j
  fin_cases i <;> fin_cases j <;> simp [Fin.sum_univ_three])
example := C219_throws matU_is matU_is (by norm_num)
example := C219_gram matU_is (by norm_num)

/-! ## C220 -/

theorem diag_set (a b : ℝ) : ∃ T1 T2 T3, (mk' 0 3 3 : Mat ℝ).set 0 0 a = .ok T1 ∧ T1.set 1 1 b = .ok T2 ∧
    T2.set 2 2 1 = .ok T3 ∧ T3.Is (Matrix.diagonal ![a, b, 1]) := by
  have h0 := mk'_reads (0 : ℝ) (m := 3) (n := 3) (by norm_num)
  obtain ⟨T1, e1, r1⟩ := h0.set (r := 0) (c := 0) (by omega) (by omega) a
  obtain ⟨T2, e2, r2⟩ := r1.set (r := 1) (c := 1) (by omega) (by omega) b
  obtain ⟨T3, e3, r3⟩ := r2.set (r := 2) (c := 2) (by omega) (by omega) 1
  refine ⟨T1, T2, T3, e1, e2, e3, r3.is.congr ?_⟩
  ext i j
  fin_cases i <;> fin_cases j <;> simp

theorem idem (x : ℝ) : dbl (dbl x) = dbl x := dbl_of_rep (dbl_rep _)

theorem diag_left {D H : Mat ℝ} {d : Fin 3 → ℝ} {M : Matrix (Fin 3) (Fin 3) ℝ}
    (hD : D.Is (Matrix.diagonal d)) (hH : H.Is M) :
    ∃ C, multiplyF D H = .ok C ∧ C.Is (Matrix.of fun i j => dbl (d i * M i j)) := by
  obtain ⟨C, e, r⟩ := multiplyF_reads (hD.reads 0) (hH.reads 0) (by norm_num)
  refine ⟨C, e, r.is.congr ?_⟩
  ext i j
  fin_cases i <;> fin_cases j <;> simp [sumF, ext, dbl_zero, idem]

theorem diag_right {D H : Mat ℝ} {d : Fin 3 → ℝ} {M : Matrix (Fin 3) (Fin 3) ℝ}
    (hD : D.Is (Matrix.diagonal d)) (hH : H.Is M) :
    ∃ C, multiplyF H D = .ok C ∧ C.Is (Matrix.of fun i j => dbl (M i j * d j)) := by
  obtain ⟨C, e, r⟩ := multiplyF_reads (hH.reads 0) (hD.reads 0) (by norm_num)
  refine ⟨C, e, r.is.congr ?_⟩
  ext i j
  fin_cases i <;> fin_cases j <;> simp [sumF, ext, dbl_zero, idem]

theorem scaleF_run {H : Mat ℝ} {M : Matrix (Fin 3) (Fin 3) ℝ} (hH : H.Is M)
    (w1F h1F w1S h1S w2F h2F w2S h2S : Nat) :
    ∃ R, scaleHomographyF H w1F h1F w1S h1S w2F h2F w2S h2S = .ok R ∧
      R.Is (Matrix.of fun i j => dbl (dbl (![dbl (dbl w2S / dbl w2F), dbl (dbl h2S / dbl h2F), 1] i * M i j) *
        ![dbl (dbl w1F / dbl w1S), dbl (dbl h1F / dbl h1S), 1] j)) := by
  obtain ⟨A1, A2, A3, a1, a2, a3, hA⟩ := diag_set (dbl (dbl w1F / dbl w1S)) (dbl (dbl h1F / dbl h1S))
  obtain ⟨B1, B2, B3, b1, b2, b3, hB⟩ := diag_set (dbl (dbl w2S / dbl w2F)) (dbl (dbl h2S / dbl h2F))
  obtain ⟨C, eC, hC⟩ := diag_left hB hH
  obtain ⟨D, eD, hD⟩ := diag_right hA hC
  refine ⟨D, ?_, hD⟩
  unfold scaleHomographyF
  simp only [a1, a2, a3, b1, b2, b3, eC, eD, Res.ok_bind]

theorem ratio_err {a b : Nat} (ha : a ≤ 2 ^ 53) (hb : b ≤ 2 ^ 53) :
    |dbl (dbl a / dbl b) - (a : ℝ) / b| ≤ eps * |(a : ℝ) / b| := by
  rw [dbl_nat ha, dbl_nat hb]; exact dbl_err _

theorem scaled_entry {s a h t b : ℝ} (hs : |s - a| ≤ eps * |a|) (ht : |t - b| ≤ eps * |b|) :
    |dbl (dbl (s * h) * t) - a * h * b| ≤ 5 / 2 ^ 53 * |a * h * b| := by
  have n1 : Near 1 (s * h * b) (a * h * b) |a * h * b| := by
    refine (Near.exact (a * h * b)).step ?_
    rw [show s * h * b - a * h * b = (s - a) * (h * b) by ring, abs_mul, mul_assoc a, abs_mul a]
    have := mul_le_mul_of_nonneg_right hs (abs_nonneg (h * b))
    linarith
  have n2 : Near 2 (dbl (s * h) * b) (a * h * b) |a * h * b| := by
    refine n1.step ?_
    rw [← sub_mul, abs_mul, abs_mul (s * h)]
    have := mul_le_mul_of_nonneg_right (dbl_err (s * h)) (abs_nonneg b)
    linarith
  have n3 : Near 3 (dbl (s * h) * t) (a * h * b) |a * h * b| := by
    refine n2.step ?_
    rw [← mul_sub, abs_mul, abs_mul (dbl (s * h))]
    have := mul_le_mul_of_nonneg_left ht (abs_nonneg (dbl (s * h)))
    linarith
  have he : eps = 1 / 2 ^ 53 := rfl
  exact n3.rnd.2.trans (mul_le_mul_of_nonneg_right (by rw [he]; norm_num) (abs_nonneg _))

/-- `scale_homography` in `double`, for all sizes up to `2^53`: the entry at row `i` and column `j` is
the entry of the homography times the ratio of sizes of the second image (rows 0 and 1) and of the first
image (columns 0 and 1), up to `5/2^53` of that value. -/
theorem C220_entries {H : Mat ℝ} {M : Matrix (Fin 3) (Fin 3) ℝ} (hH : H.Is M)
    {w1F h1F w1S h1S w2F h2F w2S h2S : Nat} (_ : 0 < w1S) (_ : 0 < h1S) (_ : 0 < w2F) (_ : 0 < h2F)
    (a1 : w1F ≤ 2 ^ 53) (a2 : h1F ≤ 2 ^ 53) (a3 : w1S ≤ 2 ^ 53) (a4 : h1S ≤ 2 ^ 53)
    (a5 : w2F ≤ 2 ^ 53) (a6 : h2F ≤ 2 ^ 53) (a7 : w2S ≤ 2 ^ 53) (a8 : h2S ≤ 2 ^ 53) :
    ∃ R K, scaleHomographyF H w1F h1F w1S h1S w2F h2F w2S h2S = .ok R ∧ R.Is K ∧
      ∀ i j, |K i j - ![(w2S : ℝ) / w2F, (h2S : ℝ) / h2F, 1] i * M i j *
          ![(w1F : ℝ) / w1S, (h1F : ℝ) / h1S, 1] j| ≤
        5 / 2 ^ 53 * |![(w2S : ℝ) / w2F, (h2S : ℝ) / h2F, 1] i * M i j *
          ![(w1F : ℝ) / w1S, (h1F : ℝ) / h1S, 1] j| := by
  obtain ⟨R, e, r⟩ := scaleF_run hH w1F h1F w1S h1S w2F h2F w2S h2S
  refine ⟨R, _, e, r, fun i j => ?_⟩
  rw [Matrix.of_apply]
  have one : |(1 : ℝ) - 1| ≤ eps * |(1 : ℝ)| := by
    rw [sub_self, abs_zero]; exact mul_nonneg eps_pos.le (abs_nonneg _)
  refine scaled_entry ?_ ?_
  · fin_cases i
    · exact ratio_err a7 a5
    · exact ratio_err a8 a6
    · exact one
  · fin_cases j
    · exact ratio_err a1 a3
    · exact ratio_err a2 a4
    · exact one

theorem rep_scale {x : ℝ} (h : Rep 53 x) (z : ℤ) : Rep 53 (x * 2 ^ z) := by
  obtain ⟨m, e, hm, rfl⟩ := h
  exact ⟨m, e + z, hm, by rw [zpow_add₀ (by norm_num)]; ring⟩

theorem ratio_pow (z : ℤ) : dbl ((2 : ℝ) ^ z) = 2 ^ z := by
  have h : Rep 53 (1 : ℝ) := by have := dbl_rep 1; rwa [dbl_one] at this
  have := rep_scale h z
  rw [one_mul] at this
  exact dbl_of_rep this

/-- When each full size is a power of two times the small size, the homography of doubles is scaled
exactly. -/
theorem C220_exact {H : Mat ℝ} {M : Matrix (Fin 3) (Fin 3) ℝ} (hH : H.Is M) (hM : ∀ i j, Rep 53 (M i j))
    {w1 h1 w2 h2 a b c d : Nat} (p1 : 0 < w1) (p2 : 0 < h1) (p3 : 0 < w2) (p4 : 0 < h2)
    (q1 : w1 * 2 ^ a ≤ 2 ^ 53) (q2 : h1 * 2 ^ b ≤ 2 ^ 53) (q3 : w2 * 2 ^ c ≤ 2 ^ 53)
    (q4 : h2 * 2 ^ d ≤ 2 ^ 53) :
    ∃ R K, scaleHomographyF H (w1 * 2 ^ a) (h1 * 2 ^ b) w1 h1 (w2 * 2 ^ c) (h2 * 2 ^ d) w2 h2 = .ok R ∧
      R.Is K ∧ ∀ i j, K i j = ![1 / 2 ^ c, 1 / 2 ^ d, 1] i * M i j * ![2 ^ a, 2 ^ b, 1] j := by
  obtain ⟨R, e, r⟩ := scaleF_run hH (w1 * 2 ^ a) (h1 * 2 ^ b) w1 h1 (w2 * 2 ^ c) (h2 * 2 ^ d) w2 h2
  refine ⟨R, _, e, r, fun i j => ?_⟩
  have le : ∀ n k : Nat, n * 2 ^ k ≤ 2 ^ 53 → n ≤ 2 ^ 53 := fun n k h =>
    (Nat.le_mul_of_pos_right n (by positivity)).trans h
  have up : ∀ n k : Nat, 0 < n → n * 2 ^ k ≤ 2 ^ 53 →
      dbl (dbl ((n * 2 ^ k : Nat) : ℝ) / dbl (n : ℝ)) = (2 : ℝ) ^ (k : ℤ) := by
    intro n k hn h
    rw [dbl_nat h, dbl_nat (le n k h), ← ratio_pow]
    congr 1
    have : (n : ℝ) ≠ 0 := by positivity
    push_cast
    rw [zpow_natCast]
    field_simp
  have down : ∀ n k : Nat, 0 < n → n * 2 ^ k ≤ 2 ^ 53 →
      dbl (dbl (n : ℝ) / dbl ((n * 2 ^ k : Nat) : ℝ)) = (2 : ℝ) ^ (-(k : ℤ)) := by
    intro n k hn h
    rw [dbl_nat h, dbl_nat (le n k h), ← ratio_pow]
    congr 1
    have : (n : ℝ) ≠ 0 := by positivity
    push_cast
    rw [zpow_neg, zpow_natCast]
    field_simp
  rw [Matrix.of_apply, up w1 a p1 q1, up h1 b p2 q2, down w2 c p3 q3, down h2 d p4 q4]
  have hz : ∀ z : ℤ, ∀ w : ℤ, dbl (dbl ((2 : ℝ) ^ z * M i j) * 2 ^ w) = 2 ^ z * M i j * 2 ^ w := by
    intro z w
    have h1 : Rep 53 ((2 : ℝ) ^ z * M i j) := by rw [mul_comm]; exact rep_scale (hM i j) z
    rw [dbl_of_rep h1, dbl_of_rep (rep_scale h1 w)]
  have e1 : ![(2 : ℝ) ^ (-(c : ℤ)), 2 ^ (-(d : ℤ)), 1] i = 2 ^ (![-(c : ℤ), -(d : ℤ), 0] i) := by
    fin_cases i <;> simp
  have e2 : ![(2 : ℝ) ^ (a : ℤ), 2 ^ (b : ℤ), 1] j = 2 ^ (![(a : ℤ), (b : ℤ), 0] j) := by
    fin_cases j <;> simp
  rw [e1, e2, hz, ← e1, ← e2]
  simp [zpow_neg]

theorem matT_rep (i j : Fin 3) : Rep 53 (((!![2, 1, 0; 1, 3, 1; 0, 1, (4 : ℤ)]).map (Int.cast : ℤ → ℝ)) i j) := by
  rw [Matrix.map_apply]
  exact rep_int (by fin_cases i <;> fin_cases j <;> norm_num)

example := C220_entries (matT_is 4) (w1F := 1921) (h1F := 1080) (w1S := 640) (h1S := 360) (w2F := 1921)
  (h2F := 1080) (w2S := 640) (h2S := 360) (by norm_num) (by norm_num) (by norm_num) (by norm_num)
  (by norm_num) (by norm_num) (by norm_num) (by norm_num) (by norm_num) (by norm_num) (by norm_num) (by norm_num)
example := C220_exact (matT_is 4) matT_rep (w1 := 640) (h1 := 360) (w2 := 480) (h2 := 270) (a := 1) (b := 1)
  (c := 2) (d := 2) (by norm_num) (by norm_num) (by norm_num) (by norm_num)
  (by norm_num) (by norm_num) (by norm_num) (by norm_num)

end TinyDIP.Props
