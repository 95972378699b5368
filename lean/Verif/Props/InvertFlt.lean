import Verif.Model.InvertFlt
import Verif.Spec.InvertFlt
import Verif.Props.LinAlg
import Verif.Props.BilateralByte
import Verif.Lemmas.Rounded
import Mathlib.LinearAlgebra.Matrix.NonsingularInverse
import Mathlib.Tactic.IntervalCases
import Mathlib.Tactic.Linarith

/-!
# C218: inverting a 3×3 matrix in double precision

Determinants, adjugates and inverses are Mathlib's; `A.Is M` is Spec/LinAlg.lean's.
-/

namespace TinyDIP.Props

open TinyDIP Mat Rnd

/-- The rounded determinant. -/
noncomputable def detF (M : Matrix (Fin 3) (Fin 3) ℝ) : ℝ :=
  dbl (dbl (dbl (M 0 0 * crossF (M 1 1) (M 2 2) (M 2 1) (M 1 2)) -
    dbl (M 0 1 * crossF (M 1 0) (M 2 2) (M 1 2) (M 2 0))) +
    dbl (M 0 2 * crossF (M 1 0) (M 2 1) (M 1 1) (M 2 0)))

/-- The rounded cofactors, transposed. -/
noncomputable def adjF (M : Matrix (Fin 3) (Fin 3) ℝ) : Matrix (Fin 3) (Fin 3) ℝ :=
  !![crossF (M 1 1) (M 2 2) (M 2 1) (M 1 2), crossF (M 0 2) (M 2 1) (M 0 1) (M 2 2),
      crossF (M 0 1) (M 1 2) (M 0 2) (M 1 1);
    crossF (M 1 2) (M 2 0) (M 1 0) (M 2 2), crossF (M 0 0) (M 2 2) (M 0 2) (M 2 0),
      crossF (M 1 0) (M 0 2) (M 0 0) (M 1 2);
    crossF (M 1 0) (M 2 1) (M 2 0) (M 1 1), crossF (M 2 0) (M 0 1) (M 0 0) (M 2 1),
      crossF (M 0 0) (M 1 1) (M 1 0) (M 0 1)]

theorem invertF_small {A : Mat ℝ} {M : Matrix (Fin 3) (Fin 3) ℝ} (hA : A.Is M)
    (h : |detF M| < dbl (1 / 10 ^ 9)) : invertF A = .ok Mat.empty := by
  have hr := hA.reads 0
  have g : ∀ i j : Fin 3, A.get i j = .ok (M i j) := fun i j => by
    have := hr.get i.2 j.2
    rw [this]; simp [ext]
  have hif : ¬ (A.rows ≠ 3 ∨ A.cols ≠ 3) := by rw [hA.rows, hA.cols]; simp
  have g00 := g 0 0
  have g01 := g 0 1
  have g02 := g 0 2
  have g10 := g 1 0
  have g11 := g 1 1
  have g12 := g 1 2
  have g20 := g 2 0
  have g21 := g 2 1
  have g22 := g 2 2
  simp only [Fin.val_two, Fin.coe_ofNat_eq_mod, Nat.reduceMod] at g00 g01 g02 g10 g11 g12 g20 g21 g22
  unfold invertF
  rw [if_neg hif]
  simp only [g00, g01, g02, g10, g11, g12, g20, g21, g22, Res.ok_bind]
  unfold detF at h
  rw [if_pos h]

theorem invertF_run {A : Mat ℝ} {M : Matrix (Fin 3) (Fin 3) ℝ} (hA : A.Is M)
    (h : ¬ |detF M| < dbl (1 / 10 ^ 9)) : ∃ R, invertF A = .ok R ∧
      R.Is (Matrix.of fun i j => dbl (adjF M i j * dbl (1 / detF M))) := by
  have hr := hA.reads 0
  have g : ∀ i j : Fin 3, A.get i j = .ok (M i j) := fun i j => by
    have := hr.get i.2 j.2
    rw [this]; simp [ext]
  have hif : ¬ (A.rows ≠ 3 ∨ A.cols ≠ 3) := by rw [hA.rows, hA.cols]; simp
  have g00 := g 0 0
  have g01 := g 0 1
  have g02 := g 0 2
  have g10 := g 1 0
  have g11 := g 1 1
  have g12 := g 1 2
  have g20 := g 2 0
  have g21 := g 2 1
  have g22 := g 2 2
  simp only [Fin.val_two, Fin.coe_ofNat_eq_mod, Nat.reduceMod] at g00 g01 g02 g10 g11 g12 g20 g21 g22
  obtain ⟨R0, e0, r0⟩ := (mk'_reads (0 : ℝ) (show 3 * 3 < 2 ^ 64 by norm_num)).set
    (show 0 < 3 by omega) (show 0 < 3 by omega)
    (dbl (crossF (M 1 1) (M 2 2) (M 2 1) (M 1 2) * dbl (1 / detF M)))
  obtain ⟨R1, e1, r1⟩ := r0.set (show 0 < 3 by omega) (show 1 < 3 by omega)
    (dbl (crossF (M 0 2) (M 2 1) (M 0 1) (M 2 2) * dbl (1 / detF M)))
  obtain ⟨R2, e2, r2⟩ := r1.set (show 0 < 3 by omega) (show 2 < 3 by omega)
    (dbl (crossF (M 0 1) (M 1 2) (M 0 2) (M 1 1) * dbl (1 / detF M)))
  obtain ⟨R3, e3, r3⟩ := r2.set (show 1 < 3 by omega) (show 0 < 3 by omega)
    (dbl (crossF (M 1 2) (M 2 0) (M 1 0) (M 2 2) * dbl (1 / detF M)))
  obtain ⟨R4, e4, r4⟩ := r3.set (show 1 < 3 by omega) (show 1 < 3 by omega)
    (dbl (crossF (M 0 0) (M 2 2) (M 0 2) (M 2 0) * dbl (1 / detF M)))
  obtain ⟨R5, e5, r5⟩ := r4.set (show 1 < 3 by omega) (show 2 < 3 by omega)
    (dbl (crossF (M 1 0) (M 0 2) (M 0 0) (M 1 2) * dbl (1 / detF M)))
  obtain ⟨R6, e6, r6⟩ := r5.set (show 2 < 3 by omega) (show 0 < 3 by omega)
    (dbl (crossF (M 1 0) (M 2 1) (M 2 0) (M 1 1) * dbl (1 / detF M)))
  obtain ⟨R7, e7, r7⟩ := r6.set (show 2 < 3 by omega) (show 1 < 3 by omega)
    (dbl (crossF (M 2 0) (M 0 1) (M 0 0) (M 2 1) * dbl (1 / detF M)))
  obtain ⟨R8, e8, r8⟩ := r7.set (show 2 < 3 by omega) (show 2 < 3 by omega)
    (dbl (crossF (M 0 0) (M 1 1) (M 1 0) (M 0 1) * dbl (1 / detF M)))
  refine ⟨R8, ?_, r8.is.congr ?_⟩
  · unfold invertF
    rw [if_neg hif]
    simp only [g00, g01, g02, g10, g11, g12, g20, g21, g22, Res.ok_bind]
    unfold detF at h
    rw [if_neg h]
    unfold detF at e0 e1 e2 e3 e4 e5 e6 e7 e8
    simp only [e0, e1, e2, e3, e4, e5, e6, e7, e8, Res.ok_bind]
  · ext i j
    fin_cases i <;> fin_cases j <;> simp [adjF]

/-- Not 3×3: the call throws. -/
theorem C218_throws {A : Mat ℝ} {m n : Nat} {M : Matrix (Fin m) (Fin n) ℝ} (hA : A.Is M)
    (h : ¬ (m = 3 ∧ n = 3)) : invertF A = .throw .runtime := by
  unfold invertF
  rw [if_pos (by rw [hA.rows, hA.cols]; tauto)]

example : invertF ⟨2, 3, [1, 2, 3, 4, 5, 6]⟩ = .throw .runtime :=
  C218_throws (M := !![1, 2, 3; 4, 5, 6]) (by
    refine ⟨rfl, rfl, rfl, by norm_num, ?_⟩
    intro i j
    fin_cases i <;> fin_cases j <;> rfl) (by omega)

/-! ### Integer matrices -/

theorem dbl_int {n : ℤ} (h : |n| ≤ 2 ^ 53) : dbl (n : ℝ) = n := fl_int (by norm_num) h

theorem abs_mul_le {a b : ℤ} {A B : ℤ} (ha : |a| ≤ A) (hb : |b| ≤ B) : |a * b| ≤ A * B := by
  rw [abs_mul]
  exact mul_le_mul ha hb (abs_nonneg _) ((abs_nonneg _).trans ha)

theorem abs_sub_le' {a b : ℤ} {A B : ℤ} (ha : |a| ≤ A) (hb : |b| ≤ B) : |a - b| ≤ A + B :=
  (abs_sub a b).trans (add_le_add ha hb)

theorem crossF_int {a b c d : ℤ} (ha : |a| ≤ 2 ^ 16) (hb : |b| ≤ 2 ^ 16) (hc : |c| ≤ 2 ^ 16)
    (hd : |d| ≤ 2 ^ 16) : crossF a b c d = ((a * b - c * d : ℤ) : ℝ) ∧
      |a * b - c * d| ≤ 2 ^ 33 := by
  have h1 := abs_mul_le ha hb
  have h2 := abs_mul_le hc hd
  have h3 := abs_sub_le' h1 h2
  refine ⟨?_, h3.trans (by norm_num)⟩
  unfold crossF
  rw [← Int.cast_mul, ← Int.cast_mul, dbl_int (h1.trans (by norm_num)), dbl_int (h2.trans (by norm_num)),
    ← Int.cast_sub, dbl_int (h3.trans (by norm_num))]

theorem detF_int {M : Matrix (Fin 3) (Fin 3) ℤ} (hM : ∀ i j, |M i j| ≤ 2 ^ 16) :
    detF (M.map (Int.cast : ℤ → ℝ)) = (M.det : ℝ) := by
  obtain ⟨a1, b1⟩ := crossF_int (hM 1 1) (hM 2 2) (hM 2 1) (hM 1 2)
  obtain ⟨a2, b2⟩ := crossF_int (hM 1 0) (hM 2 2) (hM 1 2) (hM 2 0)
  obtain ⟨a3, b3⟩ := crossF_int (hM 1 0) (hM 2 1) (hM 1 1) (hM 2 0)
  have c1 := abs_mul_le (hM 0 0) b1
  have c2 := abs_mul_le (hM 0 1) b2
  have c3 := abs_mul_le (hM 0 2) b3
  have c4 := abs_sub_le' c1 c2
  have c5 := (abs_add_le _ _).trans (add_le_add c4 c3)
  unfold detF
  simp only [Matrix.map_apply]
  rw [a1, a2, a3, ← Int.cast_mul, ← Int.cast_mul, ← Int.cast_mul, dbl_int (c1.trans (by norm_num)),
    dbl_int (c2.trans (by norm_num)), dbl_int (c3.trans (by norm_num)), ← Int.cast_sub,
    dbl_int (c4.trans (by norm_num)), ← Int.cast_add, dbl_int (c5.trans (by norm_num)),
    Matrix.det_fin_three]
  congr 1
  ring

theorem adjF_int {M : Matrix (Fin 3) (Fin 3) ℤ} (hM : ∀ i j, |M i j| ≤ 2 ^ 16) (i j : Fin 3) :
    adjF (M.map (Int.cast : ℤ → ℝ)) i j = (M.adjugate i j : ℝ) := by
  have c : ∀ i1 j1 i2 j2 i3 j3 i4 j4 : Fin 3, crossF (M i1 j1) (M i2 j2) (M i3 j3) (M i4 j4) =
      ((M i1 j1 * M i2 j2 - M i3 j3 * M i4 j4 : ℤ) : ℝ) := fun _ _ _ _ _ _ _ _ =>
    (crossF_int (hM _ _) (hM _ _) (hM _ _) (hM _ _)).1
  rw [Matrix.adjugate_fin_three]
  unfold adjF
  simp only [Matrix.map_apply, c]
  fin_cases i <;> fin_cases j <;> simp <;> ring

theorem inverse_entry {c D : ℝ} : |dbl (c * dbl (1 / D)) - c / D| ≤ 3 / 2 ^ 53 * |c / D| := by
  have h1 := dbl_err (1 / D)
  have h2 := dbl_err (c * dbl (1 / D))
  have he : eps = 1 / 2 ^ 53 := rfl
  have e1 : |c * dbl (1 / D) - c / D| ≤ eps * |c / D| := by
    have : c * dbl (1 / D) - c / D = c * (dbl (1 / D) - 1 / D) := by ring
    rw [this, abs_mul]
    calc |c| * |dbl (1 / D) - 1 / D| ≤ |c| * (eps * |1 / D|) := mul_le_mul_of_nonneg_left h1 (abs_nonneg _)
      _ = eps * |c / D| := by rw [div_eq_mul_one_div c D, abs_mul]; ring
  have e2 : |c * dbl (1 / D)| ≤ (1 + eps) * |c / D| := by
    have := abs_sub_abs_le_abs_sub (c * dbl (1 / D)) (c / D)
    linarith
  have e3 : |dbl (c * dbl (1 / D)) - c * dbl (1 / D)| ≤ eps * ((1 + eps) * |c / D|) :=
    h2.trans (mul_le_mul_of_nonneg_left e2 eps_pos.le)
  have e4 := abs_sub_le (dbl (c * dbl (1 / D))) (c * dbl (1 / D)) (c / D)
  have e5 : eps * ((1 + eps) * |c / D|) + eps * |c / D| ≤ 3 / 2 ^ 53 * |c / D| := by
    have : eps * (1 + eps) + eps ≤ 3 / 2 ^ 53 := by rw [he]; norm_num
    have := mul_le_mul_of_nonneg_right this (abs_nonneg (c / D))
    linarith
  linarith

theorem small_bounds : 0 < dbl (1 / 10 ^ 9) ∧ dbl (1 / 10 ^ 9) ≤ 1 := by
  have h := dbl_err (1 / 10 ^ 9)
  have he : eps = 1 / 2 ^ 53 := rfl
  rw [he, abs_of_pos (by norm_num : (0 : ℝ) < 1 / 10 ^ 9), abs_le] at h
  constructor
  · have := h.1; norm_num at this ⊢; linarith
  · have := h.2; norm_num at this ⊢; linarith

/-- Inverting a 3×3 matrix of integers up to 65536 in absolute value, in `double`: the call gives the
empty matrix exactly for the matrices without an inverse, and for the others a matrix each of whose
entries is the entry of the inverse up to `3/2^53` of that entry. For other entries see
`C218_all` and `C218_singular_violation`. -/
theorem C218_integers_partial {A : Mat ℝ} {M : Matrix (Fin 3) (Fin 3) ℤ}
    (hA : A.Is (M.map (Int.cast : ℤ → ℝ))) (hM : ∀ i j, |M i j| ≤ 65536) :
    (M.det = 0 → ∃ E, invertF A = .ok E ∧ E.isEmpty = true) ∧
    (M.det ≠ 0 → ∃ R K, invertF A = .ok R ∧ R.Is K ∧
      ∀ i j, |K i j - (M.map (Int.cast : ℤ → ℝ))⁻¹ i j| ≤
        3 / 2 ^ 53 * |(M.map (Int.cast : ℤ → ℝ))⁻¹ i j|) := by
  have hM' : ∀ i j, |M i j| ≤ 2 ^ 16 := fun i j => (hM i j).trans (by norm_num)
  have hd := detF_int hM'
  obtain ⟨p, q⟩ := small_bounds
  constructor
  · intro h0
    exact ⟨_, invertF_small hA (by rw [hd, h0]; simpa using p), rfl⟩
  · intro h0
    have h1 : (1 : ℝ) ≤ |(M.det : ℝ)| := by
      rw [← Int.cast_abs]; exact_mod_cast Int.one_le_abs h0
    obtain ⟨R, e, r⟩ := invertF_run hA (by rw [hd]; linarith)
    refine ⟨R, _, e, r, fun i j => ?_⟩
    have hdet : (M.map (Int.cast : ℤ → ℝ)).det = (M.det : ℝ) := by
      have := (Int.castRingHom ℝ).map_det M
      simpa [RingHom.mapMatrix_apply] using this.symm
    have hadj : (M.map (Int.cast : ℤ → ℝ)).adjugate i j = (M.adjugate i j : ℝ) := by
      have := (Int.castRingHom ℝ).map_adjugate M
      have := congrFun (congrFun this i) j
      simpa [RingHom.mapMatrix_apply] using this.symm
    have hinv : (M.map (Int.cast : ℤ → ℝ))⁻¹ i j = (M.adjugate i j : ℝ) / (M.det : ℝ) := by
      rw [Matrix.inv_def, Matrix.smul_apply, hdet, hadj, smul_eq_mul, Ring.inverse_eq_inv', div_eq_inv_mul]
    rw [hinv, Matrix.of_apply, adjF_int hM', hd]
    exact inverse_entry

/-- The hypotheses hold for a matrix with an inverse and for one without. -/
noncomputable def matT (x : ℝ) : Mat ℝ := ⟨3, 3, [2, 1, 0, 1, 3, 1, 0, 1, x]⟩

theorem matT_is (n : ℤ) : (matT n).Is ((!![2, 1, 0; 1, 3, 1; 0, 1, n]).map (Int.cast : ℤ → ℝ)) := by
  refine ⟨rfl, rfl, rfl, by norm_num, ?_⟩
  intro i j
  fin_cases i <;> fin_cases j <;> simp [matT, Matrix.map_apply] <;> rfl

example := (C218_integers_partial (matT_is 4) (by
  intro i j; fin_cases i <;> fin_cases j <;> norm_num)).2 (by
    rw [Matrix.det_fin_three]; simp)
example := (C218_integers_partial (M := !![5, 7, 0; 10, 14, 0; 0, 0, 5])
  (A := ⟨3, 3, [5, 7, 0, 10, 14, 0, 0, 0, 5]⟩)
  (by
    refine ⟨rfl, rfl, rfl, by norm_num, ?_⟩
    intro i j
    fin_cases i <;> fin_cases j <;> simp [Matrix.map_apply] <;> rfl)
  (by intro i j; fin_cases i <;> fin_cases j <;> norm_num)).1 (by
    rw [Matrix.det_fin_three]; simp)

/-! ### All matrices -/

/-- `x` is `y` up to `k` roundings of a sum of size `S`. -/
def Near (k : Nat) (x y S : ℝ) : Prop := |y| ≤ S ∧ |x - y| ≤ ((1 + eps) ^ k - 1) * S

theorem Near.exact (y : ℝ) : Near 0 y y |y| := ⟨le_rfl, by simp⟩

theorem Near.step {k : Nat} {x x' y S : ℝ} (h : Near k x y S) (hx : |x' - x| ≤ eps * |x|) :
    Near (k + 1) x' y S := by
  obtain ⟨h1, h2⟩ := h
  refine ⟨h1, ?_⟩
  have a := abs_sub_le x' x y
  have b := abs_sub_abs_le_abs_sub x y
  have c : |x| ≤ (1 + eps) ^ k * S := by nlinarith
  have d := mul_le_mul_of_nonneg_left c eps_pos.le
  rw [pow_succ]
  nlinarith

theorem Near.rnd {k : Nat} {x y S : ℝ} (h : Near k x y S) : Near (k + 1) (dbl x) y S :=
  h.step (dbl_err x)

theorem Near.mono {k : Nat} {x y S : ℝ} (h : Near k x y S) : Near (k + 1) x y S :=
  h.step (by rw [sub_self, abs_zero]; exact mul_nonneg eps_pos.le (abs_nonneg _))

theorem Near.mul {k : Nat} {x y S : ℝ} (c : ℝ) (h : Near k x y S) : Near k (c * x) (c * y) (|c| * S) := by
  obtain ⟨h1, h2⟩ := h
  refine ⟨by rw [abs_mul]; exact mul_le_mul_of_nonneg_left h1 (abs_nonneg _), ?_⟩
  rw [← mul_sub, abs_mul]
  have := mul_le_mul_of_nonneg_left h2 (abs_nonneg c)
  linarith

theorem Near.sub {k : Nat} {x y S x' y' S' : ℝ} (h : Near k x y S) (h' : Near k x' y' S') :
    Near k (x - x') (y - y') (S + S') := by
  obtain ⟨h1, h2⟩ := h
  obtain ⟨h3, h4⟩ := h'
  refine ⟨(abs_sub _ _).trans (add_le_add h1 h3), ?_⟩
  have e : x - x' - (y - y') = (x - y) - (x' - y') := by ring
  rw [e]
  have := abs_sub (x - y) (x' - y')
  linarith

theorem Near.add {k : Nat} {x y S x' y' S' : ℝ} (h : Near k x y S) (h' : Near k x' y' S') :
    Near k (x + x') (y + y') (S + S') := by
  obtain ⟨h1, h2⟩ := h
  obtain ⟨h3, h4⟩ := h'
  refine ⟨(abs_add_le _ _).trans (add_le_add h1 h3), ?_⟩
  have e : x + x' - (y + y') = (x - y) + (x' - y') := by ring
  rw [e]
  have := abs_add_le (x - y) (x' - y')
  linarith

theorem crossF_near (a b c d : ℝ) : Near 2 (crossF a b c d) (a * b - c * d) (|a * b| + |c * d|) :=
  ((Near.exact (a * b)).rnd.sub (Near.exact (c * d)).rnd).rnd

theorem detF_near (M : Matrix (Fin 3) (Fin 3) ℝ) : Near 5 (detF M) M.det (LinSpec.absDet M) := by
  have h := (((((crossF_near (M 1 1) (M 2 2) (M 2 1) (M 1 2)).mul (M 0 0)).rnd.sub
    ((crossF_near (M 1 0) (M 2 2) (M 1 2) (M 2 0)).mul (M 0 1)).rnd).rnd).add
    ((crossF_near (M 1 0) (M 2 1) (M 1 1) (M 2 0)).mul (M 0 2)).rnd.mono).rnd
  have e1 : M 0 0 * (M 1 1 * M 2 2 - M 2 1 * M 1 2) - M 0 1 * (M 1 0 * M 2 2 - M 1 2 * M 2 0) +
      M 0 2 * (M 1 0 * M 2 1 - M 1 1 * M 2 0) = M.det := by
    rw [Matrix.det_fin_three]; ring
  have e2 : |M 0 0| * (|M 1 1 * M 2 2| + |M 2 1 * M 1 2|) + |M 0 1| * (|M 1 0 * M 2 2| + |M 1 2 * M 2 0|) +
      |M 0 2| * (|M 1 0 * M 2 1| + |M 1 1 * M 2 0|) = LinSpec.absDet M := by
    unfold LinSpec.absDet
    simp only [abs_mul]
    ring
  rw [e1, e2] at h
  exact h

theorem adjF_near (M : Matrix (Fin 3) (Fin 3) ℝ) (i j : Fin 3) :
    Near 2 (adjF M i j) (M.adjugate i j) (LinSpec.absCof M i j) := by
  have c := crossF_near
  have key : ∀ a b c' d y S, y = a * b - c' * d → S = |a * b| + |c' * d| →
      Near 2 (crossF a b c' d) y S := by
    intro a b c' d y S h1 h2
    rw [h1, h2]; exact c a b c' d
  rw [Matrix.adjugate_fin_three]
  unfold adjF LinSpec.absCof
  fin_cases i <;> fin_cases j <;>
    · refine key _ _ _ _ _ _ ?_ ?_
      · simp
        try ring
      · simp [abs_mul, show (1 : Fin 3) + 1 = 2 from rfl, show (1 : Fin 3) + 2 = 0 from rfl,
          show (2 : Fin 3) + 1 = 0 from rfl, show (2 : Fin 3) + 2 = 1 from rfl]
        try ring

theorem small_close : 9 / 10 ^ 10 < dbl (1 / 10 ^ 9) ∧ dbl (1 / 10 ^ 9) < 11 / 10 ^ 10 := by
  have h := dbl_err (1 / 10 ^ 9)
  have he : eps = 1 / 2 ^ 53 := rfl
  rw [he, abs_of_pos (by norm_num : (0 : ℝ) < 1 / 10 ^ 9), abs_le] at h
  constructor
  · have := h.1; norm_num at this ⊢; linarith
  · have := h.2; norm_num at this ⊢; linarith

theorem det_close (M : Matrix (Fin 3) (Fin 3) ℝ) : |detF M - M.det| ≤ 6 / 2 ^ 53 * LinSpec.absDet M := by
  obtain ⟨h1, h2⟩ := detF_near M
  have he : eps = 1 / 2 ^ 53 := rfl
  exact h2.trans (mul_le_mul_of_nonneg_right (by rw [he]; norm_num) ((abs_nonneg _).trans h1))

theorem entry_close (M : Matrix (Fin 3) (Fin 3) ℝ) (hD : detF M ≠ 0) (i j : Fin 3) :
    |dbl (adjF M i j * dbl (1 / detF M)) * detF M - M.adjugate i j| ≤ 5 / 2 ^ 53 * LinSpec.absCof M i j := by
  have he : eps = 1 / 2 ^ 53 := rfl
  have n2 := adjF_near M i j
  generalize detF M = D at hD ⊢
  generalize adjF M i j = c at n2 ⊢
  have n3 : Near 3 (c * dbl (1 / D) * D) (M.adjugate i j) (LinSpec.absCof M i j) := by
    refine n2.step ?_
    have e : c * dbl (1 / D) * D - c = c * D * (dbl (1 / D) - 1 / D) := by field_simp
    rw [e, abs_mul]
    calc |c * D| * |dbl (1 / D) - 1 / D| ≤ |c * D| * (eps * |1 / D|) :=
          mul_le_mul_of_nonneg_left (dbl_err _) (abs_nonneg _)
      _ = eps * |c * D * (1 / D)| := by rw [abs_mul (c * D)]; ring
      _ = eps * |c| := by rw [mul_assoc, mul_one_div_cancel hD, mul_one]
  have n4 : Near 4 (dbl (c * dbl (1 / D)) * D) (M.adjugate i j) (LinSpec.absCof M i j) := by
    refine n3.step ?_
    rw [← sub_mul, abs_mul, abs_mul (c * dbl (1 / D))]
    have := mul_le_mul_of_nonneg_right (dbl_err (c * dbl (1 / D))) (abs_nonneg D)
    linarith
  exact n4.2.trans (mul_le_mul_of_nonneg_right (by rw [he]; norm_num) ((abs_nonneg _).trans n4.1))

/-- Inverting any 3×3 matrix in `double`. A determinant that is below `9/10^10` by more than the
rounding error gives the empty matrix. A determinant that is above `11/10^10` by more than the rounding
error gives a matrix whose entries are the cofactors, up to `5/2^53` of their two products, over one
common denominator that is the determinant up to `6/2^53` of its six products. -/
theorem C218_all {A : Mat ℝ} {M : Matrix (Fin 3) (Fin 3) ℝ} (hA : A.Is M) :
    (|M.det| + 6 / 2 ^ 53 * LinSpec.absDet M ≤ 9 / 10 ^ 10 →
      ∃ E, invertF A = .ok E ∧ E.isEmpty = true) ∧
    (11 / 10 ^ 10 + 6 / 2 ^ 53 * LinSpec.absDet M ≤ |M.det| →
      ∃ R K D, invertF A = .ok R ∧ R.Is K ∧ D ≠ 0 ∧
        |D - M.det| ≤ 6 / 2 ^ 53 * LinSpec.absDet M ∧
        ∀ i j, |K i j * D - M.adjugate i j| ≤ 5 / 2 ^ 53 * LinSpec.absCof M i j) := by
  have h3 := det_close M
  obtain ⟨p, q⟩ := small_close
  constructor
  · intro h
    refine ⟨_, invertF_small hA ?_, rfl⟩
    have := abs_sub_abs_le_abs_sub (detF M) M.det
    linarith
  · intro h
    have hb : 11 / 10 ^ 10 ≤ |detF M| := by
      have := abs_sub_abs_le_abs_sub M.det (detF M)
      rw [abs_sub_comm] at this
      linarith
    have hD : detF M ≠ 0 := by
      intro e; rw [e, abs_zero] at hb; norm_num at hb
    obtain ⟨R, e, r⟩ := invertF_run hA (by linarith)
    exact ⟨R, _, detF M, e, r, hD, h3, fun i j => by rw [Matrix.of_apply]; exact entry_close M hD i j⟩

example := (C218_all (matT_is 4)).2 (by
  have e : (!![2, 1, 0; 1, 3, 1; 0, 1, (4 : ℤ)].map (Int.cast : ℤ → ℝ)) = !![2, 1, 0; 1, 3, 1; 0, 1, 4] := by
    ext i j; fin_cases i <;> fin_cases j <;> simp
  rw [e, Matrix.det_fin_three]
  simp [LinSpec.absDet]
  norm_num)

/-- A matrix of doubles without an inverse. -/
noncomputable def matS : Mat ℝ :=
  ⟨3, 3, [5, 7, 0, 5 * 1125899906842621, 7 * 1125899906842621, 0, 0, 0, 5]⟩

theorem matS_is : matS.Is !![5, 7, 0; 5 * 1125899906842621, 7 * 1125899906842621, 0; 0, 0, 5] := by
  refine ⟨rfl, rfl, rfl, by norm_num, ?_⟩
  intro i j
  fin_cases i <;> fin_cases j <;> rfl

/-- The near-zero test does not find every matrix without an inverse: the rows (5, 7, 0), (5k, 7k, 0)
and (0, 0, 5) with k = 2^50 - 3 hold exact doubles, the second row is k times the first, and the call
still hands over a 3×3 matrix as the inverse. -/
theorem C218_singular_violation : ∃ (A : Mat ℝ) (M : Matrix (Fin 3) (Fin 3) ℤ),
    A.Is (M.map (Int.cast : ℤ → ℝ)) ∧ (∀ i j, |M i j| ≤ 2 ^ 53) ∧ M.det = 0 ∧
    ∃ R, invertF A = .ok R ∧ R.isEmpty = false := by
  refine ⟨matS, !![5, 7, 0; 5 * 1125899906842621, 7 * 1125899906842621, 0; 0, 0, 5], ?_, ?_, ?_, ?_⟩
  · refine matS_is.congr ?_
    ext i j
    fin_cases i <;> fin_cases j <;> norm_num [Matrix.map_apply]
  · intro i j
    fin_cases i <;> fin_cases j <;> norm_num
  · rw [Matrix.det_fin_three]; simp
  · have z : dbl 0 = 0 := dbl_zero
    have p1 : dbl (7 * 1125899906842621 * 5) = 39406496739491736 := by
      have := Filter.fl53_of (x := 7 * 1125899906842621 * 5) 55 (39406496739491736 / 8) (by norm_num) (by norm_num)
        (by norm_num [abs_lt])
      norm_num at this
      unfold dbl; norm_num; exact this
    have p2 : dbl (5 * 1125899906842621 * 5) = 28147497671065524 := by
      have := Filter.fl53_of (x := 5 * 1125899906842621 * 5) 54 (28147497671065524 / 4) (by norm_num) (by norm_num)
        (by norm_num [abs_lt])
      norm_num at this
      unfold dbl; norm_num; exact this
    have p3 : dbl 39406496739491736 = 39406496739491736 := by rw [← p1]; exact dbl_of_rep (dbl_rep _)
    have p4 : dbl 28147497671065524 = 28147497671065524 := by rw [← p2]; exact dbl_of_rep (dbl_rep _)
    have p5 : dbl (5 * 39406496739491736) = 197032483697458688 := by
      have := Filter.fl53_of (x := 5 * 39406496739491736) 57 (197032483697458688 / 32) (by norm_num) (by norm_num)
        (by norm_num [abs_lt])
      norm_num at this
      unfold dbl; norm_num; exact this
    have p6 : dbl (7 * 28147497671065524) = 197032483697458656 := by
      have := Filter.fl53_of (x := 7 * 28147497671065524) 57 (197032483697458656 / 32) (by norm_num) (by norm_num)
        (by norm_num [abs_lt])
      norm_num at this
      unfold dbl; norm_num; exact this
    have p7 : dbl 32 = 32 := by have := dbl_nat (n := 32) (by norm_num); simpa using this
    have hd : detF !![5, 7, 0; 5 * 1125899906842621, 7 * 1125899906842621, 0; 0, 0, 5] = 32 := by
      have q1 : crossF (7 * 1125899906842621) 5 0 0 = 39406496739491736 := by
        unfold crossF; rw [p1, mul_zero, z, sub_zero, p3]
      have q2 : crossF (5 * 1125899906842621) 5 0 0 = 28147497671065524 := by
        unfold crossF; rw [p2, mul_zero, z, sub_zero, p4]
      have e : detF !![5, 7, 0; 5 * 1125899906842621, 7 * 1125899906842621, 0; 0, 0, 5] =
          dbl (dbl (dbl (5 * crossF (7 * 1125899906842621) 5 0 0) -
            dbl (7 * crossF (5 * 1125899906842621) 5 0 0)) +
            dbl (0 * crossF (5 * 1125899906842621) 0 (7 * 1125899906842621) 0)) := rfl
      rw [e, q1, q2, p5, p6, zero_mul, z, show (197032483697458688 : ℝ) - 197032483697458656 = 32 by norm_num,
        p7, add_zero, p7]
    obtain ⟨R, e, r⟩ := invertF_run matS_is (by
      rw [hd]; have := small_bounds.2; norm_num at this ⊢; linarith)
    refine ⟨R, e, ?_⟩
    unfold Mat.isEmpty
    rw [r.rows, r.cols]; rfl

end TinyDIP.Props
