import Verif.Lemmas.Samples
import Verif.Lemmas.LinAlg
import Verif.Lemmas.Solve
import Mathlib.LinearAlgebra.Matrix.Determinant.Basic
import Mathlib.LinearAlgebra.Matrix.Notation
import Mathlib.LinearAlgebra.Matrix.Adjugate
import Mathlib.LinearAlgebra.Matrix.Symmetric
import Mathlib.Data.Rat.Defs
import Mathlib.Algebra.Order.Ring.Rat
import Mathlib.Tactic.NormNum
import Mathlib.Tactic.FinCases

/-!
# C28-C31: matrices and linear systems

`A.Is M` (Spec/LinAlg.lean) says that the program's matrix object `A` holds the mathematical matrix
`M`; products, transposes and determinants below are Mathlib's.
-/

namespace TinyDIP

open Mat

/-- Example matrices. -/
def matA : Mat Int := ⟨2, 3, [1, 2, 3, 4, 5, 6]⟩
def matB : Mat Int := ⟨3, 2, [7, 8, 9, 10, 11, 12]⟩

theorem matA_is : matA.Is !![1, 2, 3; 4, 5, 6] := by
  refine ⟨rfl, rfl, rfl, by norm_num, ?_⟩
  intro i j
  fin_cases i <;> fin_cases j <;> decide +kernel

theorem matB_is : matB.Is !![7, 8; 9, 10; 11, 12] := by
  refine ⟨rfl, rfl, rfl, by norm_num, ?_⟩
  intro i j
  fin_cases i <;> fin_cases j <;> decide +kernel

variable {α : Type}

/-! ## C28 -/

/-- `multiply` computes the matrix product whenever the result size fits a `size_t`. -/
theorem C28_product [CommRing α] {m n p : Nat} {A B : Mat α} {M : Matrix (Fin m) (Fin n) α}
    {N : Matrix (Fin n) (Fin p) α} (hA : A.Is M) (hB : B.Is N) (hf : m * p < 2 ^ 64) :
    ∃ C, multiply A B = .ok C ∧ C.Is (M * N) := by
  obtain ⟨C, e, r⟩ := multiply_reads (hA.reads 0) (hB.reads 0) hf
  refine ⟨C, e, r.is.congr ?_⟩
  ext i j
  rw [Matrix.mul_apply, Matrix.of_apply, Finset.sum_range]
  apply Finset.sum_congr rfl
  intro k _
  simp [ext]

/-- `multiply` throws exactly when the inner sizes differ. -/
theorem C28_throws [CommRing α] {m n n' p : Nat} {A B : Mat α} {M : Matrix (Fin m) (Fin n) α}
    {N : Matrix (Fin n') (Fin p) α} (hA : A.Is M) (hB : B.Is N) (hf : m * p < 2 ^ 64) :
    (∃ e, multiply A B = .throw e) ↔ n ≠ n' := by
  constructor
  · rintro ⟨e, he⟩ rfl
    obtain ⟨C, h, _⟩ := C28_product hA hB hf
    rw [h] at he; cases he
  · intro h
    exact ⟨.runtime, by unfold multiply; rw [if_pos (by rw [hA.cols, hB.rows]; exact h)]⟩

/-- `transpose` computes the transpose. -/
theorem C28_transpose {m n : Nat} (z : α) {A : Mat α} {M : Matrix (Fin m) (Fin n) α} (hA : A.Is M) :
    ∃ T, A.transpose z = .ok T ∧ T.Is M.transpose := by
  by_cases h : Nonempty (Fin m × Fin n)
  · obtain ⟨T, e, r⟩ := transpose_reads z (hA.reads z)
    refine ⟨T, e, r.is.congr ?_⟩
    ext i j
    simp [ext, Matrix.transpose_apply]
  · obtain ⟨T, e, r⟩ := transpose_reads z (hA.reads z)
    refine ⟨T, e, r.is.congr ?_⟩
    ext i j
    exact absurd ⟨(j, i)⟩ h

example := C28_transpose 0 matA_is

/-- Transposing twice gives back the same object. -/
theorem C28_transpose_involution {m n : Nat} (z : α) {A : Mat α} {M : Matrix (Fin m) (Fin n) α}
    (hA : A.Is M) : (A.transpose z >>= fun T => T.transpose z) = .ok A := by
  obtain ⟨T, e, h⟩ := C28_transpose z hA
  obtain ⟨T', e', h'⟩ := C28_transpose z h
  rw [e, Res.ok_bind, e', (h'.unique (by simpa using hA))]

example := C28_transpose_involution 0 matA_is

/-- `(A B) C = A (B C)`, as program results. -/
theorem C28_assoc [CommRing α] {m n p q : Nat} {A B C : Mat α} {M : Matrix (Fin m) (Fin n) α}
    {N : Matrix (Fin n) (Fin p) α} {P : Matrix (Fin p) (Fin q) α} (hA : A.Is M) (hB : B.Is N)
    (hC : C.Is P) (h1 : m * p < 2 ^ 64) (h2 : n * q < 2 ^ 64) (h3 : m * q < 2 ^ 64) :
    ∃ R, (multiply A B >>= fun X => multiply X C) = .ok R ∧
      (multiply B C >>= fun Y => multiply A Y) = .ok R ∧ R.Is (M * N * P) := by
  obtain ⟨X, ex, hx⟩ := C28_product hA hB h1
  obtain ⟨Y, ey, hy⟩ := C28_product hB hC h2
  obtain ⟨R, er, hr⟩ := C28_product hx hC h3
  obtain ⟨R', er', hr'⟩ := C28_product hA hy h3
  refine ⟨R, by rw [ex]; exact er, ?_, hr⟩
  rw [ey, Res.ok_bind, er', hr'.unique (by rw [← Matrix.mul_assoc]; exact hr)]

example := C28_assoc matA_is matB_is matA_is (by norm_num) (by norm_num) (by norm_num)

/-- `(A B)ᵀ = Bᵀ Aᵀ`, as program results. -/
theorem C28_transpose_mul [CommRing α] {m n p : Nat} {A B : Mat α} {M : Matrix (Fin m) (Fin n) α}
    {N : Matrix (Fin n) (Fin p) α} (hA : A.Is M) (hB : B.Is N) (hf : m * p < 2 ^ 64) :
    ∃ R, (multiply A B >>= fun X => X.transpose 0) = .ok R ∧
      (do let TB ← B.transpose 0; let TA ← A.transpose 0; multiply TB TA) = .ok R := by
  obtain ⟨X, ex, hx⟩ := C28_product hA hB hf
  obtain ⟨R, er, hr⟩ := C28_transpose 0 hx
  obtain ⟨TA, ea, ha⟩ := C28_transpose 0 hA
  obtain ⟨TB, eb, hb⟩ := C28_transpose 0 hB
  obtain ⟨R', er', hr'⟩ := C28_product hb ha (by rw [Nat.mul_comm]; exact hf)
  refine ⟨R, by rw [ex]; exact er, ?_⟩
  simp only [eb, ea, Res.ok_bind]
  rw [er', hr'.unique (by rw [← Matrix.transpose_mul]; exact hr)]

/-- Witness matrices: a 2×3 and a 3×2 integer matrix. -/
example : ∃ C, multiply matA matB = .ok C ∧
    C.Is ((!![1, 2, 3; 4, 5, 6] : Matrix (Fin 2) (Fin 3) Int) *
      (!![7, 8; 9, 10; 11, 12] : Matrix (Fin 3) (Fin 2) Int)) :=
  C28_product matA_is matB_is (by norm_num)
example : multiply matA matB = .ok ⟨2, 2, [58, 64, 139, 154]⟩ := by decide +kernel
example : ∃ e, multiply matA matA = .throw e :=
  (C28_throws matA_is matA_is (by norm_num)).mpr (by decide)

/-! ## C29 -/

/-- Not 3×3: the call throws. -/
theorem C29_throws [Field α] (small : α → Bool) (A : Mat α) (h : ¬ (A.rows = 3 ∧ A.cols = 3)) :
    invert small A = .throw .runtime := by
  unfold invert
  rw [if_pos (by tauto)]

/-- A 3×3 matrix whose determinant passes the near-zero test gives the empty matrix; any other one
gives an object holding a matrix that is an inverse on both sides. The test must accept exactly
zero, as `|det| < 1e-9` does. -/
theorem C29_inverse [Field α] [LinearOrder α] [IsStrictOrderedRing α] (eps : α) (heps : 0 < eps)
    {A : Mat α} {M : Matrix (Fin 3) (Fin 3) α} (hA : A.Is M) :
    (|M.det| < eps → ∃ E, invert (fun d => decide (|d| < eps)) A = .ok E ∧ E.isEmpty = true) ∧
    (eps ≤ |M.det| → ∃ R K, invert (fun d => decide (|d| < eps)) A = .ok R ∧ R.Is K ∧
      K * M = 1 ∧ M * K = 1) := by
  have hr := hA.reads 0
  have g : ∀ i j : Nat, i < 3 → j < 3 → A.get i j = .ok (ext 0 M i j) := fun i j hi hj => hr.get hi hj
  have hdet : ext 0 M 0 0 * (ext 0 M 1 1 * ext 0 M 2 2 - ext 0 M 2 1 * ext 0 M 1 2) -
      ext 0 M 0 1 * (ext 0 M 1 0 * ext 0 M 2 2 - ext 0 M 1 2 * ext 0 M 2 0) +
      ext 0 M 0 2 * (ext 0 M 1 0 * ext 0 M 2 1 - ext 0 M 1 1 * ext 0 M 2 0) = M.det := by
    rw [Matrix.det_fin_three]
    simp [ext]
    ring
  have hif : ¬ (A.rows ≠ 3 ∨ A.cols ≠ 3) := by rw [hA.rows, hA.cols]; simp
  constructor
  · intro hd
    refine ⟨Mat.empty, ?_, rfl⟩
    unfold invert
    rw [if_neg hif]
    simp only [g 0 0 (by omega) (by omega), g 0 1 (by omega) (by omega), g 0 2 (by omega) (by omega),
      g 1 0 (by omega) (by omega), g 1 1 (by omega) (by omega), g 1 2 (by omega) (by omega),
      g 2 0 (by omega) (by omega), g 2 1 (by omega) (by omega), g 2 2 (by omega) (by omega),
      Res.ok_bind, hdet]
    rw [if_pos (by simpa using hd)]
  · intro hd
    have hne : M.det ≠ 0 := by
      intro e; rw [e, abs_zero] at hd; exact absurd hd (not_le.mpr heps)
    obtain ⟨R0, e0, r0⟩ := (mk'_reads (0 : α) (show 3 * 3 < 2 ^ 64 by norm_num)).set
      (show 0 < 3 by omega) (show 0 < 3 by omega)
      ((ext 0 M 1 1 * ext 0 M 2 2 - ext 0 M 2 1 * ext 0 M 1 2) * (1 / M.det))
    obtain ⟨R1, e1, r1⟩ := r0.set (show 0 < 3 by omega) (show 1 < 3 by omega)
      ((ext 0 M 0 2 * ext 0 M 2 1 - ext 0 M 0 1 * ext 0 M 2 2) * (1 / M.det))
    obtain ⟨R2, e2, r2⟩ := r1.set (show 0 < 3 by omega) (show 2 < 3 by omega)
      ((ext 0 M 0 1 * ext 0 M 1 2 - ext 0 M 0 2 * ext 0 M 1 1) * (1 / M.det))
    obtain ⟨R3, e3, r3⟩ := r2.set (show 1 < 3 by omega) (show 0 < 3 by omega)
      ((ext 0 M 1 2 * ext 0 M 2 0 - ext 0 M 1 0 * ext 0 M 2 2) * (1 / M.det))
    obtain ⟨R4, e4, r4⟩ := r3.set (show 1 < 3 by omega) (show 1 < 3 by omega)
      ((ext 0 M 0 0 * ext 0 M 2 2 - ext 0 M 0 2 * ext 0 M 2 0) * (1 / M.det))
    obtain ⟨R5, e5, r5⟩ := r4.set (show 1 < 3 by omega) (show 2 < 3 by omega)
      ((ext 0 M 1 0 * ext 0 M 0 2 - ext 0 M 0 0 * ext 0 M 1 2) * (1 / M.det))
    obtain ⟨R6, e6, r6⟩ := r5.set (show 2 < 3 by omega) (show 0 < 3 by omega)
      ((ext 0 M 1 0 * ext 0 M 2 1 - ext 0 M 2 0 * ext 0 M 1 1) * (1 / M.det))
    obtain ⟨R7, e7, r7⟩ := r6.set (show 2 < 3 by omega) (show 1 < 3 by omega)
      ((ext 0 M 2 0 * ext 0 M 0 1 - ext 0 M 0 0 * ext 0 M 2 1) * (1 / M.det))
    obtain ⟨R8, e8, r8⟩ := r7.set (show 2 < 3 by omega) (show 2 < 3 by omega)
      ((ext 0 M 0 0 * ext 0 M 1 1 - ext 0 M 1 0 * ext 0 M 0 1) * (1 / M.det))
    refine ⟨R8, (1 / M.det) • M.adjugate, ?_, r8.is.congr ?_, ?_, ?_⟩
    · unfold invert
      rw [if_neg hif]
      simp only [g 0 0 (by omega) (by omega), g 0 1 (by omega) (by omega),
        g 0 2 (by omega) (by omega), g 1 0 (by omega) (by omega), g 1 1 (by omega) (by omega),
        g 1 2 (by omega) (by omega), g 2 0 (by omega) (by omega), g 2 1 (by omega) (by omega),
        g 2 2 (by omega) (by omega), Res.ok_bind, hdet]
      rw [if_neg (by simpa using hd)]
      simp only [e0, e1, e2, e3, e4, e5, e6, e7, e8, Res.ok_bind]
    · rw [Matrix.adjugate_fin_three]
      ext i j
      fin_cases i <;> fin_cases j <;> simp [ext] <;> ring
    · rw [Matrix.smul_mul, Matrix.adjugate_mul, smul_smul]
      simp [hne]
    · rw [Matrix.mul_smul, Matrix.mul_adjugate, smul_smul]
      simp [hne]

/-- Witness: an invertible 3×3 rational matrix (determinant 1) and a singular one. -/
def matI : Mat ℚ := ⟨3, 3, [1, 2, 3, 0, 1, 4, 5, 6, 0]⟩
def matS : Mat ℚ := ⟨3, 3, [1, 2, 3, 4, 5, 6, 7, 8, 9]⟩

theorem matI_is : matI.Is !![1, 2, 3; 0, 1, 4; 5, 6, 0] := by
  refine ⟨rfl, rfl, rfl, by norm_num, ?_⟩
  intro i j
  fin_cases i <;> fin_cases j <;> rfl

theorem matS_is : matS.Is !![1, 2, 3; 4, 5, 6; 7, 8, 9] := by
  refine ⟨rfl, rfl, rfl, by norm_num, ?_⟩
  intro i j
  fin_cases i <;> fin_cases j <;> rfl

example : ∃ R K, invert (fun d : ℚ => decide (|d| < 1 / 1000000000)) matI = .ok R ∧ R.Is K ∧
    K * !![1, 2, 3; 0, 1, 4; 5, 6, 0] = 1 ∧ !![1, 2, 3; 0, 1, 4; 5, 6, 0] * K = 1 :=
  (C29_inverse _ (by norm_num) matI_is).2 (by decide +kernel)
example : ∃ E, invert (fun d : ℚ => decide (|d| < 1 / 1000000000)) matS = .ok E ∧ E.isEmpty = true :=
  (C29_inverse _ (by norm_num) matS_is).1 (by decide +kernel)
example : invert (fun d : ℚ => decide (|d| < 1 / 1000000000)) ⟨2, 3, [1, 2, 3, 4, 5, 6]⟩ =
    .throw .runtime := C29_throws _ _ (by simp)

/-- `determinant3x3` of an image is the determinant of the matrix with rows `y` and columns `x`. -/
theorem C29_determinant [CommRing α] {im : Image α} {w h : Nat} {f : Nat → Nat → α}
    (hs : im.Shows w h f) (hw : 3 ≤ w) (hh : 3 ≤ h) :
    determinant3x3 im = .ok (Matrix.det (Matrix.of fun (r c : Fin 3) => f c r)) := by
  have g : ∀ x y : Nat, x < 3 → y < 3 → im.at2 x y = .ok (f x y) :=
    fun x y hx hy => hs.px x y (by omega) (by omega)
  unfold determinant3x3
  simp only [g 0 0 (by omega) (by omega), g 0 1 (by omega) (by omega),
        g 0 2 (by omega) (by omega), g 1 0 (by omega) (by omega), g 1 1 (by omega) (by omega),
        g 1 2 (by omega) (by omega), g 2 0 (by omega) (by omega), g 2 1 (by omega) (by omega),
        g 2 2 (by omega) (by omega), Res.ok_bind]
  rw [Matrix.det_fin_three]
  simp
  ring

example := C29_determinant (picture_shows 3 3 fun x y => (x : Int) ^ 2 + 5 * y) (by decide) (by decide)

/-! ## C30 -/

/-- For every size, matrix, right-hand side and positive threshold: either the result solves the
system and is its only solution, or the result is the zero vector and the original system is
equivalent to one (`A'`, `b'`) that is upper triangular with non-zero pivots in its first `j`
columns and whose column `j` has, from row `j` down, no entry of absolute value at least the
threshold. -/
theorem C30_solver [Field α] [LinearOrder α] [IsStrictOrderedRing α] (N : Nat)
    (A : Nat → Nat → α) (b : Nat → α) (threshold : α) (ht : 0 < threshold) :
    (Solves N A b (solveLinearSystem N A b threshold) ∧
      ∀ y, Solves N A b y → ∀ c < N, y c = solveLinearSystem N A b threshold c) ∨
    ((∀ c, solveLinearSystem N A b threshold c = 0) ∧
      ∃ j < N, ∃ A' b', (∀ x, Solves N A' b' x ↔ Solves N A b x) ∧
        (∀ r c, c < j → c < r → r < N → A' r c = 0) ∧ (∀ c < j, A' c c ≠ 0) ∧
        ∀ k, j ≤ k → k < N → |A' k j| < threshold) := by
  have hT : Tri N 0 A := ⟨fun r c hc => by omega, fun c hc => by omega⟩
  unfold solveLinearSystem
  rw [List.range_eq_range']
  rcases elimLoop_spec N threshold ht N 0 (by omega) (A, b) hT with ⟨t, e, a, c⟩ | ⟨e, j, hj, t, a, c, d⟩
  · left
    rw [e]
    have hb := backSubst_spec N t.1 t.2 a N le_rfl (fun _ => 0) (fun r h1 h2 => by omega)
    refine ⟨(c _).mp hb, fun y hy => ?_⟩
    exact tri_unique N t.1 t.2 a y _ ((c y).mpr hy) hb
  · right
    rw [e]
    exact ⟨fun _ => rfl, j, hj, t.1, t.2, a, c.below, c.diag, d⟩

/-- A system with two different solutions (a singular matrix) is never "solved": the zero vector is
returned. -/
theorem C30_singular [Field α] [LinearOrder α] [IsStrictOrderedRing α] (N : Nat)
    (A : Nat → Nat → α) (b : Nat → α) (threshold : α) (ht : 0 < threshold) (y z : Nat → α)
    (hy : Solves N A b y) (hz : Solves N A b z) (c : Nat) (hc : c < N) (hne : y c ≠ z c) :
    ∀ c, solveLinearSystem N A b threshold c = 0 := by
  rcases C30_solver N A b threshold ht with ⟨_, h⟩ | ⟨h, _⟩
  · exact absurd ((h y hy c hc).trans (h z hz c hc).symm) hne
  · exact h

/-- Witnesses: `x + y = 3, x - y = 1` is solved; the zero matrix is reported. -/
def sysA : Nat → Nat → ℚ := fun r c => if r = 1 ∧ c = 1 then -1 else 1
def sysB : Nat → ℚ := fun r => if r = 0 then 3 else 1

example : solveLinearSystem 2 sysA sysB (1 / 1000) 0 = 2 ∧
    solveLinearSystem 2 sysA sysB (1 / 1000) 1 = 1 := by decide +kernel
example : Solves 2 sysA sysB (solveLinearSystem 2 sysA sysB (1 / 1000)) := by
  rcases C30_solver 2 sysA sysB (1 / 1000) (by norm_num) with h | h
  · exact h.1
  · exact absurd (h.1 0) (by decide +kernel)
example : ∀ c, solveLinearSystem 2 (fun _ _ => (0 : ℚ)) (fun _ => 0) (1 / 1000) c = 0 :=
  C30_singular 2 _ _ _ (by norm_num) (fun _ => 0) (fun _ => 1) (by intro r _; simp)
    (by intro r _; simp) 0 (by omega) (by norm_num)

/-! ## C31 -/

/-- On square matrices with exact comparison: true exactly when the matrix equals its transpose, for
the sequential version and for the policy version with every order of visiting the rows. -/
theorem C31_square [DecidableEq α] {n : Nat} {A : Mat α} {M : Matrix (Fin n) (Fin n) α}
    (hA : A.Is M) (order : List Nat) (ho : order.Perm (List.range n)) :
    isSymmetry (fun a b => decide (a ≠ b)) A = .ok (decide (M.transpose = M)) ∧
    isSymmetryPolicy (fun a b => decide (a ≠ b)) order A = .ok (decide (M.transpose = M)) := by
  rcases Nat.eq_zero_or_pos n with h0 | hpos
  · subst h0
    have hsym : M.transpose = M := by ext i; exact i.elim0
    have ho' : order = [] := by simpa using ho
    subst ho'
    unfold isSymmetry isSymmetryPolicy
    rw [if_neg (by rw [hA.rows, hA.cols]; simp), if_neg (by rw [hA.rows, hA.cols]; simp), hA.rows]
    simp [symRows, hsym]
  · have z : α := M ⟨0, hpos⟩ ⟨0, hpos⟩
    have key : ∀ rs : List Nat, (∀ r, r ∈ rs ↔ r < n) →
        symRows (fun a b => decide (a ≠ b)) A rs = .ok (decide (M.transpose = M)) := by
      intro rs hrs
      obtain ⟨b, e, hb⟩ := symRows_iff (fun a b => decide (a ≠ b)) (hA.reads z) rs hrs
      rw [e]
      congr 1
      rw [Bool.eq_iff_iff, hb, decide_eq_true_iff]
      constructor
      · intro h
        ext i j
        rw [Matrix.transpose_apply]
        have h' : ∀ (i j : Fin n), i.1 < j.1 → M i j = M j i := by
          intro i j hij
          have := h i j hij j.2
          simpa [ext] using this
        rcases Nat.lt_trichotomy i.1 j.1 with h1 | h1 | h1
        · exact (h' i j h1).symm
        · rw [Fin.ext h1]
        · exact h' j i h1
      · intro h r c hrc hc
        have hr : r < n := by omega
        have := congrFun (congrFun h ⟨r, hr⟩) ⟨c, hc⟩
        rw [Matrix.transpose_apply] at this
        simp [ext, hr, hc, this]
    unfold isSymmetry isSymmetryPolicy
    rw [if_neg (by rw [hA.rows, hA.cols]; simp), if_neg (by rw [hA.rows, hA.cols]; simp), hA.rows]
    exact ⟨key _ (by simp), key _ (fun r => by rw [ho.mem_iff, List.mem_range])⟩

/-- Non-square matrices are not symmetric. -/
theorem C31_nonsquare {m n : Nat} (differ : α → α → Bool) {A : Mat α} {M : Matrix (Fin m) (Fin n) α}
    (hA : A.Is M) (hmn : m ≠ n) (order : List Nat) :
    isSymmetry differ A = .ok false ∧ isSymmetryPolicy differ order A = .ok false := by
  unfold isSymmetry isSymmetryPolicy
  have : A.rows ≠ A.cols := by rw [hA.rows, hA.cols]; exact hmn
  simp [this]

/-- Elements compared up to a tolerance: true exactly when every entry is within the tolerance of
its mirror image. -/
theorem C31_tolerance [Field α] [LinearOrder α] [IsStrictOrderedRing α] {n : Nat} {A : Mat α}
    {M : Matrix (Fin n) (Fin n) α} (hA : A.Is M) (eps : α) (heps : 0 ≤ eps) (order : List Nat)
    (ho : order.Perm (List.range n)) :
    ∃ b, isSymmetry (fun a b => decide (|a - b| > eps)) A = .ok b ∧
      isSymmetryPolicy (fun a b => decide (|a - b| > eps)) order A = .ok b ∧
      (b = true ↔ ∀ i j, |M i j - M j i| ≤ eps) := by
  have key : ∀ rs : List Nat, (∀ r, r ∈ rs ↔ r < n) →
      ∃ b, symRows (fun a b => decide (|a - b| > eps)) A rs = .ok b ∧
      (b = true ↔ ∀ i j, |M i j - M j i| ≤ eps) := by
    intro rs hrs
    obtain ⟨b, e, hb⟩ := symRows_iff (fun a b => decide (|a - b| > eps)) (hA.reads 0) rs hrs
    refine ⟨b, e, hb.trans ?_⟩
    constructor
    · intro h
      have h' : ∀ (i j : Fin n), i.1 < j.1 → |M i j - M j i| ≤ eps := by
        intro i j hij
        have := h i j hij j.2
        simpa [ext] using this
      intro i j
      rcases Nat.lt_trichotomy i.1 j.1 with h1 | h1 | h1
      · exact h' i j h1
      · rw [Fin.ext h1, sub_self, abs_zero]; exact heps
      · rw [abs_sub_comm]; exact h' j i h1
    · intro h r c hrc hc
      have hr : r < n := by omega
      have := h ⟨r, hr⟩ ⟨c, hc⟩
      simpa [ext, hr, hc] using this
  obtain ⟨b, e, hb⟩ := key (List.range n) (by simp)
  obtain ⟨b', e', hb'⟩ := key order (fun r => by rw [ho.mem_iff, List.mem_range])
  have hbb : b = b' := by rw [Bool.eq_iff_iff, hb, hb']
  subst hbb
  unfold isSymmetry isSymmetryPolicy
  rw [if_neg (by rw [hA.rows, hA.cols]; simp), if_neg (by rw [hA.rows, hA.cols]; simp), hA.rows]
  exact ⟨b, e, e', hb⟩

example := C31_tolerance matI_is (1 / 2) (by norm_num) [2, 0, 1] (by decide)

/-- The image version: true exactly when the image is square and mirrored along its diagonal. -/
theorem C31_image [DecidableEq α] (z : α) {im : Image α} {w h : Nat} {f : Nat → Nat → α}
    (hs : im.Shows w h f) :
    ∃ b, imageIsSymmetry z (fun a b => decide (a ≠ b)) im = .ok b ∧
      (b = true ↔ w = h ∧ ∀ x y, x < w → y < h → f x y = f y x) := by
  unfold imageIsSymmetry
  rw [if_neg (by simp [hs.dim]), hs.width, hs.height]
  obtain ⟨A, e, r⟩ := forUp_fill (m := h) (n := w) (fun r c => f c r)
    (fun m r c => do let v ← im.at2u c r; m.set r c v)
    (by
      intro r c hr hc A g hA
      simp only [hs.at2u hc hr, Res.ok_bind]
      exact hA.set hr hc _) (mk' z h w) _ (mk'_reads z (by rw [Nat.mul_comm]; exact hs.fits))
  rw [e, Res.ok_bind]
  by_cases hwh : h = w
  · subst hwh
    obtain ⟨e1, _⟩ := C31_square r.is (List.range h) (List.Perm.refl _)
    refine ⟨_, e1, ?_⟩
    rw [decide_eq_true_iff]
    constructor
    · intro hh
      refine ⟨rfl, fun x y hx hy => ?_⟩
      have := congrFun (congrFun hh ⟨x, hx⟩) ⟨y, hy⟩
      simpa using this
    · rintro ⟨_, hh⟩
      ext i j
      simpa using hh i j i.2 j.2
  · obtain ⟨e1, _⟩ := C31_nonsquare (fun a b => decide (a ≠ b)) r.is hwh []
    exact ⟨false, e1, by simp; intro h; exact absurd h.symm hwh⟩

example := C31_image 0 (picture_shows 3 3 fun x y => (x : Int) * y)

/-- Not two-dimensional: the image version throws. -/
theorem C31_image_throws (z : α) (differ : α → α → Bool) (im : Image α) (h : im.dim ≠ 2) :
    imageIsSymmetry z differ im = .throw .runtime := by
  unfold imageIsSymmetry; rw [if_pos h]

def matSym : Mat Int := ⟨3, 3, [1, 2, 3, 2, 5, 6, 3, 6, 9]⟩
theorem matSym_is : matSym.Is !![1, 2, 3; 2, 5, 6; 3, 6, 9] := by
  refine ⟨rfl, rfl, rfl, by norm_num, ?_⟩
  intro i j
  fin_cases i <;> fin_cases j <;> decide +kernel
example : isSymmetry (fun a b => decide (a ≠ b)) matSym = .ok true ∧
    isSymmetryPolicy (fun a b => decide (a ≠ b)) [2, 0, 1] matSym = .ok true := by
  have h := C31_square matSym_is [2, 0, 1] (by decide)
  have : (!![1, 2, 3; 2, 5, 6; 3, 6, 9] : Matrix (Fin 3) (Fin 3) Int).transpose =
    !![1, 2, 3; 2, 5, 6; 3, 6, 9] := by decide
  simpa [this] using h
example : isSymmetry (fun a b => decide (a ≠ b)) (⟨2, 2, [1, 2, 3, 4]⟩ : Mat Int) = .ok false := by
  decide +kernel
example : isSymmetry (fun a b => decide (a ≠ b)) matA = .ok false :=
  (C31_nonsquare _ matA_is (by decide) []).1

end TinyDIP
