import Verif.Lemmas.Jacobi
import Mathlib.Algebra.Order.BigOperators.Ring.Finset
import Mathlib.LinearAlgebra.Matrix.Notation
import Mathlib.Tactic.FinCases

/-!
# C78, C79: the Jacobi eigenvalue solver and the null-vector solver

`offSq F` (below) is the sum of the squares of the off-diagonal entries of `F`.
-/

namespace TinyDIP

open Mat

variable {n : Nat}

/-- A non-square matrix is rejected. -/
theorem C78_throws (A : Mat ℝ) (k : Nat) (tol : ℝ) (h : A.rows ≠ A.cols) :
    jacobiEigenSolver A k tol = .throw .runtime := by
  unfold jacobiEigenSolver; rw [if_pos h]

example := C78_throws ⟨2, 3, [1, 2, 3, 4, 5, 6]⟩ 10 1e-9 (by decide)

/-- For every symmetric matrix `M`, iteration limit `k` and positive tolerance: the solver returns
`n` eigenvalues and an orthogonal eigenvector matrix `Q` such that `M = Q F Qᵀ` for a symmetric `F`
with the returned eigenvalues on its diagonal; and either all other entries of `F` are below the
tolerance, or their squares sum to at most `(1 - 2/(n(n-1)))^k` times those of `M`. -/
theorem C78_jacobi {A : Mat ℝ} {M : Matrix (Fin n) (Fin n) ℝ} (hA : A.Is M) (hM : M.IsSymm)
    (k : Nat) (tol : ℝ) (ht : 0 < tol) :
    ∃ ev V F Q, jacobiEigenSolver A k tol = .ok (ev, V) ∧ V.Is Q ∧ Q.transpose * Q = 1 ∧
      F.IsSymm ∧ Q * F * Q.transpose = M ∧ ev = List.ofFn (fun i : Fin n => F i i) ∧
      ((∀ i j, i ≠ j → |F i j| < tol) ∨
        (2 ≤ n ∧ offSq F ≤ (1 - 2 / (n * (n - 1) : ℝ)) ^ k * offSq M)) := by
  have hone : ∃ V, forUp n (fun V i => V.set i i 1) (mk' (0 : ℝ) n n) = .ok V ∧
      V.Is (1 : Matrix (Fin n) (Fin n) ℝ) := by
    obtain ⟨V, e, r⟩ := forUp_inv (n := n) (body := fun (V : Mat ℝ) i => V.set i i 1)
      (fun k V => V.Reads n n (fun i j => if i = j ∧ i < k then 1 else 0))
      (by
        intro k V hk hV
        obtain ⟨V', e, r⟩ := hV.set hk hk 1
        refine ⟨V', e, r.congr ?_⟩
        intro i j _ _
        by_cases h1 : i = k
        · subst h1
          by_cases h2 : j = i
          · simp [h2]
          · simp [h2, Ne.symm h2]
        · have : (i < k + 1) ↔ (i < k) := by omega
          simp [h1, this])
      (mk' 0 n n) ((mk'_reads 0 hA.fits).congr fun i j _ _ => by simp)
    refine ⟨V, e, r.is.congr ?_⟩
    ext i j
    simp [Matrix.one_apply, Fin.ext_iff]
  obtain ⟨V0, e0, h0⟩ := hone
  have hinv : JInv M A V0 M 1 := ⟨hA, h0, hM, by simp, by simp⟩
  have hloop : ∃ D' V' F' Q', jacobiLoop n tol k (A, V0) = .ok (D', V') ∧ JInv M D' V' F' Q' ∧
      ((∀ i j, i ≠ j → |F' i j| < tol) ∨
        (2 ≤ n ∧ offSq F' ≤ (1 - 2 / (n * (n - 1) : ℝ)) ^ k * offSq M)) := by
    obtain ⟨D', V', F', Q', h⟩ := jacobiLoop_spec M tol ht k A V0 M 1 hinv
    rcases h with ⟨a, b, c⟩ | ⟨hk, e⟩
    · exact ⟨D', V', F', Q', a, b, c⟩
    · refine ⟨A, V0, M, 1, e, hinv, ?_⟩
      by_cases hn : 2 ≤ n
      · right; exact ⟨hn, by simp [hk]⟩
      · left
        intro i j hij
        exact absurd (Fin.ext (by omega)) hij
  obtain ⟨D, V, F, Q, e, hi, hc⟩ := hloop
  refine ⟨_, V, F, Q, ?_, hi.v, hi.orth, hi.sym, hi.eq, rfl, hc⟩
  unfold jacobiEigenSolver
  rw [if_neg (by rw [hA.rows, hA.cols]; simp)]
  simp only [hA.rows, e0, e, Res.ok_bind]
  rw [forUp_collect (body := fun (ev : List ℝ) i => do let v ← D.get i i; .ok (ev ++ [v]))
    (List.ofFn fun i : Fin n => F i i) [] (by simp)]
  · simp
  · intro i hi' out
    have := hi.d.entry ⟨i, hi'⟩ ⟨i, hi'⟩
    simp only at this
    rw [this]
    simp

/-- The eigenvalues add up to the trace of the input. -/
theorem C78_trace {A : Mat ℝ} {M : Matrix (Fin n) (Fin n) ℝ} (hA : A.Is M) (hM : M.IsSymm)
    (k : Nat) (tol : ℝ) (ht : 0 < tol) :
    ∃ ev V, jacobiEigenSolver A k tol = .ok (ev, V) ∧ ev.sum = M.trace := by
  obtain ⟨ev, V, F, Q, e, _, ho, _, hq, hev, _⟩ := C78_jacobi hA hM k tol ht
  refine ⟨ev, V, e, ?_⟩
  rw [hev, List.sum_ofFn, ← hq, Matrix.trace_mul_comm, ← Matrix.mul_assoc, ho, Matrix.one_mul]
  rfl

theorem offSq_nonneg (F : Matrix (Fin n) (Fin n) ℝ) : 0 ≤ offSq F := by
  unfold offSq
  apply Finset.sum_nonneg; intro i _
  apply Finset.sum_nonneg; intro j _
  split
  · exact le_rfl
  · exact sq_nonneg _

/-- Each returned pair is an approximate eigenpair: with `q` the `i`-th column of the eigenvector
matrix, `‖M q - λ q‖²` is at most the bound `n (n - 1) tol²`, or the geometric bound. -/
theorem C78_eigenpairs {A : Mat ℝ} {M : Matrix (Fin n) (Fin n) ℝ} (hA : A.Is M) (hM : M.IsSymm)
    (k : Nat) (tol : ℝ) (ht : 0 < tol) :
    ∃ (lam : Fin n → ℝ) (V : Mat ℝ) (Q : Matrix (Fin n) (Fin n) ℝ),
      jacobiEigenSolver A k tol = .ok (List.ofFn lam, V) ∧ V.Is Q ∧
      ((∀ i : Fin n, ∑ r, ((M * Q) r i - lam i * Q r i) ^ 2 ≤ (n * (n - 1) : ℝ) * tol ^ 2) ∨
       (2 ≤ n ∧ ∀ i : Fin n, ∑ r, ((M * Q) r i - lam i * Q r i) ^ 2 ≤
        (1 - 2 / (n * (n - 1) : ℝ)) ^ k * offSq M)) := by
  obtain ⟨ev, V, F, Q, e, hV, ho, hF, hq, hev, hb⟩ := C78_jacobi hA hM k tol ht
  have hMQ : M * Q = Q * F := by
    rw [← hq, Matrix.mul_assoc, ho, Matrix.mul_one]
  -- the residual is Q times the off-diagonal part of a column of F
  have hres : ∀ i : Fin n, ∑ r, ((M * Q) r i - F i i * Q r i) ^ 2 =
      ∑ j, if i = j then 0 else F i j ^ 2 := by
    intro i
    set v : Fin n → ℝ := fun j => if j = i then 0 else F j i with hv
    have h1 : ∀ r, (M * Q) r i - F i i * Q r i = (Q.mulVec v) r := by
      intro r
      rw [hMQ, Matrix.mul_apply, Matrix.mulVec, dotProduct]
      have : ∀ j, Q r j * F j i = Q r j * v j + (if j = i then F i i * Q r i else 0) := by
        intro j
        by_cases h : j = i
        · subst h; simp [hv]; ring
        · simp [hv, h]
      rw [Finset.sum_congr rfl (fun j _ => this j), Finset.sum_add_distrib]
      simp
    have h2 : ∑ r, (Q.mulVec v r) ^ 2 = v ⬝ᵥ (Q.transpose * Q).mulVec v := by
      rw [← Matrix.mulVec_mulVec, Matrix.dotProduct_mulVec, Matrix.vecMul_transpose]
      simp [dotProduct, sq]
    rw [Finset.sum_congr rfl (fun r _ => by rw [h1 r]), h2, ho, Matrix.one_mulVec, dotProduct]
    apply Finset.sum_congr rfl
    intro j _
    by_cases h : j = i
    · subst h; simp [hv]
    · simp only [hv, h, if_false, Ne.symm h]
      rw [hF.apply]; ring
  have hle : ∀ i : Fin n, (∑ j, if i = j then 0 else F i j ^ 2) ≤ offSq F := by
    intro i
    unfold offSq
    exact Finset.single_le_sum (f := fun i => ∑ j, if i = j then (0 : ℝ) else F i j ^ 2)
      (fun i _ => Finset.sum_nonneg fun j _ => by split; exact le_rfl; exact sq_nonneg _)
      (Finset.mem_univ i)
  refine ⟨fun i => F i i, V, Q, hev ▸ e, hV, ?_⟩
  rcases hb with hb | ⟨hn, hb⟩
  · left
    intro i
    rw [hres i]
    exact (hle i).trans (offSq_le F tol fun i j hij => (hb i j hij).le)
  · right
    refine ⟨hn, fun i => ?_⟩
    rw [hres i]
    exact (hle i).trans hb

/-- Witness: the symmetric matrix `[[2, 1], [1, 2]]`. -/
noncomputable def matJ : Mat ℝ := ⟨2, 2, [2, 1, 1, 2]⟩
theorem matJ_is : matJ.Is !![2, 1; 1, 2] := by
  refine ⟨rfl, rfl, rfl, by norm_num, ?_⟩
  intro i j
  fin_cases i <;> fin_cases j <;> rfl
example : ∃ ev V, jacobiEigenSolver matJ 100 (1 / 10 ^ 9) = .ok (ev, V) ∧
    ev.sum = (!![2, 1; 1, 2] : Matrix (Fin 2) (Fin 2) ℝ).trace :=
  C78_trace matJ_is (by ext i j; fin_cases i <;> fin_cases j <;> rfl) _ _ (by norm_num)

/-! ## C79 -/

theorem minIdx_spec (l : List ℝ) (hl : l ≠ []) :
    minIdx l < l.length ∧ ∀ i < l.length, l.getD (minIdx l) 0 ≤ l.getD i 0 := by
  have key : ∀ (is : List Nat) (m : Nat), (∀ i ∈ is, i < l.length) → m < l.length →
      let r := is.foldl (fun m i => if l.getD i 0 < l.getD m 0 then i else m) m
      r < l.length ∧ l.getD r 0 ≤ l.getD m 0 ∧ ∀ i ∈ is, l.getD r 0 ≤ l.getD i 0 := by
    intro is
    induction is with
    | nil => intro m _ hm; exact ⟨hm, le_rfl, by simp⟩
    | cons i is ih =>
      intro m his hm
      rw [List.foldl_cons]
      by_cases h : l.getD i 0 < l.getD m 0
      · rw [if_pos h]
        obtain ⟨a, b, c⟩ := ih i (fun i hi => his i (by simp [hi])) (his i (by simp))
        refine ⟨a, b.trans h.le, ?_⟩
        intro j hj
        rcases List.mem_cons.mp hj with rfl | hj
        · exact b
        · exact c j hj
      · rw [if_neg h]
        obtain ⟨a, b, c⟩ := ih m (fun i hi => his i (by simp [hi])) hm
        refine ⟨a, b, ?_⟩
        intro j hj
        rcases List.mem_cons.mp hj with rfl | hj
        · exact b.trans (not_lt.mp h)
        · exact c j hj
  have h := key (List.range l.length) 0 (by simp) (List.length_pos_iff.mpr hl)
  exact ⟨h.1, fun i hi => h.2.2 i (List.mem_range.mpr hi)⟩

theorem quad_lower (F : Matrix (Fin n) (Fin n) ℝ) (lam : ℝ) (hl : ∀ i, lam ≤ F i i) (y : Fin n → ℝ)
    (hy : ∑ i, y i ^ 2 = 1) : lam - Real.sqrt (offSq F) ≤ y ⬝ᵥ F.mulVec y := by
  set o : Fin n → Fin n → ℝ := fun i j => if i = j then 0 else F i j with ho
  have hsplit : y ⬝ᵥ F.mulVec y = (∑ i, F i i * y i ^ 2) + ∑ i, ∑ j, o i j * (y i * y j) := by
    rw [dotProduct, ← Finset.sum_add_distrib]
    apply Finset.sum_congr rfl
    intro i _
    rw [Matrix.mulVec, dotProduct, Finset.mul_sum]
    have : ∀ j, y i * (F i j * y j) = o i j * (y i * y j) + (if i = j then F i i * y i ^ 2 else 0) := by
      intro j
      by_cases h : i = j
      · subst h; simp [ho]; ring
      · simp [ho, h]; ring
    rw [Finset.sum_congr rfl (fun j _ => this j), Finset.sum_add_distrib]
    simp [add_comm]
  have hdiag : lam ≤ ∑ i, F i i * y i ^ 2 := by
    calc lam = ∑ i, lam * y i ^ 2 := by rw [← Finset.mul_sum, hy, mul_one]
      _ ≤ _ := Finset.sum_le_sum fun i _ => mul_le_mul_of_nonneg_right (hl i) (sq_nonneg _)
  have hcs : (∑ i, ∑ j, o i j * (y i * y j)) ^ 2 ≤ offSq F := by
    have h1 : ∑ i, ∑ j, o i j * (y i * y j) =
        ∑ x ∈ (Finset.univ ×ˢ Finset.univ : Finset (Fin n × Fin n)), o x.1 x.2 * (y x.1 * y x.2) :=
      (Finset.sum_product _ _ (fun x : Fin n × Fin n => o x.1 x.2 * (y x.1 * y x.2))).symm
    rw [h1]
    refine (Finset.sum_mul_sq_le_sq_mul_sq _ _ _).trans ?_
    rw [Finset.sum_product, Finset.sum_product]
    have h2 : ∑ i, ∑ j, (y i * y j) ^ 2 = 1 := by
      simp only [mul_pow, ← Finset.mul_sum, hy, mul_one]
    have h3 : ∑ i, ∑ j, o i j ^ 2 = offSq F := by
      unfold offSq
      apply Finset.sum_congr rfl; intro i _
      apply Finset.sum_congr rfl; intro j _
      by_cases h : i = j <;> simp [ho, h]
    rw [h3, h2, mul_one]
  have := Real.abs_le_sqrt hcs
  have := (abs_le.mp this).1
  rw [hsplit]; linarith

/-- For every matrix `N` with at least one column, iteration limit and positive tolerance, the
returned `h` is a unit vector, and no unit vector `x` makes `‖N x‖²` smaller than `‖N h‖²` by more
than `δ`, where `δ²` is at most `n (n - 1) tol²`, or at most the geometric bound of C78 applied to
`Nᵀ N`. -/
theorem C79_null_vector {m : Nat} {A : Mat ℝ} {N : Matrix (Fin m) (Fin n) ℝ} (hA : A.Is N)
    (hn : 1 ≤ n) (hf : n * n < 2 ^ 64) (k : Nat) (tol : ℝ) (ht : 0 < tol) :
    ∃ h : Fin n → ℝ, svdSolveAhZero A k tol = .ok (List.ofFn h) ∧ (∑ i, h i ^ 2 = 1) ∧
      ∃ δ : ℝ, 0 ≤ δ ∧ (δ ^ 2 ≤ (n * (n - 1) : ℝ) * tol ^ 2 ∨
        δ ^ 2 ≤ (1 - 2 / (n * (n - 1) : ℝ)) ^ k * offSq (N.transpose * N)) ∧
      ∀ x : Fin n → ℝ, (∑ i, x i ^ 2 = 1) →
        ∑ r, (N.mulVec h r) ^ 2 ≤ ∑ r, (N.mulVec x r) ^ 2 + δ := by
  obtain ⟨T, eT, hT⟩ := transpose_reads (0 : ℝ) (hA.reads 0)
  have hT' : T.Is N.transpose := hT.is.congr (by ext i j; simp [ext, Matrix.transpose_apply])
  obtain ⟨S, eS, hS⟩ := multiply_reads (hT'.reads 0) (hA.reads 0) hf
  have hS' : S.Is (N.transpose * N) := by
    refine hS.is.congr ?_
    ext i j
    rw [Matrix.mul_apply, Matrix.of_apply, Finset.sum_range]
    apply Finset.sum_congr rfl
    intro k _
    simp [ext]
  have hsym : (N.transpose * N).IsSymm := by
    unfold Matrix.IsSymm; rw [Matrix.transpose_mul, Matrix.transpose_transpose]
  obtain ⟨ev, V, F, Q, e, hV, ho, hF, hq, hev, hb⟩ := C78_jacobi hS' hsym k tol ht
  have hlen : ev.length = n := by rw [hev]; simp
  obtain ⟨hk1, hk2⟩ := minIdx_spec ev (by intro h; rw [h] at hlen; simp at hlen; omega)
  rw [hlen] at hk1 hk2
  set K : Fin n := ⟨minIdx ev, hk1⟩ with hK
  have hgetD : ∀ i : Fin n, ev.getD i 0 = F i i := by
    intro i
    rw [hev]
    simp
  have hmin : ∀ i, F K K ≤ F i i := by
    intro i
    have := hk2 i i.2
    rw [hgetD i] at this
    have h2 := hgetD K
    rw [← h2]; exact this
  -- norms through Q
  have hnorm : ∀ x : Fin n → ℝ, ∑ r, (N.mulVec x r) ^ 2 =
      Q.transpose.mulVec x ⬝ᵥ F.mulVec (Q.transpose.mulVec x) := by
    intro x
    have h1 : ∑ r, (N.mulVec x r) ^ 2 = x ⬝ᵥ (N.transpose * N).mulVec x := by
      rw [← Matrix.mulVec_mulVec, Matrix.dotProduct_mulVec, Matrix.vecMul_transpose]
      simp [dotProduct, sq]
    rw [h1, ← hq, ← Matrix.mulVec_mulVec, ← Matrix.mulVec_mulVec, Matrix.dotProduct_mulVec,
      ← Matrix.mulVec_transpose]
  have ho' : Q * Q.transpose = 1 := mul_eq_one_comm.mp ho
  have hunit : ∀ x : Fin n → ℝ, ∑ i, (Q.transpose.mulVec x i) ^ 2 = ∑ i, x i ^ 2 := by
    intro x
    have h2 : ∑ r, (Q.transpose.mulVec x r) ^ 2 = x ⬝ᵥ (Q * Q.transpose).mulVec x := by
      rw [← Matrix.mulVec_mulVec, Matrix.dotProduct_mulVec, ← Matrix.mulVec_transpose]
      simp [dotProduct, sq]
    rw [h2, ho', Matrix.one_mulVec]
    simp [dotProduct, sq]
  set h : Fin n → ℝ := fun i => Q i K with hh
  have hQh : Q.transpose.mulVec h = Pi.single K 1 := by
    ext i
    have := congrFun (congrFun ho i) K
    rw [Matrix.mul_apply] at this
    rw [Matrix.mulVec, dotProduct]
    simp only [hh]
    rw [this, Matrix.one_apply, Pi.single_apply]
  have hh1 : ∑ i, h i ^ 2 = 1 := by
    rw [← hunit h, hQh]
    simp [Pi.single_apply]
  have hval : ∑ r, (N.mulVec h r) ^ 2 = F K K := by
    rw [hnorm h, hQh]
    simp
  refine ⟨h, ?_, hh1, Real.sqrt (offSq F), Real.sqrt_nonneg _, ?_, ?_⟩
  · unfold svdSolveAhZero
    simp only [eT, eS, e, Res.ok_bind, hA.cols]
    rw [forUp_collect (body := fun (out : List ℝ) i => do
      let v ← V.get i (minIdx ev); .ok (out ++ [v])) (List.ofFn h) [] (by simp)]
    · simp
    · intro i hi out
      have := hV.entry ⟨i, hi⟩ K
      simp only [hK] at this
      rw [this]
      simp [hh, hK]
  · rw [Real.sq_sqrt (offSq_nonneg F)]
    rcases hb with hb | ⟨_, hb⟩
    · exact Or.inl (offSq_le F tol fun i j hij => (hb i j hij).le)
    · exact Or.inr hb
  · intro x hx
    rw [hval, hnorm x]
    have := quad_lower F (F K K) hmin (Q.transpose.mulVec x) (by rw [hunit x, hx])
    linarith

example : ∃ h : Fin 2 → ℝ, svdSolveAhZero matJ 100 (1 / 10 ^ 9) = .ok (List.ofFn h) ∧
    ∑ i, h i ^ 2 = 1 := by
  obtain ⟨h, a, b, _⟩ := C79_null_vector matJ_is (by norm_num) (by norm_num) 100 (1 / 10 ^ 9)
    (by norm_num)
  exact ⟨h, a, b⟩

example : ∃ ev V F Q, jacobiEigenSolver matJ 3 (1 / 10 ^ 9) = .ok (ev, V) ∧ V.Is Q ∧ Q.transpose * Q = 1 ∧
    F.IsSymm ∧ Q * F * Q.transpose = !![2, 1; 1, 2] ∧ ev = List.ofFn (fun i : Fin 2 => F i i) ∧
    ((∀ i j, i ≠ j → |F i j| < 1 / 10 ^ 9) ∨
      (2 ≤ 2 ∧ offSq F ≤ (1 - 2 / ((2 : ℕ) * ((2 : ℕ) - 1) : ℝ)) ^ 3 * offSq !![2, 1; 1, 2])) :=
  C78_jacobi matJ_is (by ext i j; fin_cases i <;> fin_cases j <;> rfl) 3 _ (by norm_num)

end TinyDIP
