import Verif.Lemmas.Samples
import Verif.Lemmas.StitchRobust
import Verif.Props.Jacobi
import Verif.Props.LinAlg
import Mathlib.Tactic.Positivity

/-!
# C53, C54, C88: estimating a homography

A homography is a 3×3 matrix (Spec/Stitch.lean): `homog M x y` are the homogeneous coordinates of the image of
`(x, y)`, `project M x y` the image, `MapsTo M x y q` says that the image exists and is `q`, `matOf h` is the matrix of
nine numbers.
-/

namespace TinyDIP.Stitch

open TinyDIP Mat

section
variable {K : Type} [Field K] [LinearOrder K] [IsStrictOrderedRing K]

/-! ## C53 -/

theorem sum_two_mul (n : Nat) (f : Nat → K) :
    (Finset.range (2 * n)).sum f = (Finset.range n).sum fun i => f (2 * i) + f (2 * i + 1) := by
  induction n with
  | zero => simp
  | succ n ih =>
    rw [Finset.sum_range_succ, ← ih, show 2 * (n + 1) = 2 * n + 1 + 1 by ring, Finset.sum_range_succ,
      Finset.sum_range_succ, add_assoc]

/-- For every list of point pairs: the rows built for it vanish on a coefficient vector exactly when the
homography with these coefficients sends every first point to its second point (given that no
denominator vanishes). -/
theorem C53_equations (points : List (Pt × Pt)) (hf : 2 * points.length * 9 < 2 ^ 64) :
    ∃ (A : Mat K) (N : Matrix (Fin (2 * points.length)) (Fin 9) K), dltMatrix points = .ok A ∧ A.Is N ∧
      (∀ h : Fin 9 → K, (∀ p ∈ points, homog (matOf h) (p.1.1 : K) (p.1.2 : K) 2 ≠ 0) →
        (N.mulVec h = 0 ↔ ∀ p ∈ points, MapsTo (matOf h) (p.1.1 : K) (p.1.2 : K) ((p.2.1 : K), (p.2.2 : K)))) ∧
      (∀ h : Fin 9 → K, ∑ r, (N.mulVec h r) ^ 2 = (points.map fun p => algebraicError (matOf h) p.1 p.2).sum) := by
  obtain ⟨A, e, hA⟩ := dltMatrix_reads (K := K) points hf
  have hval : ∀ (h : Fin 9 → K) (r : Fin (2 * points.length)),
      (Matrix.of fun (i : Fin (2 * points.length)) (j : Fin 9) => dltEntry points (i : Nat) (j : Nat)).mulVec h r =
        ∑ c : Fin 9, dltEntry points (r : Nat) c * h c := fun h r => rfl
  refine ⟨A, _, e, hA.is, ?_, ?_⟩
  · intro h hz
    have hrow : (∀ i (hi : i < points.length), (∑ c : Fin 9, dltEntry points (2 * i) c * h c) = 0 ∧
        (∑ c : Fin 9, dltEntry points (2 * i + 1) c * h c) = 0) ↔
        ∀ p ∈ points, MapsTo (matOf h) (p.1.1 : K) (p.1.2 : K) ((p.2.1 : K), (p.2.2 : K)) := by
      constructor
      · intro H p hp
        obtain ⟨i, hi, rfl⟩ := List.getElem_of_mem hp
        obtain ⟨a, b⟩ := dlt_residual points h i hi
        obtain ⟨c, d⟩ := H i hi
        have hw := hz _ hp
        refine ⟨hw, ?_⟩
        unfold project
        rw [a] at c
        rw [b] at d
        refine Prod.ext ?_ ?_
        · simp only []
          rw [div_eq_iff hw]
          linear_combination -c
        · simp only []
          rw [div_eq_iff hw]
          linear_combination -d
      · intro H i hi
        obtain ⟨a, b⟩ := dlt_residual points h i hi
        obtain ⟨hw, hp⟩ := H _ (List.getElem_mem hi)
        unfold project at hp
        have h1 := (Prod.ext_iff.1 hp).1
        have h2 := (Prod.ext_iff.1 hp).2
        simp only [] at h1 h2
        rw [div_eq_iff hw] at h1 h2
        rw [a, b]
        exact ⟨by linear_combination -h1, by linear_combination -h2⟩
    rw [← hrow]
    constructor
    · intro H i hi
      have h1 := congrFun H ⟨2 * i, by omega⟩
      have h2 := congrFun H ⟨2 * i + 1, by omega⟩
      rw [hval] at h1 h2
      exact ⟨h1, h2⟩
    · intro H
      funext r
      rw [hval]
      obtain ⟨a, b⟩ := H (r / 2) (by omega)
      by_cases hr : (r : Nat) % 2 = 0
      · have : (r : Nat) = 2 * (r / 2) := by omega
        rw [this]; exact a
      · have : (r : Nat) = 2 * (r / 2) + 1 := by omega
        rw [this]; exact b
  · intro h
    simp only [hval]
    rw [← Finset.sum_range (fun r => (∑ c : Fin 9, dltEntry points r c * h c) ^ 2), sum_two_mul]
    have hp : (points.map fun p => algebraicError (matOf h) p.1 p.2) =
        (List.range points.length).map fun i => (∑ c : Fin 9, dltEntry points (2 * i) c * h c) ^ 2 +
          (∑ c : Fin 9, dltEntry points (2 * i + 1) c * h c) ^ 2 := by
      apply List.ext_getElem
      · simp
      · intro i h1 h2
        have hi : i < points.length := by simpa using h1
        simp only [List.getElem_map, List.getElem_range]
        obtain ⟨a, b⟩ := dlt_residual points h i hi
        rw [a, b]
        rfl
    rw [hp, sum_map_range]

/-- Multiplying a homography by a number other than zero does not change where it sends a point. -/
theorem C53_scale (M : Matrix (Fin 3) (Fin 3) K) (c : K) (hc : c ≠ 0) (x y : K) (q : K × K) :
    MapsTo (c • M) x y q ↔ MapsTo M x y q := by
  have hh : ∀ i, homog (c • M) x y i = c * homog M x y i := by
    intro i
    simp only [homog_eq, Matrix.smul_apply, smul_eq_mul]
    ring
  have hp : project (c • M) x y = project M x y := by
    unfold project
    simp only [hh, mul_div_mul_left _ _ hc]
  unfold MapsTo
  rw [hh, hp]
  simp [hc]

end

/-- Fewer than four pairs: no homography. -/
theorem C53_few (eps tol : ℝ) (k : Nat) (points : List (Pt × Pt)) (h : points.length < 4) :
    computeHomography eps k tol points = .ok none := by
  unfold computeHomography
  rw [if_pos h]

theorem homographyOf_ok {eps : ℝ} (heps : 0 < eps) (h : Fin 9 → ℝ) :
    (|h 8| < eps → homographyOf eps (List.ofFn h) = .ok none) ∧
    (eps ≤ |h 8| → ∃ H, homographyOf eps (List.ofFn h) = .ok (some H) ∧ H.Is ((h 8)⁻¹ • matOf h)) := by
  have hl : (List.ofFn h).length = 9 := by simp
  have hg : ∀ i : Nat, (hi : i < 9) → vget (List.ofFn h) i = .ok (h ⟨i, hi⟩) := by
    intro i hi
    rw [vget_eq_ok (by rw [hl]; exact hi)]
    exact congrArg Res.ok (List.getElem_ofFn _)
  unfold homographyOf
  rw [if_neg (by simp), hg 8 (by omega)]
  simp only [Res.ok_bind]
  have h8 : h ⟨8, by omega⟩ = h 8 := rfl
  rw [h8]
  constructor
  · intro hs
    rw [if_pos hs]
  · intro hs
    rw [if_neg (not_lt.2 hs)]
    obtain ⟨H, e, hH⟩ := Mat.forUp_fill (m := 3) (n := 3)
      (fun i j => (List.ofFn h).getD (i * 3 + j) 0 / h 8) (fun H i j => do
        let v ← vget (List.ofFn h) (i * 3 + j)
        H.set i j (v / h 8)) (by
      intro r c hr hc A f hA
      rw [vget_getD (by simp; omega) 0]
      exact hA.set hr hc _) (mk' 0 3 3) _ (mk'_reads 0 (by norm_num))
    rw [e]
    refine ⟨H, rfl, hH.is.congr ?_⟩
    ext i j
    have hget : ∀ k : Nat, (hk : k < 9) → (List.ofFn h).getD k 0 = h ⟨k, hk⟩ := by
      intro k hk
      rw [List.getD_eq_getElem?_getD, List.getElem?_eq_getElem (by rw [hl]; exact hk), Option.getD_some]
      exact List.getElem_ofFn _
    fin_cases i <;> fin_cases j <;>
      simp only [Matrix.of_apply, matOf, Matrix.smul_apply, smul_eq_mul] <;>
      rw [hget _ (by simp)] <;> simp [div_eq_inv_mul]

/-- For every list of at least four point pairs, every iteration limit and positive tolerance: the
coefficients are a unit vector whose summed algebraic error exceeds the least possible one by at most
`δ`, a bound that the tolerance or the iteration limit makes small; the call reports failure exactly
when the last coefficient is nearly zero, and otherwise returns the matrix of the coefficients divided
by the last one, so that its last entry is 1. -/
theorem C53_homography {eps tol : ℝ} (heps : 0 < eps) (ht : 0 < tol) (k : Nat) (points : List (Pt × Pt))
    (h4 : 4 ≤ points.length) (hf : 2 * points.length * 9 < 2 ^ 64) :
    ∃ h : Fin 9 → ℝ, (∑ i, h i ^ 2 = 1) ∧
      (∃ δ : ℝ, 0 ≤ δ ∧
        (∃ N : Matrix (Fin (2 * points.length)) (Fin 9) ℝ,
          (∀ x : Fin 9 → ℝ, ∑ r, (N.mulVec x r) ^ 2 = (points.map fun p => algebraicError (matOf x) p.1 p.2).sum) ∧
          (δ ^ 2 ≤ 72 * tol ^ 2 ∨ δ ^ 2 ≤ (1 - 2 / 72) ^ k * offSq (N.transpose * N))) ∧
        ∀ x : Fin 9 → ℝ, (∑ i, x i ^ 2 = 1) →
          (points.map fun p => algebraicError (matOf h) p.1 p.2).sum ≤
            (points.map fun p => algebraicError (matOf x) p.1 p.2).sum + δ) ∧
      (|h 8| < eps → computeHomography eps k tol points = .ok none) ∧
      (eps ≤ |h 8| → ∃ H, computeHomography eps k tol points = .ok (some H) ∧ H.Is ((h 8)⁻¹ • matOf h) ∧
        ((h 8)⁻¹ • matOf h) 2 2 = 1) := by
  obtain ⟨A, N, eA, hA, -, hsum⟩ := C53_equations (K := ℝ) points hf
  obtain ⟨h, eh, hu, δ, hδ, hδ2, hmin⟩ := C79_null_vector hA (by norm_num) (by norm_num) k tol ht
  obtain ⟨n1, n2⟩ := homographyOf_ok heps h
  have e0 : computeHomography eps k tol points = homographyOf eps (List.ofFn h) := by
    unfold computeHomography
    rw [if_neg (by omega), eA]
    simp only [Res.ok_bind, eh]
  refine ⟨h, hu, ⟨δ, hδ, ⟨N, hsum, ?_⟩, ?_⟩, ?_, ?_⟩
  · have e9 : (((9 : Nat) : ℝ) * (((9 : Nat) : ℝ) - 1)) = 72 := by norm_num
    rw [e9] at hδ2
    exact hδ2
  · intro x hx
    rw [← hsum, ← hsum]
    exact hmin x hx
  · intro hs; rw [e0]; exact n1 hs
  · intro hs
    obtain ⟨H, e, hH⟩ := n2 hs
    refine ⟨H, by rw [e0]; exact e, hH, ?_⟩
    have : h 8 ≠ 0 := by intro h0; rw [h0, abs_zero] at hs; linarith
    simp [matOf, this]

/-- Four corners of a square sent to the same square moved by (2, 3). -/
def movedSquare : List (Pt × Pt) :=
  [((0, 0), (2, 3)), ((10, 0), (12, 3)), ((0, 10), (2, 13)), ((10, 10), (12, 13))]

example : ∀ p ∈ movedSquare,
    homog (matOf ![1, 0, 2, 0, 1, 3, 0, 0, (1 : ℚ)]) (p.1.1 : ℚ) (p.1.2 : ℚ) 2 ≠ 0 ∧
    MapsTo (matOf ![1, 0, 2, 0, 1, 3, 0, 0, (1 : ℚ)]) (p.1.1 : ℚ) (p.1.2 : ℚ) ((p.2.1 : ℚ), (p.2.2 : ℚ)) := by
  intro p hp
  simp only [movedSquare, List.mem_cons, List.not_mem_nil, or_false] at hp
  rcases hp with rfl | rfl | rfl | rfl <;>
    simp [MapsTo, project, homog_eq, matOf] <;> norm_num
example : ∃ h : Fin 9 → ℝ, (∑ i, h i ^ 2 = 1) ∧
    (|h 8| < 1 / 1000 → computeHomography (1 / 1000) 100 (1 / 10 ^ 9) movedSquare = .ok none) := by
  obtain ⟨h, a, -, b, -⟩ := C53_homography (eps := 1 / 1000) (tol := 1 / 10 ^ 9) (by norm_num) (by norm_num) 100
    movedSquare (by decide) (by decide)
  exact ⟨h, a, b⟩

section
variable {K : Type} [Field K] [LinearOrder K] [IsStrictOrderedRing K]

/-! ## C54 -/

/-- The summed score of a homography over all matches. -/
def totalCost (score : K → K → K) (eps thresholdSq : K) (kp1 kp2 : List Pt) (ms : List (Nat × Nat))
    (M : Matrix (Fin 3) (Fin 3) K) : K :=
  (ms.map fun m => score (scoredError eps thresholdSq M (matchPts kp1 kp2 m)) thresholdSq).sum

/-- For every match list of at least four matches, every sequence of random draws, every solver that
returns (a 3×3 matrix or a failure) for at most four points and every scoring function: either no sampled candidate costs less
than `big` and the zero matrix is returned, or the returned model comes from one of the samples, its
cost is at most that of every sampled candidate and less than that of every earlier one. -/
theorem C54_robust (solve : List (Pt × Pt) → Res (Option (Mat K))) (score : K → K → K) (eps big threshold : K)
    {kp1 kp2 : List Pt} {ms : List (Nat × Nat)} (hm : InRange kp1 kp2 ms) (h4 : 4 ≤ ms.length)
    (hs : ∀ l, l.length ≤ 4 → ∃ r, solve l = .ok r)
    (hS : ∀ l H, l.length ≤ 4 → solve l = .ok (some H) → ∃ M : Matrix (Fin 3) (Fin 3) K, H.Is M)
    (draws : List (List Nat)) (hd : ∀ ds ∈ draws, ∀ d ∈ ds, d < ms.length) :
    ∃ R c, findHomographyRobust solve score eps big kp1 kp2 ms draws threshold = .ok (R, c) ∧
      (∀ ds ∈ draws, ∀ H M, solve (sampleOf kp1 kp2 ms ds) = .ok (some H) → H.Is M →
        c ≤ totalCost score eps (threshold * threshold) kp1 kp2 ms M) ∧
      ((R = mk' 0 3 3 ∧ c = big) ∨
        ∃ M, R.Is M ∧ c = totalCost score eps (threshold * threshold) kp1 kp2 ms M ∧ c < big ∧
          ∃ pre ds post, draws = pre ++ ds :: post ∧ solve (sampleOf kp1 kp2 ms ds) = .ok (some R) ∧
            ∀ ds' ∈ pre, ∀ H M', solve (sampleOf kp1 kp2 ms ds') = .ok (some H) → H.Is M' →
              c < totalCost score eps (threshold * threshold) kp1 kp2 ms M') := by
  classical
  set costOf : Mat K → K := fun H => if h : ∃ M : Matrix (Fin 3) (Fin 3) K, H.Is M then
    totalCost score eps (threshold * threshold) kp1 kp2 ms h.choose else 0 with hco
  have hcost : ∀ (H : Mat K) (M : Matrix (Fin 3) (Fin 3) K), H.Is M →
      costOf H = totalCost score eps (threshold * threshold) kp1 kp2 ms M := by
    intro H M hM
    have hex : ∃ M : Matrix (Fin 3) (Fin 3) K, H.Is M := ⟨M, hM⟩
    simp only [hco, dif_pos hex]
    have : hex.choose = M := by
      ext i j
      have a := hex.choose_spec.entry i j
      have b := hM.entry i j
      rw [b] at a
      exact (Res.ok.inj a).symm
    rw [this]
  obtain ⟨r, e, -, h2, h3⟩ := robust_loop solve score eps (threshold * threshold) hm h4 costOf (by
    rintro H ⟨l, h4', hl⟩
    obtain ⟨M, hM⟩ := hS l H h4' hl
    rw [hcost H M hM]
    exact cost_ok score eps (threshold * threshold) hm hM) hs draws hd (mk' 0 3 3, big)
  refine ⟨r.1, r.2, e, ?_, ?_⟩
  · intro ds hds H M hH hM
    rw [← hcost H M hM]
    exact h2 ds hds H hH
  · rcases h3 with h3 | ⟨h3, h4, pre, ds, post, he, h5, h6⟩
    · left; rw [h3]; exact ⟨rfl, rfl⟩
    · right
      obtain ⟨M, hM⟩ := hS _ _ (sampleOf_length _ _ _ _) h5
      refine ⟨M, hM, by rw [h4, hcost _ M hM], h3, pre, ds, post, he, h5, ?_⟩
      intro ds' hds' H M' hH hM'
      rw [← hcost H M' hM']
      exact h6 ds' hds' H hH

/-- Fewer than four matches: the zero matrix, whatever is drawn. -/
theorem C54_few (solve : List (Pt × Pt) → Res (Option (Mat K))) (score : K → K → K) (eps big threshold : K)
    (kp1 kp2 : List Pt) (ms : List (Nat × Nat)) (h4 : ms.length < 4) (draws : List (List Nat)) :
    findHomographyRobust solve score eps big kp1 kp2 ms draws threshold = .ok (mk' 0 3 3, big) := by
  unfold findHomographyRobust
  induction draws with
  | nil => rfl
  | cons d ds ih =>
    simp only [] at ih ⊢
    rw [loop, if_pos h4]
    exact ih

theorem nodup_eraseDups (l : List Nat) : l.eraseDups.Nodup := by
  induction hn : l.length using Nat.strong_induction_on generalizing l with
  | _ n ih =>
    cases l with
    | nil => simp
    | cons a l =>
      rw [List.eraseDups_cons, List.nodup_cons]
      constructor
      · simp
      · refine ih _ ?_ _ rfl
        have := List.length_filter_le (fun b => !b == a) l
        rw [List.length_cons] at hn
        omega

/-- A sample is made of four different matches as soon as four different numbers are drawn. -/
theorem C54_sample {kp1 kp2 : List Pt} {ms : List (Nat × Nat)} {ds : List Nat}
    (h4 : 4 ≤ ds.eraseDups.length) (hd : ∀ d ∈ ds, d < ms.length) :
    ∃ is : List Nat, is.length = 4 ∧ is.Nodup ∧ (∀ i ∈ is, i < ms.length) ∧
      sampleOf kp1 kp2 ms ds = is.map fun i => matchPts kp1 kp2 (ms.getD i (0, 0)) := by
  refine ⟨ds.eraseDups.take 4, by simp; omega, ?_, ?_, rfl⟩
  · exact (nodup_eraseDups ds).sublist (List.take_sublist _ _)
  · intro i hi
    exact hd i (by simpa using List.mem_of_mem_take hi)

/-- With the RANSAC score the cost is the number of matches that are not inliers: so the estimator
returns a candidate with the most inliers. -/
theorem C54_ransac (eps t : K) (kp1 kp2 : List Pt) (ms : List (Nat × Nat)) (M : Matrix (Fin 3) (Fin 3) K) :
    ∃ n : Nat, totalCost ransacScore eps t kp1 kp2 ms M = (n : K) ∧
      (open Classical in
        n + ((ms.map (matchPts kp1 kp2)).filter fun p => decide (Inlier eps t M p)).length = ms.length) := by
  classical
  induction ms with
  | nil => exact ⟨0, by simp [totalCost], by simp⟩
  | cons m ms ih =>
    obtain ⟨n, e, hn⟩ := ih
    have hc : totalCost ransacScore eps t kp1 kp2 (m :: ms) M =
        ransacScore (scoredError eps t M (matchPts kp1 kp2 m)) t + totalCost ransacScore eps t kp1 kp2 ms M := by
      unfold totalCost; rw [List.map_cons, List.sum_cons]
    by_cases hi : Inlier eps t M (matchPts kp1 kp2 m)
    · refine ⟨n, ?_, ?_⟩
      · rw [hc, e]
        unfold ransacScore scoredError
        rw [if_neg (not_lt.2 hi.1), if_pos hi.2, zero_add]
      · rw [List.map_cons, List.filter_cons_of_pos (by simpa using hi), List.length_cons, List.length_cons]
        omega
    · refine ⟨n + 1, ?_, ?_⟩
      · rw [hc, e]
        have : ¬ scoredError eps t M (matchPts kp1 kp2 m) < t := by
          unfold scoredError
          by_cases hw : |homog M ((matchPts kp1 kp2 m).1.1 : K) ((matchPts kp1 kp2 m).1.2 : K) 2| < eps
          · rw [if_pos hw]; exact lt_irrefl t
          · rw [if_neg hw]; exact fun h => hi ⟨not_lt.1 hw, h⟩
        unfold ransacScore
        rw [if_neg this]
        push_cast
        ring
      · rw [List.map_cons, List.filter_cons_of_neg (by simpa using hi), List.length_cons]
        omega

/-- With the MSAC score the cost of a match is its squared error, cut off at the threshold. -/
theorem C54_msac (eps t : K) (kp1 kp2 : List Pt) (ms : List (Nat × Nat)) (M : Matrix (Fin 3) (Fin 3) K) :
    totalCost msacScore eps t kp1 kp2 ms M =
      (ms.map fun m => if |homog M ((matchPts kp1 kp2 m).1.1 : K) ((matchPts kp1 kp2 m).1.2 : K) 2| < eps then t
        else min (distSq M (matchPts kp1 kp2 m).1 (matchPts kp1 kp2 m).2) t).sum := by
  unfold totalCost msacScore scoredError
  congr 1
  apply List.map_congr_left
  intro m _
  split <;> simp

open Classical in
/-- The refinement: it solves again with exactly the inliers of the given model, and returns the given
model when there are fewer than four or the solver fails. -/
theorem C54_refine (solve : List (Pt × Pt) → Res (Option (Mat K))) (eps threshold : K)
    {kp1 kp2 : List Pt} {ms : List (Nat × Nat)} (hm : InRange kp1 kp2 ms) {H : Mat K}
    {M : Matrix (Fin 3) (Fin 3) K} (hH : H.Is M) {inl : List (Pt × Pt)}
    (hinl : inl = (ms.map (matchPts kp1 kp2)).filter fun p => decide (Inlier eps (threshold * threshold) M p)) :
    (inl.length < 4 → refineHomography solve eps kp1 kp2 ms H threshold = .ok H) ∧
    (4 ≤ inl.length → solve inl = .ok none → refineHomography solve eps kp1 kp2 ms H threshold = .ok H) ∧
    (∀ R, 4 ≤ inl.length → solve inl = .ok (some R) →
      refineHomography solve eps kp1 kp2 ms H threshold = .ok R) := by
  have hne : H.isEmpty = false := by unfold Mat.isEmpty; simp [hH.rows, hH.cols]
  have e := inliers_ok eps (threshold * threshold) hm hH
  rw [← hinl] at e
  unfold refineHomography
  rw [hne]
  simp only [Bool.false_eq_true, if_false, e, Res.ok_bind]
  refine ⟨fun h => by rw [if_pos h], fun h hs => ?_, fun R h hs => ?_⟩
  · rw [if_neg (by omega), hs]; rfl
  · rw [if_neg (by omega), hs]; rfl

end

/-- A solver that knows one matrix: the identity. -/
def solveId (_ : List (Pt × Pt)) : Res (Option (Mat ℚ)) := .ok (some ⟨3, 3, [1, 0, 0, 0, 1, 0, 0, 0, 1]⟩)

def ptsA : List Pt := [(0, 0), (5, 0), (0, 5), (5, 5), (9, 9)]
def ptsB : List Pt := [(0, 0), (5, 0), (0, 5), (5, 5), (20, 20)]
def msA : List (Nat × Nat) := [(0, 0), (1, 1), (2, 2), (3, 3), (4, 4)]

example : InRange ptsA ptsB msA := by unfold InRange; decide
example : 4 ≤ ([4, 4, 2, 0, 2, 1] : List Nat).eraseDups.length := by decide
example : (findHomographyRobust solveId ransacScore (1 / 1000) 1000 ptsA ptsB msA [[4, 4, 2, 0, 2, 1]] 3) =
    .ok (⟨3, 3, [1, 0, 0, 0, 1, 0, 0, 0, 1]⟩, 1) := by decide +kernel
example : (findHomographyRobust solveId msacScore (1 / 1000) 1000 ptsA ptsB msA [[4, 4, 2, 0, 2, 1]] 3) =
    .ok (⟨3, 3, [1, 0, 0, 0, 1, 0, 0, 0, 1]⟩, 9) := by decide +kernel

/-! ## C88 -/

section
variable {K : Type} [Field K] [LinearOrder K] [IsStrictOrderedRing K]

/-- For a homography `M` between two images and all positive sizes: the scaled homography sends `(x, y)` to the
point that `M` gives for the correspondingly scaled `(x, y)`, scaled to the second image. -/
theorem C88_scale {H : Mat K} {M : Matrix (Fin 3) (Fin 3) K} (hH : H.Is M)
    (w1F h1F w1S h1S w2F h2F w2S h2S : Nat) (_ : 0 < w1S) (_ : 0 < h1S) (_ : 0 < w2F) (_ : 0 < h2F) :
    ∃ R N, scaleHomography H w1F h1F w1S h1S w2F h2F w2S h2S = .ok R ∧ R.Is N ∧
      ∀ x y : K, homog N x y 2 = homog M (x * w1F / w1S) (y * h1F / h1S) 2 ∧
        (project N x y).1 = (project M (x * w1F / w1S) (y * h1F / h1S)).1 * w2S / w2F ∧
        (project N x y).2 = (project M (x * w1F / w1S) (y * h1F / h1S)).2 * h2S / h2F := by
  have h0 := mk'_reads (0 : K) (m := 3) (n := 3) (by norm_num)
  have diag : ∀ a b : K, ∃ T1 T2 T3, (mk' 0 3 3 : Mat K).set 0 0 a = .ok T1 ∧ T1.set 1 1 b = .ok T2 ∧
      T2.set 2 2 1 = .ok T3 ∧ T3.Is !![a, 0, 0; 0, b, 0; 0, 0, 1] := by
    intro a b
    obtain ⟨T1, e1, r1⟩ := h0.set (r := 0) (c := 0) (by omega) (by omega) a
    obtain ⟨T2, e2, r2⟩ := r1.set (r := 1) (c := 1) (by omega) (by omega) b
    obtain ⟨T3, e3, r3⟩ := r2.set (r := 2) (c := 2) (by omega) (by omega) 1
    refine ⟨T1, T2, T3, e1, e2, e3, r3.is.congr ?_⟩
    ext i j
    fin_cases i <;> fin_cases j <;> simp
  obtain ⟨A1, A2, A3, a1, a2, a3, hA⟩ := diag ((w1F : K) / w1S) ((h1F : K) / h1S)
  obtain ⟨B1, B2, B3, b1, b2, b3, hB⟩ := diag ((w2S : K) / w2F) ((h2S : K) / h2F)
  obtain ⟨C, eC, hC⟩ := C28_product hB hH (by norm_num)
  obtain ⟨D, eD, hD⟩ := C28_product hC hA (by norm_num)
  refine ⟨D, _, ?_, hD, ?_⟩
  · unfold scaleHomography
    simp only [a1, a2, a3, b1, b2, b3, eC, eD, Res.ok_bind]
  · intro x y
    have e0 : ∀ i, homog (!![(w2S : K) / w2F, 0, 0; 0, (h2S : K) / h2F, 0; 0, 0, 1] * M *
        !![(w1F : K) / w1S, 0, 0; 0, (h1F : K) / h1S, 0; 0, 0, 1]) x y i =
        (![(w2S : K) / w2F, (h2S : K) / h2F, 1] : Fin 3 → K) i * homog M (x * w1F / w1S) (y * h1F / h1S) i := by
      intro i
      simp only [homog_eq, Matrix.mul_apply, Fin.sum_univ_three]
      fin_cases i <;> simp <;> ring
    unfold project
    refine ⟨by rw [e0]; simp, ?_, ?_⟩
    · simp only []
      rw [e0, e0]
      simp
      ring
    · simp only []
      rw [e0, e0]
      simp
      ring

end

example : scaleHomography (⟨3, 3, [1, 0, 4, 0, 1, 6, 0, 0, 1]⟩ : Mat ℚ) 4 4 2 2 8 8 4 4 =
    .ok ⟨3, 3, [1, 0, 2, 0, 1, 3, 0, 0, 1]⟩ := by decide +kernel

example := C53_equations (K := ℚ) movedSquare (by decide)
example := C53_scale (K := ℚ) (matOf ![1, 0, 2, 0, 1, 3, 0, 0, 1]) (-3) (by norm_num) 5 6 (7, 9)
example := C53_few (1 / 1000) (1 / 10 ^ 9) 100 (movedSquare.take 3) (by decide)

theorem solveId_is : (⟨3, 3, [1, 0, 0, 0, 1, 0, 0, 0, 1]⟩ : Mat ℚ).Is (1 : Matrix (Fin 3) (Fin 3) ℚ) := by
  refine ⟨rfl, rfl, rfl, by norm_num, ?_⟩
  intro i j
  fin_cases i <;> fin_cases j <;> decide +kernel

example := C54_robust solveId msacScore (1 / 1000) 1000 3 (kp1 := ptsA) (kp2 := ptsB) (ms := msA)
  (by unfold InRange; decide) (by decide) (fun _ _ => ⟨_, rfl⟩)
  (fun _ H _ e => by cases e; exact ⟨_, solveId_is⟩) [[4, 4, 2, 0, 2, 1], [0, 1, 2, 3]] (by decide)
example := C54_few solveId msacScore (1 / 1000) 1000 3 ptsA ptsB (msA.take 3) (by decide) [[0, 1, 2, 2]]
example := C54_sample (kp1 := ptsA) (kp2 := ptsB) (ms := msA) (ds := [4, 4, 2, 0, 2, 1]) (by decide) (by decide)

end TinyDIP.Stitch
