import Verif.Model.Jacobi
import Verif.Lemmas.LinAlg
import Verif.Lemmas.Pixelwise
import Mathlib.LinearAlgebra.Matrix.NonsingularInverse
import Mathlib.LinearAlgebra.Matrix.Trace
import Mathlib.LinearAlgebra.Matrix.Symmetric
import Mathlib.Tactic.LinearCombination
import Mathlib.Tactic.Linarith

namespace TinyDIP

variable {n : Nat}

/-! ### The plane rotation as a matrix -/

/-- The rotation with columns `p`, `q`. -/
noncomputable def rot (p q : Fin n) (c s : ℝ) : Matrix (Fin n) (Fin n) ℝ := fun i j =>
  if j = p then (if i = p then c else if i = q then -s else 0)
  else if j = q then (if i = p then s else if i = q then c else 0)
  else if i = j then 1 else 0

theorem mul_rot {m : Nat} (p q : Fin n) (hpq : p ≠ q) (c s : ℝ) (X : Matrix (Fin m) (Fin n) ℝ)
    (i : Fin m) (j : Fin n) : (X * rot p q c s) i j =
      if j = p then c * X i p - s * X i q else if j = q then s * X i p + c * X i q else X i j := by
  have two : ∀ a b : ℝ, (∑ k, X i k * (if k = p then a else if k = q then b else 0)) =
      X i p * a + X i q * b := by
    intro a b
    have : ∀ k, X i k * (if k = p then a else if k = q then b else 0) =
        (if k = p then X i k * a else 0) + (if k = q then X i k * b else 0) := by
      intro k
      by_cases h1 : k = p
      · subst h1; simp [hpq]
      · simp [h1]
    simp only [this, Finset.sum_add_distrib, Finset.sum_ite_eq', Finset.mem_univ, if_true]
  rw [Matrix.mul_apply]
  unfold rot
  by_cases h1 : j = p
  · simp only [h1, if_true]; rw [two]; ring
  · by_cases h2 : j = q
    · simp only [h2, if_true, if_neg hpq.symm]; rw [two]; ring
    · simp [h1, h2]

theorem rotT_mul {m : Nat} (p q : Fin n) (hpq : p ≠ q) (c s : ℝ) (X : Matrix (Fin n) (Fin m) ℝ)
    (i : Fin n) (j : Fin m) : ((rot p q c s).transpose * X) i j =
      if i = p then c * X p j - s * X q j else if i = q then s * X p j + c * X q j else X i j := by
  have : (rot p q c s).transpose * X = (X.transpose * rot p q c s).transpose := by
    rw [Matrix.transpose_mul, Matrix.transpose_transpose]
  rw [this, Matrix.transpose_apply, mul_rot p q hpq]
  rfl

theorem rot_orth (p q : Fin n) (hpq : p ≠ q) (c s : ℝ) (hcs : c * c + s * s = 1) :
    (rot p q c s).transpose * rot p q c s = 1 := by
  have hqp := hpq.symm
  ext i j
  rw [rotT_mul p q hpq, Matrix.one_apply]
  unfold rot
  by_cases i1 : i = p
  · subst i1
    by_cases j1 : j = i
    · subst j1; simp [hqp]; linarith
    · by_cases j2 : j = q
      · subst j2; simp [hpq, hqp]; ring
      · simp [j1, j2, Ne.symm j1, Ne.symm j2]
  · by_cases i2 : i = q
    · subst i2
      by_cases j1 : j = p
      · subst j1; simp [hqp]; ring
      · by_cases j2 : j = i
        · subst j2; simp [hqp]; linarith
        · simp [j1, j2, i1, Ne.symm j1, Ne.symm j2]
    · by_cases j1 : j = p
      · subst j1; simp [i1, i2]
      · by_cases j2 : j = q
        · subst j2; simp [i1, i2, j1]
        · simp [i1, i2, j1, j2]

theorem rot_orth' (p q : Fin n) (hpq : p ≠ q) (c s : ℝ) (hcs : c * c + s * s = 1) :
    rot p q c s * (rot p q c s).transpose = 1 :=
  mul_eq_one_comm.mp (rot_orth p q hpq c s hcs)

/-- The conjugated matrix, entry by entry. -/
theorem conj_rot (p q : Fin n) (hpq : p ≠ q) (c s : ℝ) (F : Matrix (Fin n) (Fin n) ℝ)
    (hF : F.IsSymm) (i j : Fin n) :
    ((rot p q c s).transpose * F * rot p q c s) i j =
      if j = p then (if i = p then c * c * F p p + s * s * F q q - 2 * s * c * F p q
          else if i = q then c * s * (F p p - F q q) + (c * c - s * s) * F p q
          else c * F i p - s * F i q)
      else if j = q then (if i = p then c * s * (F p p - F q q) + (c * c - s * s) * F p q
          else if i = q then s * s * F p p + c * c * F q q + 2 * s * c * F p q
          else s * F i p + c * F i q)
      else (if i = p then c * F j p - s * F j q else if i = q then s * F j p + c * F j q
          else F i j) := by
  have e : ∀ a b, F a b = F b a := fun a b => (hF.apply a b).symm
  rw [mul_rot p q hpq]
  simp only [rotT_mul p q hpq]
  have h1 := e q p
  have h2 := e p j
  have h3 := e q j
  split_ifs <;> first | rfl | (rw [h1]; ring) | (rw [h2, h3])

theorem angle_zero (app aqq apq : ℝ) :
    Real.cos (Mat.jacobiAngle app aqq apq) * Real.sin (Mat.jacobiAngle app aqq apq) * (app - aqq) +
      (Real.cos (Mat.jacobiAngle app aqq apq) * Real.cos (Mat.jacobiAngle app aqq apq) -
        Real.sin (Mat.jacobiAngle app aqq apq) * Real.sin (Mat.jacobiAngle app aqq apq)) * apq = 0 := by
  set t := Mat.jacobiAngle app aqq apq with ht
  have h2 : 2 * t = atan2 (2 * apq) (aqq - app) := by rw [ht, Mat.jacobiAngle]; ring
  have hs : Real.sin (2 * t) = 2 * Real.sin t * Real.cos t := Real.sin_two_mul t
  have hc : Real.cos (2 * t) = Real.cos t * Real.cos t - Real.sin t * Real.sin t := by
    have := Real.sin_sq_add_cos_sq t
    rw [Real.cos_two_mul]; nlinarith
  set z : ℂ := ⟨aqq - app, 2 * apq⟩ with hz
  have hsin : Real.sin (2 * t) * ‖z‖ = 2 * apq := by
    rw [h2, atan2]
    have := Complex.norm_mul_sin_arg z
    rw [mul_comm]; exact this
  have hcos : Real.cos (2 * t) * ‖z‖ = aqq - app := by
    rw [h2, atan2]
    have := Complex.norm_mul_cos_arg z
    rw [mul_comm]; exact this
  by_cases h0 : ‖z‖ = 0
  · rw [h0, mul_zero] at hsin hcos
    have e1 : apq = 0 := by linarith
    have e2 : app - aqq = 0 := by linarith
    rw [e1, e2]; ring
  · have : (Real.cos t * Real.sin t * (app - aqq) +
        (Real.cos t * Real.cos t - Real.sin t * Real.sin t) * apq) * ‖z‖ = 0 := by
      rw [← hc]
      have e : Real.cos t * Real.sin t = Real.sin (2 * t) / 2 := by rw [hs]; ring
      rw [e]
      have : app - aqq = -(Real.cos (2 * t) * ‖z‖) := by rw [hcos]; ring
      have h3 : apq = Real.sin (2 * t) * ‖z‖ / 2 := by rw [hsin]; ring
      rw [this, h3]; ring
    rcases mul_eq_zero.mp this with h | h
    · exact h
    · exact absurd h h0

/-! ### Off-diagonal mass -/

theorem sum_sq_eq (F : Matrix (Fin n) (Fin n) ℝ) :
    ∑ i, ∑ j, F i j ^ 2 = offSq F + ∑ i, F i i ^ 2 := by
  unfold offSq
  rw [← Finset.sum_add_distrib]
  apply Finset.sum_congr rfl
  intro i _
  have : ∀ j, F i j ^ 2 = (if i = j then 0 else F i j ^ 2) + (if i = j then F i j ^ 2 else 0) := by
    intro j; split <;> simp
  rw [Finset.sum_congr rfl (fun j _ => this j), Finset.sum_add_distrib]
  simp

theorem sum_sq_trace (F : Matrix (Fin n) (Fin n) ℝ) :
    ∑ i, ∑ j, F i j ^ 2 = (F * F.transpose).trace := by
  simp [Matrix.trace, Matrix.mul_apply, sq]

theorem sum_sq_conj (J F : Matrix (Fin n) (Fin n) ℝ) (h : J.transpose * J = 1) :
    ∑ i, ∑ j, (J.transpose * F * J) i j ^ 2 = ∑ i, ∑ j, F i j ^ 2 := by
  have h' : J * J.transpose = 1 := mul_eq_one_comm.mp h
  rw [sum_sq_trace, sum_sq_trace]
  have e : J.transpose * F * J * (J.transpose * F * J).transpose =
      J.transpose * (F * F.transpose * J) := by
    rw [Matrix.transpose_mul, Matrix.transpose_mul, Matrix.transpose_transpose]
    calc J.transpose * F * J * (J.transpose * (F.transpose * J))
        = J.transpose * F * (J * J.transpose) * (F.transpose * J) := by simp only [Matrix.mul_assoc]
      _ = J.transpose * (F * F.transpose * J) := by rw [h', Matrix.mul_one]; simp only [Matrix.mul_assoc]
  rw [e, Matrix.trace_mul_comm, Matrix.mul_assoc, h', Matrix.mul_one]

theorem sum_two (g : Fin n → ℝ) (p q : Fin n) (hpq : p ≠ q) :
    ∑ i, g i = g p + g q + ∑ i, (if i = p ∨ i = q then 0 else g i) := by
  have : ∀ i, g i = (if i = p then g i else 0) + (if i = q then g i else 0) +
      (if i = p ∨ i = q then 0 else g i) := by
    intro i
    by_cases h1 : i = p
    · subst h1; simp [hpq]
    · by_cases h2 : i = q
      · subst h2; simp [h1]
      · simp [h1, h2]
  conv_lhs => rw [Finset.sum_congr rfl (fun i _ => this i)]
  rw [Finset.sum_add_distrib, Finset.sum_add_distrib]
  simp

/-- One rotation removes twice the square of the pivot entry. -/
theorem offSq_rot (p q : Fin n) (hpq : p ≠ q) (c s : ℝ) (hcs : c * c + s * s = 1)
    (F : Matrix (Fin n) (Fin n) ℝ) (hF : F.IsSymm)
    (h0 : c * s * (F p p - F q q) + (c * c - s * s) * F p q = 0) :
    offSq ((rot p q c s).transpose * F * rot p q c s) = offSq F - 2 * F p q ^ 2 := by
  have e1 := sum_sq_eq F
  have e2 := sum_sq_eq ((rot p q c s).transpose * F * rot p q c s)
  rw [sum_sq_conj _ _ (rot_orth p q hpq c s hcs), e1] at e2
  have hd : ∑ i, ((rot p q c s).transpose * F * rot p q c s) i i ^ 2 =
      ∑ i, F i i ^ 2 + 2 * F p q ^ 2 := by
    rw [sum_two _ p q hpq, sum_two (fun i => F i i ^ 2) p q hpq]
    have : ∀ i, (if i = p ∨ i = q then 0 else
        ((rot p q c s).transpose * F * rot p q c s) i i ^ 2) =
        (if i = p ∨ i = q then 0 else F i i ^ 2) := by
      intro i
      by_cases h1 : i = p
      · simp [h1]
      · by_cases h2 : i = q
        · simp [h2]
        · rw [conj_rot p q hpq c s F hF]; simp [h1, h2]
    rw [Finset.sum_congr rfl (fun i _ => this i)]
    rw [conj_rot p q hpq c s F hF, conj_rot p q hpq c s F hF]
    simp only [if_true, if_neg hpq.symm]
    have hc2 : c ^ 2 = 1 - s ^ 2 := by linarith
    set a := F p p
    set b := F q q
    set d := F p q
    set S := ∑ i, (if i = p ∨ i = q then 0 else F i i ^ 2)
    have key : (c * c * a + s * s * b - 2 * s * c * d) ^ 2 + (s * s * a + c * c * b + 2 * s * c * d) ^ 2 +
        2 * (c * s * (a - b) + (c * c - s * s) * d) ^ 2 =
        (c * c + s * s) ^ 2 * (a ^ 2 + b ^ 2 + 2 * d ^ 2) := by ring
    rw [h0, hcs] at key
    linarith
  linarith

/-- The largest off-diagonal entry carries its share of the off-diagonal mass. -/
theorem offSq_le (F : Matrix (Fin n) (Fin n) ℝ) (m : ℝ)
    (h : ∀ i j, i ≠ j → |F i j| ≤ m) : offSq F ≤ (n * (n - 1) : ℝ) * m ^ 2 := by
  unfold offSq
  have hrow : ∀ i : Fin n, (∑ j, if i = j then 0 else F i j ^ 2) ≤ (n - 1 : ℝ) * m ^ 2 := by
    intro i
    have hle : ∀ j, (if i = j then 0 else F i j ^ 2) ≤ m ^ 2 - (if i = j then m ^ 2 else 0) := by
      intro j
      by_cases e : i = j
      · simp [e]
      · simp only [e, if_false, sub_zero]
        rw [← sq_abs]
        exact pow_le_pow_left₀ (abs_nonneg _) (h i j e) 2
    refine (Finset.sum_le_sum (fun j _ => hle j)).trans ?_
    rw [Finset.sum_sub_distrib]
    simp
    ring_nf; exact le_refl _
  refine (Finset.sum_le_sum (fun i _ => hrow i)).trans ?_
  simp
  ring_nf; exact le_refl _

/-! ### The program -/

namespace Mat

/-- The pivot search finds a largest off-diagonal entry of the upper triangle. -/
theorem jacobiPivot_spec {D : Mat ℝ} {f : Nat → Nat → ℝ} (h : D.Reads n n f) :
    ∃ m p q, jacobiPivot D n = .ok (m, p, q) ∧ 0 ≤ m ∧
      (∀ i j, i < j → j < n → |f i j| ≤ m) ∧
      (m = 0 ∨ (p < q ∧ q < n ∧ m = |f p q|)) := by
  unfold jacobiPivot
  obtain ⟨⟨m, p, q⟩, e, h1, h2, h3⟩ := forUp_inv (n := n)
    (body := fun (s : ℝ × Nat × Nat) i =>
      loop (fun (s : ℝ × Nat × Nat) j => do
        let v ← D.get i j
        if |v| > s.1 then .ok (|v|, i, j) else .ok s) (List.range' (i + 1) (n - (i + 1))) s)
    (fun k s => 0 ≤ s.1 ∧ (∀ i j, i < k → i < j → j < n → |f i j| ≤ s.1) ∧
      (s.1 = 0 ∨ (s.2.1 < s.2.2 ∧ s.2.2 < n ∧ s.1 = |f s.2.1 s.2.2|)))
    (by
      intro k s hk hs
      obtain ⟨h1, h2, h3⟩ := hs
      obtain ⟨s', e, g1, g2, g3, g4⟩ := loop_inv
        (body := fun (s : ℝ × Nat × Nat) j => do
          let v ← D.get k j
          if |v| > s.1 then .ok (|v|, k, j) else .ok s)
        (fun l s' => (∀ j ∈ l, k < j ∧ j < n) ∧ s.1 ≤ s'.1 ∧
          (∀ j, k < j → j < n → j ∉ l → |f k j| ≤ s'.1) ∧
          (s'.1 = 0 ∨ (s'.2.1 < s'.2.2 ∧ s'.2.2 < n ∧ s'.1 = |f s'.2.1 s'.2.2|)))
        (by
          intro j js s' ⟨a1, a2, a3, a4⟩
          obtain ⟨hj1, hj2⟩ := a1 j (by simp)
          simp only [h.get hk hj2, Res.ok_bind]
          by_cases hlt : |f k j| > s'.1
          · rw [if_pos hlt]
            refine ⟨_, rfl, fun j hj => a1 j (by simp [hj]), by simp only; linarith, ?_, ?_⟩
            · intro j' hj1' hj2' hn
              by_cases e : j' = j
              · subst e; exact le_rfl
              · exact (a3 j' hj1' hj2' (by simp [e, hn])).trans hlt.le
            · right; exact ⟨hj1, hj2, rfl⟩
          · rw [if_neg hlt]
            refine ⟨_, rfl, fun j hj => a1 j (by simp [hj]), a2, ?_, a4⟩
            intro j' hj1' hj2' hn
            by_cases e : j' = j
            · subst e; exact not_lt.mp hlt
            · exact a3 j' hj1' hj2' (by simp [e, hn]))
        (List.range' (k + 1) (n - (k + 1))) s
        ⟨fun j hj => by rw [List.mem_range'_1] at hj; omega, le_rfl,
          fun j hj1 hj2 hj => absurd (List.mem_range'_1.mpr (by omega)) hj, h3⟩
      refine ⟨s', e, by linarith, ?_, g4⟩
      intro i j hi hij hj
      rcases Nat.lt_succ_iff_lt_or_eq.mp hi with hi | hi
      · exact (h2 i j hi hij hj).trans g2
      · subst hi; exact g3 j hij hj (by simp))
    (0, 0, 1) ⟨le_rfl, fun i j hi => by omega, Or.inl rfl⟩
  exact ⟨m, p, q, e, h1, fun i j hij hj => h2 i j (by omega) hij hj, h3⟩

/-- The rotated matrix at the function level. -/
noncomputable def rotT (p q : Nat) (c s : ℝ) (f : Nat → Nat → ℝ) : Nat → Nat → ℝ := fun i j =>
  if j = p then (if i = p then c * c * f p p + s * s * f q q - 2 * s * c * f p q
      else if i = q then 0 else c * f i p - s * f i q)
  else if j = q then (if i = p then 0
      else if i = q then s * s * f p p + c * c * f q q + 2 * s * c * f p q
      else s * f i p + c * f i q)
  else (if i = p then c * f j p - s * f j q else if i = q then s * f j p + c * f j q else f i j)

theorem jacobiRotateD_reads {D : Mat ℝ} {f : Nat → Nat → ℝ} (h : D.Reads n n f) {p q : Nat}
    (hpq : p < q) (hq : q < n) :
    let t := jacobiAngle (f p p) (f q q) (f p q)
    ∃ D', jacobiRotateD D n p q = .ok (D', Real.cos t, Real.sin t) ∧
      D'.Reads n n (rotT p q (Real.cos t) (Real.sin t) f) := by
  intro t
  have hp : p < n := by omega
  have hne : p ≠ q := by omega
  set c := Real.cos t with hc
  set s := Real.sin t with hs
  obtain ⟨D1, e1, r1⟩ := h.set hp hp (c * c * f p p + s * s * f q q - 2 * s * c * f p q)
  obtain ⟨D2, e2, r2⟩ := r1.set hq hq (s * s * f p p + c * c * f q q + 2 * s * c * f p q)
  obtain ⟨D3, e3, r3⟩ := r2.set hq hp 0
  obtain ⟨D4, e4, r4⟩ := r3.set hp hq 0
  have hloop : ∃ D5, forUp n (fun D i =>
      if i ≠ p ∧ i ≠ q then do
        let aip ← D.get i p
        let aiq ← D.get i q
        let D ← D.set p i (c * aip - s * aiq)
        let D ← D.set i p (c * aip - s * aiq)
        let D ← D.set q i (s * aip + c * aiq)
        D.set i q (s * aip + c * aiq)
      else .ok D) D4 = .ok D5 ∧ D5.Reads n n (fun i j =>
        if ((i = p ∨ i = q) ∧ (j = p ∨ j = q)) ∨ ((i = p ∨ i = q) ∧ j < n) ∨
          ((j = p ∨ j = q) ∧ i < n) then rotT p q c s f i j else f i j) := by
    refine forUp_inv (n := n) (fun k (D : Mat ℝ) => D.Reads n n (fun i j =>
        if ((i = p ∨ i = q) ∧ (j = p ∨ j = q)) ∨ ((i = p ∨ i = q) ∧ j < k) ∨
          ((j = p ∨ j = q) ∧ i < k) then rotT p q c s f i j else f i j)) ?_ D4 ?_
    · intro k D hk hD
      by_cases hkk : k ≠ p ∧ k ≠ q
      · obtain ⟨k1, k2⟩ := hkk
        have g1 := hD.get hk hp
        have g2 := hD.get hk hq
        have n1 : ¬ (((k = p ∨ k = q) ∧ (p = p ∨ p = q)) ∨ ((k = p ∨ k = q) ∧ p < k) ∨
          ((p = p ∨ p = q) ∧ k < k)) := by simp [k1, k2]
        have n2 : ¬ (((k = p ∨ k = q) ∧ (q = p ∨ q = q)) ∨ ((k = p ∨ k = q) ∧ q < k) ∨
          ((q = p ∨ q = q) ∧ k < k)) := by simp [k1, k2]
        rw [if_neg n1] at g1
        rw [if_neg n2] at g2
        rw [if_pos ⟨k1, k2⟩]
        simp only [g1, g2, Res.ok_bind]
        obtain ⟨E1, a1, b1⟩ := hD.set hp hk (c * f k p - s * f k q)
        obtain ⟨E2, a2, b2⟩ := b1.set hk hp (c * f k p - s * f k q)
        obtain ⟨E3, a3, b3⟩ := b2.set hq hk (s * f k p + c * f k q)
        obtain ⟨E4, a4, b4⟩ := b3.set hk hq (s * f k p + c * f k q)
        simp only [a1, a2, a3, Res.ok_bind]
        refine ⟨E4, a4, b4.congr ?_⟩
        intro i j _ _
        have nqp : q ≠ p := hne.symm
        unfold rotT
        by_cases i1 : i = p
        · subst i1
          by_cases j1 : j = i
          · subst j1; simp [Ne.symm k1, hne]
          · by_cases j2 : j = q
            · subst j2; simp [Ne.symm k2, hne, Ne.symm k1]
            · by_cases j3 : j = k
              · subst j3; simp [j1, j2, hne, Ne.symm k1]
              · have : (j < k + 1) ↔ (j < k) := by omega
                simp [j1, j2, j3, this]
        · by_cases i2 : i = q
          · subst i2
            by_cases j1 : j = p
            · subst j1; simp [Ne.symm k1, nqp, Ne.symm k2]
            · by_cases j2 : j = i
              · subst j2; simp [Ne.symm k2, i1]
              · by_cases j3 : j = k
                · subst j3; simp [j1, j2, i1, Ne.symm k2]
                · have : (j < k + 1) ↔ (j < k) := by omega
                  simp [j1, j2, j3, this, i1]
          · by_cases i3 : i = k
            · subst i3
              by_cases j1 : j = p
              · subst j1; simp [i1, i2, hne]
              · by_cases j2 : j = q
                · subst j2; simp [i1, i2, j1]
                · simp [i1, i2, j1, j2]
            · have : (i < k + 1) ↔ (i < k) := by omega
              simp [i1, i2, i3, this]
      · rw [if_neg hkk]
        refine ⟨D, rfl, hD.congr ?_⟩
        intro i j _ _
        have : k = p ∨ k = q := by tauto
        have e1 : (((i = p ∨ i = q) ∧ (j = p ∨ j = q)) ∨ ((i = p ∨ i = q) ∧ j < k) ∨
          ((j = p ∨ j = q) ∧ i < k)) ↔ (((i = p ∨ i = q) ∧ (j = p ∨ j = q)) ∨
            ((i = p ∨ i = q) ∧ j < k + 1) ∨ ((j = p ∨ j = q) ∧ i < k + 1)) := by
          constructor
          · rintro (h | ⟨h1, h2⟩ | ⟨h1, h2⟩)
            · exact Or.inl h
            · exact Or.inr (Or.inl ⟨h1, by omega⟩)
            · exact Or.inr (Or.inr ⟨h1, by omega⟩)
          · rintro (h | ⟨h1, h2⟩ | ⟨h1, h2⟩)
            · exact Or.inl h
            · by_cases e : j = k
              · left; refine ⟨h1, by rw [e]; exact this⟩
              · exact Or.inr (Or.inl ⟨h1, by omega⟩)
            · by_cases e : i = k
              · left; refine ⟨by rw [e]; exact this, h1⟩
              · exact Or.inr (Or.inr ⟨h1, by omega⟩)
        simp only [e1]
    · refine r4.congr ?_
      intro i j _ _
      have nqp : q ≠ p := hne.symm
      unfold rotT
      by_cases i1 : i = p
      · subst i1
        by_cases j1 : j = i
        · subst j1; simp [hne]
        · by_cases j2 : j = q
          · subst j2; simp [nqp]
          · simp [j1, j2]
      · by_cases i2 : i = q
        · subst i2
          by_cases j1 : j = p
          · subst j1; simp [nqp]
          · by_cases j2 : j = i
            · subst j2; simp [i1]
            · simp [j1, j2]
        · simp [i1, i2]
  obtain ⟨D5, e5, r5⟩ := hloop
  refine ⟨D5, ?_, r5.congr ?_⟩
  · unfold jacobiRotateD
    simp only [h.get hp hp, h.get hq hq, h.get hp hq, Res.ok_bind]
    show (do
      let D ← D.set p p (c * c * f p p + s * s * f q q - 2 * s * c * f p q)
      let D ← D.set q q (s * s * f p p + c * c * f q q + 2 * s * c * f p q)
      let D ← D.set q p 0
      let D ← D.set p q 0
      let D ← forUp n (fun D i =>
        if i ≠ p ∧ i ≠ q then do
          let aip ← D.get i p
          let aiq ← D.get i q
          let D ← D.set p i (c * aip - s * aiq)
          let D ← D.set i p (c * aip - s * aiq)
          let D ← D.set q i (s * aip + c * aiq)
          D.set i q (s * aip + c * aiq)
        else .ok D) D
      Res.ok (D, c, s)) = Res.ok (D5, c, s)
    simp only [e1, e2, e3, e4, Res.ok_bind]
    rw [e5]; rfl
  · intro i j hi hj
    have nqp : q ≠ p := hne.symm
    by_cases i1 : i = p ∨ i = q
    · simp [i1, hj]
    · by_cases j1 : j = p ∨ j = q
      · simp [j1, hi]
      · rw [if_neg (by tauto)]
        have a1 : i ≠ p := fun e => i1 (Or.inl e)
        have a2 : i ≠ q := fun e => i1 (Or.inr e)
        have a3 : j ≠ p := fun e => j1 (Or.inl e)
        have a4 : j ≠ q := fun e => j1 (Or.inr e)
        simp [rotT, a1, a2, a3, a4]

theorem jacobiRotateV_reads {V : Mat ℝ} {f : Nat → Nat → ℝ} (h : V.Reads n n f) {p q : Nat}
    (hpq : p < q) (hq : q < n) (c s : ℝ) :
    ∃ V', jacobiRotateV V n p q c s = .ok V' ∧ V'.Reads n n (fun i j =>
      if j = p then c * f i p - s * f i q else if j = q then s * f i p + c * f i q else f i j) := by
  have hp : p < n := by omega
  have hne : q ≠ p := by omega
  unfold jacobiRotateV
  obtain ⟨V', e, r⟩ := forUp_inv (n := n) (body := fun (V : Mat ℝ) i => do
      let e_ip ← V.get i p
      let e_iq ← V.get i q
      let V ← V.set i p (c * e_ip - s * e_iq)
      V.set i q (s * e_ip + c * e_iq))
    (fun k (V : Mat ℝ) => V.Reads n n (fun i j => if i < k then
      (if j = p then c * f i p - s * f i q else if j = q then s * f i p + c * f i q else f i j)
      else f i j))
    (by
      intro k V hk hV
      have g1 := hV.get hk hp
      have g2 := hV.get hk hq
      rw [if_neg (by omega)] at g1 g2
      obtain ⟨E1, a1, b1⟩ := hV.set hk hp (c * f k p - s * f k q)
      obtain ⟨E2, a2, b2⟩ := b1.set hk hq (s * f k p + c * f k q)
      simp only [g1, g2, a1, Res.ok_bind]
      refine ⟨E2, a2, b2.congr ?_⟩
      intro i j _ _
      by_cases i1 : i = k
      · subst i1
        by_cases j1 : j = p
        · subst j1; simp [Ne.symm hne]
        · by_cases j2 : j = q
          · subst j2; simp [hne]
          · simp [j1, j2]
      · have : (i < k + 1) ↔ (i < k) := by omega
        simp [i1, this])
    V (h.congr fun i j _ _ => by simp)
  exact ⟨V', e, r.congr fun i j hi hj => by simp [hi]⟩

/-- What the iterations keep: `V` orthogonal and `V D Vᵀ = M`. -/
structure JInv (M : Matrix (Fin n) (Fin n) ℝ) (D V : Mat ℝ) (F Q : Matrix (Fin n) (Fin n) ℝ) :
    Prop where
  d : D.Is F
  v : V.Is Q
  sym : F.IsSymm
  orth : Q.transpose * Q = 1
  eq : Q * F * Q.transpose = M

theorem jacobiStep (M : Matrix (Fin n) (Fin n) ℝ) (D V : Mat ℝ) (F Q : Matrix (Fin n) (Fin n) ℝ)
    (h : JInv M D V F Q) {p q : Nat} (hpq : p < q) (hq : q < n) :
    ∃ D' V' c s F' Q', jacobiRotateD D n p q = .ok (D', c, s) ∧
      jacobiRotateV V n p q c s = .ok V' ∧ JInv M D' V' F' Q' ∧
      offSq F' = offSq F - 2 * F ⟨p, by omega⟩ ⟨q, hq⟩ ^ 2 := by
  have hp : p < n := by omega
  obtain ⟨D', e1, r1⟩ := jacobiRotateD_reads (h.d.reads 0) hpq hq
  set t := jacobiAngle (ext 0 F p p) (ext 0 F q q) (ext 0 F p q) with ht
  obtain ⟨V', e2, r2⟩ := jacobiRotateV_reads (h.v.reads 0) hpq hq (Real.cos t) (Real.sin t)
  set P : Fin n := ⟨p, hp⟩
  set R : Fin n := ⟨q, hq⟩
  have hPR : P ≠ R := by intro e; have := congrArg Fin.val e; simp [P, R] at this; omega
  set J := rot P R (Real.cos t) (Real.sin t) with hJ
  have hcs : Real.cos t * Real.cos t + Real.sin t * Real.sin t = 1 := by
    have := Real.sin_sq_add_cos_sq t; nlinarith
  have x1 : ext 0 F p p = F P P := by simp [ext, hp, P]
  have x2 : ext 0 F q q = F R R := by simp [ext, hq, R]
  have x3 : ext 0 F p q = F P R := by simp [ext, hp, hq, P, R]
  have ang := angle_zero (F P P) (F R R) (F P R)
  rw [← x1, ← x2, ← x3, ← ht, x1, x2, x3] at ang
  have hD' : D'.Is (J.transpose * F * J) := by
    refine r1.is.congr ?_
    ext i j
    rw [hJ, conj_rot P R hPR _ _ F h.sym, Matrix.of_apply]
    have q1 : ∀ k : Fin n, k = P ↔ k.1 = p := fun k => by simp [P, Fin.ext_iff]
    have q2 : ∀ k : Fin n, k = R ↔ k.1 = q := fun k => by simp [R, Fin.ext_iff]
    have y : ∀ k : Fin n, ext 0 F k p = F k P := fun k => by simp [ext, hp, P]
    have y' : ∀ k : Fin n, ext 0 F k q = F k R := fun k => by simp [ext, hq, R]
    have y'' : ext 0 F i j = F i j := by simp [ext]
    unfold rotT
    simp only [q1, q2, x1, x2, x3, y, y', y'']
    split_ifs <;> first | rfl | exact ang.symm
  have hV' : V'.Is (Q * J) := by
    refine r2.is.congr ?_
    ext i j
    rw [hJ, mul_rot P R hPR, Matrix.of_apply]
    have q1 : ∀ k : Fin n, k = P ↔ k.1 = p := fun k => by simp [P, Fin.ext_iff]
    have q2 : ∀ k : Fin n, k = R ↔ k.1 = q := fun k => by simp [R, Fin.ext_iff]
    have y : ext 0 Q i p = Q i P := by simp [ext, hp, P]
    have y' : ext 0 Q i q = Q i R := by simp [ext, hq, R]
    have y'' : ext 0 Q i j = Q i j := by simp [ext]
    simp only [q1, q2, y, y', y'']
  have o1 : J.transpose * J = 1 := rot_orth P R hPR _ _ hcs
  have o2 : J * J.transpose = 1 := rot_orth' P R hPR _ _ hcs
  refine ⟨D', V', _, _, J.transpose * F * J, Q * J, e1, e2, ⟨hD', hV', ?_, ?_, ?_⟩, ?_⟩
  · unfold Matrix.IsSymm
    rw [Matrix.transpose_mul, Matrix.transpose_mul, Matrix.transpose_transpose, h.sym.eq,
      Matrix.mul_assoc]
  · rw [Matrix.transpose_mul]
    calc J.transpose * Q.transpose * (Q * J) = J.transpose * (Q.transpose * Q) * J := by
          simp only [Matrix.mul_assoc]
      _ = 1 := by rw [h.orth, Matrix.mul_one, o1]
  · rw [Matrix.transpose_mul]
    calc Q * J * (J.transpose * F * J) * (J.transpose * Q.transpose)
        = Q * (J * J.transpose) * F * (J * J.transpose) * Q.transpose := by
          simp only [Matrix.mul_assoc]
      _ = M := by rw [o2, Matrix.mul_one, Matrix.mul_one, h.eq]
  · exact offSq_rot P R hPR _ _ hcs F h.sym ang

theorem jacobiLoop_spec (M : Matrix (Fin n) (Fin n) ℝ) (tol : ℝ) (ht : 0 < tol) (k : Nat)
    (D V : Mat ℝ) (F Q : Matrix (Fin n) (Fin n) ℝ) (h : JInv M D V F Q) :
    ∃ D' V' F' Q', jacobiLoop n tol k (D, V) = .ok (D', V') ∧ JInv M D' V' F' Q' ∧
      ((∀ i j, i ≠ j → |F' i j| < tol) ∨
        (2 ≤ n ∧ offSq F' ≤ (1 - 2 / (n * (n - 1) : ℝ)) ^ k * offSq F)) ∨
      k = 0 ∧ jacobiLoop n tol k (D, V) = .ok (D, V) := by
  induction k generalizing D V F Q with
  | zero => exact ⟨D, V, F, Q, Or.inr ⟨rfl, rfl⟩⟩
  | succ k ih =>
    obtain ⟨m, p, q, e, m0, hmax, hm⟩ := jacobiPivot_spec (h.d.reads 0)
    have hmaxF : ∀ i j : Fin n, i ≠ j → |F i j| ≤ m := by
      have up : ∀ i j : Fin n, i.1 < j.1 → |F i j| ≤ m := by
        intro i j hij
        have := hmax i j hij j.2
        simpa [ext] using this
      intro i j hij
      rcases Nat.lt_or_gt_of_ne (fun e => hij (Fin.ext e)) with hl | hl
      · exact up i j hl
      · rw [← h.sym.apply]; exact up j i hl
    unfold jacobiLoop
    rw [e, Res.ok_bind]
    by_cases hc : m < tol
    · refine ⟨D, V, F, Q, Or.inl ⟨?_, h, Or.inl fun i j hij => lt_of_le_of_lt (hmaxF i j hij) hc⟩⟩
      simp [hc]
    · have hmpos : 0 < m := lt_of_lt_of_le ht (not_lt.mp hc)
      rcases hm with hm | ⟨hpq, hq, hm⟩
      · exact absurd hm hmpos.ne'
      · obtain ⟨D1, V1, c, s, F1, Q1, e1, e2, hinv, hoff⟩ := jacobiStep M D V F Q h hpq hq
        simp only [hc, if_false, e1, e2, Res.ok_bind]
        have hFm : m ^ 2 = F ⟨p, by omega⟩ ⟨q, hq⟩ ^ 2 := by
          rw [hm, sq_abs]
          have hp : p < n := by omega
          simp [ext, hp, hq]
        have hn2 : 2 ≤ n := by omega
        have hnR : (2 : ℝ) ≤ n := by exact_mod_cast hn2
        have hN : (0 : ℝ) < n * (n - 1) := mul_pos (by linarith) (by linarith)
        have hle := offSq_le F m hmaxF
        have hdec : offSq F1 ≤ (1 - 2 / (n * (n - 1) : ℝ)) * offSq F := by
          rw [hoff, ← hFm]
          have : offSq F / (n * (n - 1) : ℝ) ≤ m ^ 2 := by
            rw [div_le_iff₀ hN]; linarith
          have e : (1 - 2 / (n * (n - 1) : ℝ)) * offSq F =
              offSq F - 2 * (offSq F / (n * (n - 1) : ℝ)) := by ring
          rw [e]; linarith
        have hrho : (0 : ℝ) ≤ 1 - 2 / (n * (n - 1) : ℝ) := by
          rw [sub_nonneg, div_le_one hN]; nlinarith
        obtain ⟨D2, V2, F2, Q2, h2⟩ := ih D1 V1 F1 Q1 hinv
        rcases h2 with ⟨e3, i3, h3⟩ | ⟨hk, e3⟩
        · refine ⟨D2, V2, F2, Q2, Or.inl ⟨e3, i3, ?_⟩⟩
          rcases h3 with h3 | ⟨_, h3⟩
          · exact Or.inl h3
          · right
            refine ⟨hn2, h3.trans ?_⟩
            rw [pow_succ, mul_assoc]
            exact mul_le_mul_of_nonneg_left hdec (pow_nonneg hrho k)
        · refine ⟨D1, V1, F1, Q1, Or.inl ⟨e3, hinv, Or.inr ⟨hn2, ?_⟩⟩⟩
          subst hk
          simpa using hdec

end Mat

end TinyDIP
