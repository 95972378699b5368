import Verif.Model.OtsuFlt
import Verif.Lemmas.Hist
import Verif.Lemmas.FilterFlt

/-!
# Lemmas on Otsu's threshold in floating arithmetic
-/

namespace TinyDIP.Hist

open TinyDIP Rnd Filter

variable {p : Nat}

/-- Entries that are multiples of a power of two, small enough that all sums have `p` bits. -/
structure Exact (p : Nat) (h : List ℝ) (e : ℤ) : Prop where
  hp : 1 ≤ p
  nonneg : ∀ i, 0 ≤ h.getD i 0
  quant : ∀ i, Quant e (h.getD i 0)
  total : (∑ i ∈ Finset.range h.length, h.getD i 0) * h.length ≤ 2 ^ p * (2 : ℝ) ^ e
  len : h.length ≤ 2 ^ p

namespace Exact

variable {h : List ℝ} {e : ℤ}

theorem idx (x : Exact p h e) {i : Nat} (hi : i < h.length) : fl p (i : ℝ) = i :=
  fl_nat x.hp (by have := x.len; omega)

theorem term (x : Exact p h e) (i : Nat) : Quant e (h.getD i 0 * (i : ℝ)) := by
  have := (x.quant i).mul (y := (i : ℝ)) (e' := 0) ⟨i, by simp⟩
  simpa using this

/-- A sum over some of the levels has `p` bits. -/
theorem sum_le (x : Exact p h e) {S : Finset Nat} (hS : S ⊆ Finset.range h.length) (hl : 0 < h.length) :
    ∑ i ∈ S, h.getD i 0 ≤ 2 ^ p * (2 : ℝ) ^ e := by
  have h1 : ∑ i ∈ S, h.getD i 0 ≤ ∑ i ∈ Finset.range h.length, h.getD i 0 :=
    Finset.sum_le_sum_of_subset_of_nonneg hS fun i _ _ => x.nonneg i
  have h2 : 0 ≤ ∑ i ∈ Finset.range h.length, h.getD i 0 := Finset.sum_nonneg fun i _ => x.nonneg i
  have h3 : (1 : ℝ) ≤ h.length := by exact_mod_cast hl
  nlinarith [x.total]

theorem msum_le (x : Exact p h e) {S : Finset Nat} (hS : S ⊆ Finset.range h.length) :
    ∑ i ∈ S, h.getD i 0 * (i : ℝ) ≤ 2 ^ p * (2 : ℝ) ^ e := by
  have h1 : ∑ i ∈ S, h.getD i 0 * (i : ℝ) ≤ ∑ i ∈ Finset.range h.length, h.getD i 0 * (i : ℝ) :=
    Finset.sum_le_sum_of_subset_of_nonneg hS fun i _ _ => mul_nonneg (x.nonneg i) (Nat.cast_nonneg i)
  refine h1.trans (le_trans ?_ x.total)
  rw [Finset.sum_mul]
  refine Finset.sum_le_sum fun i hi => mul_le_mul_of_nonneg_left ?_ (x.nonneg i)
  exact_mod_cast (Finset.mem_range.1 hi).le

theorem fl_sum (x : Exact p h e) {S : Finset Nat} (hS : S ⊆ Finset.range h.length) (hl : 0 < h.length) :
    fl p (∑ i ∈ S, h.getD i 0) = ∑ i ∈ S, h.getD i 0 := by
  refine (Quant.sum fun i _ => x.quant i).fl x.hp ?_
  rw [abs_of_nonneg (Finset.sum_nonneg fun i _ => x.nonneg i)]
  exact x.sum_le hS hl

theorem fl_msum (x : Exact p h e) {S : Finset Nat} (hS : S ⊆ Finset.range h.length) :
    fl p (∑ i ∈ S, h.getD i 0 * (i : ℝ)) = ∑ i ∈ S, h.getD i 0 * (i : ℝ) := by
  refine (Quant.sum fun i _ => x.term i).fl x.hp ?_
  rw [abs_of_nonneg (Finset.sum_nonneg fun i _ => mul_nonneg (x.nonneg i) (Nat.cast_nonneg i))]
  exact x.msum_le hS

theorem fl_term (x : Exact p h e) {i : Nat} (hi : i < h.length) :
    fl p (h.getD i 0 * fl p (i : ℝ)) = h.getD i 0 * (i : ℝ) := by
  rw [x.idx hi]
  have := x.fl_msum (S := {i}) (by simpa using hi)
  simpa using this

theorem totals (x : Exact p h e) : otsuTotalsF p h =
    (∑ i ∈ Finset.range h.length, h.getD i 0, ∑ i ∈ Finset.range h.length, h.getD i 0 * (i : ℝ)) := by
  have key : ∀ n, n ≤ h.length → (List.range n).foldl (fun (s : ℝ × ℝ) i =>
      (fl p (s.1 + h.getD i 0), fl p (s.2 + fl p (h.getD i 0 * fl p (i : ℝ))))) (0, 0) =
      (∑ i ∈ Finset.range n, h.getD i 0, ∑ i ∈ Finset.range n, h.getD i 0 * (i : ℝ)) := by
    intro n
    induction n with
    | zero => simp
    | succ n ih =>
      intro hn
      have hS : Finset.range (n + 1) ⊆ Finset.range h.length := Finset.range_mono hn
      rw [List.range_succ, List.foldl_append, ih (by omega)]
      simp only [List.foldl_cons, List.foldl_nil]
      rw [x.fl_term (by omega), ← Finset.sum_range_succ, ← Finset.sum_range_succ, x.fl_sum hS (by omega), x.fl_msum hS]
  exact key _ (Nat.le_refl _)

/-- The computed value of a split. -/
noncomputable def value (p : Nat) (h : List ℝ) (k : Nat) : ℝ :=
  let c := fl p (fl p (lowMean h k) - fl p (highMean h k))
  fl p (fl p (fl p (lowWeight h k * highWeight h k) * c) * c)

/-- The state after the levels below `n`. -/
structure Inv (p : Nat) (h : List ℝ) (n : Nat) (s : OtsuState ℝ) : Prop where
  w1 : s.w1 = ∑ i ∈ Finset.range n, h.getD i 0
  m1 : s.m1 = ∑ i ∈ Finset.range n, h.getD i 0 * (i : ℝ)
  w2 : s.w2 = ∑ i ∈ Finset.Ico n h.length, h.getD i 0
  m2 : s.m2 = ∑ i ∈ Finset.Ico n h.length, h.getD i 0 * (i : ℝ)
  best : (s.ssMax = -1000000 ∧ ∀ k, k < n → ¬ Splits h k) ∨
    (s.maxInd < n ∧ Splits h s.maxInd ∧ s.ssMax = value p h s.maxInd ∧
      ∀ k, k < n → Splits h k → value p h k ≤ s.ssMax)

/-- The difference of the means, computed without regard to its sign. -/
theorem value_eq (k : Nat) : value p h k =
    fl p (fl p (fl p (lowWeight h k * highWeight h k) * |fl p (fl p (lowMean h k) - fl p (highMean h k))|) *
      |fl p (fl p (lowMean h k) - fl p (highMean h k))|) := by
  unfold value
  simp only
  generalize fl p (fl p (lowMean h k) - fl p (highMean h k)) = c
  rcases abs_choice c with hc | hc
  · rw [hc]
  · rw [hc, mul_neg, fl_neg, mul_neg, fl_neg, neg_mul, fl_neg, neg_neg]

theorem value_nonneg {k : Nat} (hs : Splits h k) : 0 ≤ value p h k := by
  rw [value_eq]
  exact fl_nonneg (mul_nonneg (fl_nonneg (mul_nonneg (fl_nonneg (mul_nonneg hs.1.le hs.2.le)) (abs_nonneg _))) (abs_nonneg _))

theorem step (x : Exact p h e) {n : Nat} (hn : n < h.length) {s : OtsuState ℝ} (hi : Inv p h n s) :
    Inv p h (n + 1) (otsuStepF p h s n) := by
  obtain ⟨w1, m1, w2, m2, best⟩ := hi
  have hS : Finset.range (n + 1) ⊆ Finset.range h.length := Finset.range_mono hn
  have hI : Finset.Ico (n + 1) h.length ⊆ Finset.range h.length := by
    intro i hi; rw [Finset.mem_Ico] at hi; exact Finset.mem_range.2 hi.2
  have a1 : fl p (s.w1 + h.getD n 0) = lowWeight h n := by
    rw [w1, ← Finset.sum_range_succ, x.fl_sum hS (by omega)]; rfl
  have a2 : fl p (s.m1 + fl p (h.getD n 0 * fl p (n : ℝ))) = ∑ i ∈ Finset.range (n + 1), h.getD i 0 * (i : ℝ) := by
    rw [x.fl_term hn, m1, ← Finset.sum_range_succ, x.fl_msum hS]
  have a3 : fl p (s.w2 - h.getD n 0) = highWeight h n := by
    rw [w2, Finset.sum_eq_sum_Ico_succ_bot hn, add_sub_cancel_left, x.fl_sum hI (by omega)]; rfl
  have a4 : fl p (s.m2 - fl p (h.getD n 0 * fl p (n : ℝ))) = ∑ i ∈ Finset.Ico (n + 1) h.length, h.getD i 0 * (i : ℝ) := by
    rw [x.fl_term hn, m2, Finset.sum_eq_sum_Ico_succ_bot hn, add_sub_cancel_left, x.fl_msum hI]
  have p1 : 0 ≤ lowWeight h n := Finset.sum_nonneg fun i _ => x.nonneg i
  have p2 : 0 ≤ highWeight h n := Finset.sum_nonneg fun i _ => x.nonneg i
  unfold otsuStepF
  simp only [a1, a2, a3, a4]
  by_cases hz : lowWeight h n = 0 ∨ highWeight h n = 0
  · rw [if_pos hz]
    have hns : ¬ Splits h n := by
      rintro ⟨q1, q2⟩
      rcases hz with hz | hz
      · exact absurd hz q1.ne'
      · exact absurd hz q2.ne'
    refine ⟨rfl, rfl, rfl, rfl, ?_⟩
    rcases best with ⟨b1, b2⟩ | ⟨b1, b2, b3, b4⟩
    · refine .inl ⟨b1, fun k hk => ?_⟩
      by_cases hkn : k < n
      · exact b2 k hkn
      · rw [show k = n by omega]; exact hns
    · refine .inr ⟨Nat.lt_succ_of_lt b1, b2, b3, fun k hk hs => ?_⟩
      by_cases hkn : k < n
      · exact b4 k hkn hs
      · rw [show k = n by omega] at hs; exact absurd hs hns
  · rw [if_neg hz]
    have hsp : Splits h n := by
      rw [not_or] at hz
      exact ⟨lt_of_le_of_ne p1 (Ne.symm hz.1), lt_of_le_of_ne p2 (Ne.symm hz.2)⟩
    have hv : fl p (fl p (fl p (lowWeight h n * highWeight h n) *
        fl p (fl p ((∑ i ∈ Finset.range (n + 1), h.getD i 0 * (i : ℝ)) / lowWeight h n) -
          fl p ((∑ i ∈ Finset.Ico (n + 1) h.length, h.getD i 0 * (i : ℝ)) / highWeight h n))) *
        fl p (fl p ((∑ i ∈ Finset.range (n + 1), h.getD i 0 * (i : ℝ)) / lowWeight h n) -
          fl p ((∑ i ∈ Finset.Ico (n + 1) h.length, h.getD i 0 * (i : ℝ)) / highWeight h n))) = value p h n := rfl
    rw [hv]
    by_cases hg : value p h n > s.ssMax
    · rw [if_pos hg]
      refine ⟨rfl, rfl, rfl, rfl, .inr ⟨Nat.lt_succ_self n, hsp, rfl, fun k hk hs => ?_⟩⟩
      by_cases hkn : k < n
      · rcases best with ⟨b1, b2⟩ | ⟨b1, b2, b3, b4⟩
        · exact absurd hs (b2 k hkn)
        · exact (b4 k hkn hs).trans hg.le
      · rw [show k = n by omega]
    · rw [if_neg hg]
      refine ⟨rfl, rfl, rfl, rfl, ?_⟩
      rcases best with ⟨b1, b2⟩ | ⟨b1, b2, b3, b4⟩
      · exfalso
        have := value_nonneg (p := p) hsp
        rw [b1] at hg
        exact hg (by show (-1000000 : ℝ) < _; linarith)
      · refine .inr ⟨Nat.lt_succ_of_lt b1, b2, b3, fun k hk hs => ?_⟩
        by_cases hkn : k < n
        · exact b4 k hkn hs
        · rw [show k = n by omega]; exact not_lt.1 hg

theorem final (x : Exact p h e) :
    ((∀ k, k < h.length → ¬ Splits h k) → otsuF p h = h.length) ∧
    ((∃ k, k < h.length ∧ Splits h k) → otsuF p h < h.length ∧ Splits h (otsuF p h) ∧
      ∀ k, k < h.length → Splits h k → value p h k ≤ value p h (otsuF p h)) := by
  have inv : ∀ n, n ≤ h.length → Inv p h n ((List.range n).foldl (otsuStepF p h)
      ⟨0, (otsuTotalsF p h).1, 0, (otsuTotalsF p h).2, -1000000, 0⟩) := by
    intro n
    induction n with
    | zero =>
      intro _
      rw [x.totals]
      exact ⟨by simp, by simp, by simp, by simp, .inl ⟨rfl, by simp⟩⟩
    | succ n ih =>
      intro hn
      rw [List.range_succ, List.foldl_append]
      exact x.step (by omega) (ih (by omega))
  have hi := inv h.length (Nat.le_refl _)
  unfold otsuF
  simp only
  obtain ⟨s, hs⟩ : ∃ s, s = (List.range h.length).foldl (otsuStepF p h)
      ⟨0, (otsuTotalsF p h).1, 0, (otsuTotalsF p h).2, -1000000, 0⟩ := ⟨_, rfl⟩
  rw [← hs] at hi ⊢
  rcases hi.best with ⟨b1, b2⟩ | ⟨b1, b2, b3, b4⟩
  · rw [if_pos b1]
    refine ⟨fun _ => rfl, ?_⟩
    rintro ⟨k, hk, hsp⟩
    exact absurd hsp (b2 k hk)
  · have hne : ¬ s.ssMax = -1000000 := by
      rw [b3]
      have := value_nonneg (p := p) b2
      intro he
      rw [he] at this
      norm_num at this
    rw [if_neg hne]
    exact ⟨fun hno => absurd b2 (hno _ b1), fun _ => ⟨b1, b2, fun k hk hs' => b3 ▸ b4 k hk hs'⟩⟩

/-- The means differ by at least one level. -/
theorem means_apart (x : Exact p h e) {k : Nat} (hs : Splits h k) :
    0 ≤ lowMean h k ∧ lowMean h k ≤ k ∧ (k : ℝ) + 1 ≤ highMean h k ∧ highMean h k ≤ h.length := by
  obtain ⟨h1, h2⟩ := hs
  refine ⟨div_nonneg (Finset.sum_nonneg fun i _ => mul_nonneg (x.nonneg i) (Nat.cast_nonneg i)) h1.le, ?_, ?_, ?_⟩
  · unfold lowMean
    rw [div_le_iff₀ h1]
    unfold lowWeight
    rw [Finset.mul_sum]
    refine Finset.sum_le_sum fun i hi => ?_
    rw [mul_comm]
    refine mul_le_mul_of_nonneg_right ?_ (x.nonneg i)
    exact_mod_cast Nat.lt_succ_iff.1 (Finset.mem_range.1 hi)
  · unfold highMean
    rw [le_div_iff₀ h2]
    unfold highWeight
    rw [Finset.mul_sum]
    refine Finset.sum_le_sum fun i hi => ?_
    rw [mul_comm (h.getD i 0)]
    refine mul_le_mul_of_nonneg_right ?_ (x.nonneg i)
    exact_mod_cast (Finset.mem_Ico.1 hi).1
  · unfold highMean
    rw [div_le_iff₀ h2]
    unfold highWeight
    rw [Finset.mul_sum]
    refine Finset.sum_le_sum fun i hi => ?_
    rw [mul_comm (h.getD i 0)]
    refine mul_le_mul_of_nonneg_right ?_ (x.nonneg i)
    exact_mod_cast (Finset.mem_Ico.1 hi).2.le

/-- The computed value of a split is near the true one. -/
theorem value_near (x : Exact p h e) {k : Nat} (hk : k < h.length) (hs : Splits h k)
    (hu : 2 * h.length * ulp1 p ≤ 1) :
    Near ((1 - 2 * h.length * ulp1 p) ^ 2 * low p ^ 5) (betweenVar h k) (value p h k) := by
  have hp := x.hp
  obtain ⟨a0, a1, b0, b1⟩ := x.means_apart hs
  have hu0 := ulp1_pos (p := p)
  have hl0 := (low_pos hp).le
  generalize hc1 : lowMean h k = c1 at a0 a1
  generalize hc2 : highMean h k = c2 at b0 b1
  have hkn : (k : ℝ) + 1 ≤ h.length := by exact_mod_cast hk
  have e1 : |fl p c1 - c1| ≤ h.length * ulp1 p := by
    refine (fl_err c1).trans ?_
    rw [abs_of_nonneg a0, mul_comm]
    exact mul_le_mul_of_nonneg_right (by linarith) hu0.le
  have hc20 : 0 ≤ c2 := by linarith [Nat.cast_nonneg (α := ℝ) k]
  have e2 : |fl p c2 - c2| ≤ h.length * ulp1 p := by
    refine (fl_err c2).trans ?_
    rw [abs_of_nonneg hc20, mul_comm]
    exact mul_le_mul_of_nonneg_right b1 hu0.le
  have hd1 : (1 : ℝ) ≤ c2 - c1 := by linarith
  -- the difference of the rounded means
  have nd : Near (1 - 2 * h.length * ulp1 p) (c2 - c1) |fl p c1 - fl p c2| := by
    have hq : |(|fl p c1 - fl p c2|) - (c2 - c1)| ≤ 2 * h.length * ulp1 p := by
      have e3 : c2 - c1 = |c1 - c2| := by rw [abs_sub_comm, abs_of_nonneg (by linarith)]
      rw [e3]
      refine (abs_abs_sub_abs_le _ _).trans ?_
      have : fl p c1 - fl p c2 - (c1 - c2) = (fl p c1 - c1) - (fl p c2 - c2) := by ring
      rw [this]
      refine (abs_sub _ _).trans ?_
      linarith
    have hq := abs_le.1 hq
    have hη : (0 : ℝ) ≤ 2 * h.length * ulp1 p := by positivity
    generalize 2 * (h.length : ℝ) * ulp1 p = η at *
    refine ⟨by linarith, abs_nonneg _, ?_, ?_⟩
    · nlinarith
    · have := abs_nonneg (fl p c1 - fl p c2)
      nlinarith
  have nc : Near ((1 - 2 * h.length * ulp1 p) * low p) (c2 - c1) |fl p (fl p c1 - fl p c2)| := by
    have h1 : |fl p (fl p c1 - fl p c2)| = fl p |fl p c1 - fl p c2| := by
      rcases le_total 0 (fl p c1 - fl p c2) with h0 | h0
      · rw [abs_of_nonneg h0, abs_of_nonneg (fl_nonneg h0)]
      · rw [abs_of_nonpos h0, fl_neg, abs_of_nonpos]
        have := fl_nonneg (p := p) (neg_nonneg.2 h0)
        rw [fl_neg] at this
        linarith
    rw [h1]
    exact nd.trans (by linarith) hl0 (Near.fl hp nd.2.1)
  have hη0 : 0 ≤ 1 - 2 * (h.length : ℝ) * ulp1 p := by linarith
  have hr0 : 0 ≤ (1 - 2 * h.length * ulp1 p) * low p := mul_nonneg hη0 hl0
  rw [value_eq, hc1, hc2]
  generalize |fl p (fl p c1 - fl p c2)| = c at nc
  have hw : Near (low p) (lowWeight h k * highWeight h k) (fl p (lowWeight h k * highWeight h k)) :=
    Near.fl hp (mul_nonneg hs.1.le hs.2.le)
  have n1 := hw.mul hl0 hr0 nc
  have n2 := n1.trans (mul_nonneg hl0 hr0) hl0 (Near.fl hp n1.2.1)
  have n3 := n2.mul (mul_nonneg (mul_nonneg hl0 hr0) hl0) hr0 nc
  have n4 := n3.trans (mul_nonneg (mul_nonneg (mul_nonneg hl0 hr0) hl0) hr0) hl0 (Near.fl hp n3.2.1)
  have hb : betweenVar h k = lowWeight h k * highWeight h k * (c2 - c1) * (c2 - c1) := by
    unfold betweenVar; rw [hc1, hc2]; ring
  rw [hb]
  refine n4.weaken (le_of_eq ?_)
  ring

theorem bern {a b : ℝ} (ha : 0 ≤ a) (hb : 0 ≤ b) : 1 - (a + b) ≤ (1 - a) * (1 - b) := by nlinarith

theorem factor_ge {u n : ℝ} (hu : 0 ≤ u) (hn : 0 ≤ n) (h1 : 2 * n * u ≤ 1) (h2 : u ≤ 1) :
    1 - (8 * n + 10) * u ≤ ((1 - 2 * n * u) ^ 2 * (1 - u) ^ 5) ^ 2 := by
  have b1 := one_add_mul_le_pow (a := -(2 * n * u)) (by linarith) 4
  have b2 := one_add_mul_le_pow (a := -u) (by linarith) 10
  have e : ((1 - 2 * n * u) ^ 2 * (1 - u) ^ 5) ^ 2 = (1 + -(2 * n * u)) ^ 4 * (1 + -u) ^ 10 := by ring
  rw [e]
  push_cast at b1 b2
  have c1 : 0 ≤ (1 + -(2 * n * u)) ^ 4 := by positivity
  have c2 : 0 ≤ (1 + -u) ^ 10 := by positivity
  have hnu : 0 ≤ n * u := mul_nonneg hn hu
  by_cases hneg : 1 - (8 * n + 10) * u ≤ 0
  · exact hneg.trans (mul_nonneg c1 c2)
  · push Not at hneg
    have d1 : 0 ≤ 1 - 8 * (n * u) := by nlinarith
    have d2 : 0 ≤ 1 - 10 * u := by nlinarith
    have := mul_le_mul (show 1 - 8 * (n * u) ≤ (1 + -(2 * n * u)) ^ 4 by linarith)
      (show 1 - 10 * u ≤ (1 + -u) ^ 10 by linarith) d2 c1
    nlinarith

/-- The threshold separates almost as well as the best. -/
theorem nearly_best (x : Exact p h e) {k t : Nat} (hk : k < h.length) (hs : Splits h k) (ht : t < h.length)
    (hst : Splits h t) (hv : value p h k ≤ value p h t) :
    (1 - (8 * h.length + 10) * ulp1 p) * betweenVar h k ≤ betweenVar h t := by
  have hu0 := (ulp1_pos (p := p)).le
  have hb := betweenVar_nonneg hs
  have hbt := betweenVar_nonneg hst
  by_cases hu : 2 * (h.length : ℝ) * ulp1 p ≤ 1
  · have n1 := x.value_near hk hs hu
    have n2 := x.value_near ht hst hu
    have f := factor_ge hu0 (Nat.cast_nonneg h.length) hu (by have := ulp1_le_half x.hp; linarith)
    have hR : 0 ≤ (1 - 2 * (h.length : ℝ) * ulp1 p) ^ 2 * low p ^ 5 := by
      have := (low_pos x.hp).le
      positivity
    have hlow : (1 - 2 * (h.length : ℝ) * ulp1 p) ^ 2 * (1 - ulp1 p) ^ 5 =
        (1 - 2 * (h.length : ℝ) * ulp1 p) ^ 2 * low p ^ 5 := rfl
    rw [hlow] at f
    generalize (1 - 2 * (h.length : ℝ) * ulp1 p) ^ 2 * low p ^ 5 = R at *
    calc (1 - (8 * h.length + 10) * ulp1 p) * betweenVar h k ≤ R ^ 2 * betweenVar h k := mul_le_mul_of_nonneg_right f hb
      _ = R * (R * betweenVar h k) := by ring
      _ ≤ R * value p h t := mul_le_mul_of_nonneg_left (n1.2.2.1.trans hv) hR
      _ ≤ betweenVar h t := n2.2.2.2
  · push Not at hu
    refine le_trans (mul_nonpos_of_nonpos_of_nonneg ?_ hb) hbt
    nlinarith

end Exact

end TinyDIP.Hist
