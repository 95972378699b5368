import Verif.Model.Rounding
import Mathlib.Tactic.Linarith
import Mathlib.Tactic.Ring
import Mathlib.Tactic.FieldSimp
import Mathlib.Tactic.Positivity
import Mathlib.Tactic.NormNum
import Mathlib.Algebra.Order.Field.Power

/-!
# Lemmas on rounding
-/

namespace TinyDIP.Rnd

theorem roundEven_int (n : ℤ) : roundEven n = n := by
  unfold roundEven
  rw [if_pos (by simp)]; simp

theorem roundEven_err (x : ℝ) : |(roundEven x : ℝ) - x| ≤ 1 / 2 := by
  have h1 := Int.floor_le x
  have h2 := Int.lt_floor_add_one x
  unfold roundEven
  rw [abs_le]
  split_ifs with a b c
  · constructor <;> linarith
  · push_cast; constructor <;> linarith
  · constructor <;> linarith
  · push_cast; constructor <;> linarith

theorem roundEven_mono {x y : ℝ} (h : x ≤ y) : roundEven x ≤ roundEven y := by
  have hf : ⌊x⌋ ≤ ⌊y⌋ := Int.floor_le_floor h
  have hx : roundEven x = ⌊x⌋ ∨ roundEven x = ⌊x⌋ + 1 := by unfold roundEven; split_ifs <;> simp
  have hy : roundEven y = ⌊y⌋ ∨ roundEven y = ⌊y⌋ + 1 := by unfold roundEven; split_ifs <;> simp
  rcases hf.lt_or_eq with hlt | heq
  · omega
  · unfold roundEven
    rw [heq]
    have hd : x - ⌊y⌋ ≤ y - ⌊y⌋ := by linarith
    split_ifs <;> first | omega | (exfalso; linarith)

theorem roundEven_le {x : ℝ} {n : ℤ} (h : x ≤ n) : roundEven x ≤ n := by
  have := roundEven_mono h
  rwa [roundEven_int] at this

theorem le_roundEven {x : ℝ} {n : ℤ} (h : (n : ℝ) ≤ x) : n ≤ roundEven x := by
  have := roundEven_mono h
  rwa [roundEven_int] at this

theorem roundEven_neg (x : ℝ) : roundEven (-x) = -roundEven x := by
  by_cases hx : (⌊x⌋ : ℝ) = x
  · have e1 := roundEven_int ⌊x⌋
    have e2 := roundEven_int (-⌊x⌋)
    push_cast at e2
    rw [hx] at e1 e2
    rw [e1, e2]
  · have h1 : (⌊x⌋ : ℝ) < x := lt_of_le_of_ne (Int.floor_le x) hx
    have h2 := Int.lt_floor_add_one x
    have hn : ⌊-x⌋ = -⌊x⌋ - 1 := by
      rw [Int.floor_eq_iff]; push_cast; constructor <;> linarith
    unfold roundEven
    rw [hn]
    push_cast
    split_ifs <;> first | omega | (exfalso; linarith)

variable {p : Nat}

theorem fl_zero : fl p 0 = 0 := by
  unfold fl
  rw [zero_div]
  have := roundEven_int 0
  simp only [Int.cast_zero] at this
  rw [this]; simp

theorem fl_neg (x : ℝ) : fl p (-x) = -fl p x := by
  unfold fl
  rw [abs_neg, neg_div, roundEven_neg]
  push_cast; ring

theorem log_eq {x : ℝ} {e : ℤ} (h1 : (2 : ℝ) ^ e ≤ x) (h2 : x < (2 : ℝ) ^ (e + 1)) : Int.log 2 x = e := by
  have hx : 0 < x := lt_of_lt_of_le (by positivity) h1
  have a : e ≤ Int.log 2 x := (Int.zpow_le_iff_le_log (by norm_num) hx).1 (by exact_mod_cast h1)
  have b : Int.log 2 x < e + 1 := (Int.lt_zpow_iff_log_lt (by norm_num) hx).1 (by exact_mod_cast h2)
  omega

theorem log_spec {x : ℝ} (hx : 0 < x) : (2 : ℝ) ^ Int.log 2 x ≤ x ∧ x < (2 : ℝ) ^ (Int.log 2 x + 1) :=
  ⟨by exact_mod_cast Int.zpow_log_le_self (b := 2) (by norm_num) hx,
    by exact_mod_cast Int.lt_zpow_succ_log_self (b := 2) (by norm_num) x⟩

/-- The value of `fl` for a number of known magnitude. -/
theorem fl_eq {x : ℝ} {e : ℤ} (h1 : (2 : ℝ) ^ e ≤ |x|) (h2 : |x| < (2 : ℝ) ^ (e + 1)) :
    fl p x = roundEven (x / (2 : ℝ) ^ (e + 1 - p)) * (2 : ℝ) ^ (e + 1 - p) := by
  unfold fl; rw [log_eq h1 h2]

/-- The value of `fl` by naming the significand. -/
theorem fl_eq_of {x : ℝ} {e m : ℤ} (h1 : (2 : ℝ) ^ e ≤ |x|) (h2 : |x| < (2 : ℝ) ^ (e + 1))
    (hm : roundEven (x / (2 : ℝ) ^ (e + 1 - p)) = m) : fl p x = m * (2 : ℝ) ^ (e + 1 - p) := by
  rw [fl_eq h1 h2, hm]

theorem roundEven_eq {x : ℝ} {m : ℤ} (h : |x - m| < 1 / 2) : roundEven x = m := by
  have h1 := roundEven_err x
  have h2 : |(roundEven x : ℝ) - m| < 1 := by
    calc |(roundEven x : ℝ) - m| = |((roundEven x : ℝ) - x) + (x - m)| := by ring_nf
      _ ≤ |(roundEven x : ℝ) - x| + |x - m| := abs_add_le _ _
      _ < 1 := by linarith
  have h3 : |roundEven x - m| < 1 := by exact_mod_cast h2
  have := Int.abs_lt_one_iff.1 h3
  omega

/-- Rounding changes a number by at most one part in `2 ^ p`. -/
theorem fl_err (x : ℝ) : |fl p x - x| ≤ (2 : ℝ) ^ (-(p : ℤ)) * |x| := by
  by_cases hx : x = 0
  · subst hx; rw [fl_zero]; simp
  have hpos : 0 < |x| := abs_pos.2 hx
  obtain ⟨l1, -⟩ := log_spec hpos
  have hu : (0 : ℝ) < (2 : ℝ) ^ (Int.log 2 |x| + 1 - p) := by positivity
  have h := roundEven_err (x / (2 : ℝ) ^ (Int.log 2 |x| + 1 - p))
  have e : fl p x - x = (roundEven (x / (2 : ℝ) ^ (Int.log 2 |x| + 1 - p)) -
      x / (2 : ℝ) ^ (Int.log 2 |x| + 1 - p)) * (2 : ℝ) ^ (Int.log 2 |x| + 1 - p) := by
    unfold fl; field_simp
  rw [e, abs_mul, abs_of_pos hu]
  have e2 : (2 : ℝ) ^ (Int.log 2 |x| + 1 - p) = 2 * ((2 : ℝ) ^ (-(p : ℤ)) * (2 : ℝ) ^ Int.log 2 |x|) := by
    rw [← zpow_add₀ (by norm_num), show Int.log 2 |x| + 1 - p = 1 + (-(p : ℤ) + Int.log 2 |x|) by ring,
      zpow_add₀ (by norm_num : (2 : ℝ) ≠ 0) 1]
    norm_num
  calc _ ≤ 1 / 2 * (2 : ℝ) ^ (Int.log 2 |x| + 1 - p) := by gcongr
    _ = (2 : ℝ) ^ (-(p : ℤ)) * (2 : ℝ) ^ Int.log 2 |x| := by rw [e2]; ring
    _ ≤ _ := by gcongr

/-- Numbers with `p` significant bits. -/
def Rep (p : Nat) (x : ℝ) : Prop := ∃ m e : ℤ, |m| ≤ 2 ^ p ∧ x = m * (2 : ℝ) ^ e

theorem Rep.neg {x : ℝ} (h : Rep p x) : Rep p (-x) := by
  obtain ⟨m, e, hm, rfl⟩ := h
  exact ⟨-m, e, by rwa [abs_neg], by push_cast; ring⟩

theorem rep_int {n : ℤ} (h : |n| ≤ 2 ^ p) : Rep p n := ⟨n, 0, h, by simp⟩

theorem rep_nat {n : Nat} (h : n ≤ 2 ^ p) : Rep p n :=
  ⟨n, 0, by rw [abs_of_nonneg (by positivity)]; exact_mod_cast h, by simp⟩

theorem Rep.mul_pow {x : ℝ} (h : Rep p x) (k : ℤ) : Rep p (x * (2 : ℝ) ^ k) := by
  obtain ⟨m, e, hm, rfl⟩ := h
  exact ⟨m, e + k, hm, by rw [zpow_add₀ (by norm_num)]; ring⟩

theorem fl_nonneg {x : ℝ} (h : 0 ≤ x) : 0 ≤ fl p x := by
  unfold fl
  refine mul_nonneg ?_ (by positivity)
  exact_mod_cast le_roundEven (n := 0) (by simp only [Int.cast_zero]; positivity)

/-- The significand has at most `p` bits. -/
theorem fl_rep (x : ℝ) : Rep p (fl p x) := by
  by_cases hx : x = 0
  · subst hx; rw [fl_zero]; exact ⟨0, 0, by simp, by simp⟩
  refine ⟨_, _, ?_, rfl⟩
  obtain ⟨-, l2⟩ := log_spec (abs_pos.2 hx)
  have hu : (0 : ℝ) < (2 : ℝ) ^ (Int.log 2 |x| + 1 - p) := by positivity
  have h : |x / (2 : ℝ) ^ (Int.log 2 |x| + 1 - p)| ≤ ((2 ^ p : ℤ) : ℝ) := by
    rw [abs_div, abs_of_pos hu, div_le_iff₀ hu]
    push_cast
    rw [← zpow_natCast, ← zpow_add₀ (by norm_num), show (p : ℤ) + (Int.log 2 |x| + 1 - p) = Int.log 2 |x| + 1 by ring]
    exact l2.le
  rw [abs_le] at h ⊢
  exact ⟨le_roundEven (by push_cast at h ⊢; exact h.1), roundEven_le h.2⟩

/-- A number that fits is an upper bound of the rounded number when it is one of the number. -/
theorem fl_le {x r : ℝ} (hp : 1 ≤ p) (hr : Rep p r) (hx : 0 < x) (h : x ≤ r) : fl p x ≤ r := by
  obtain ⟨l1, l2⟩ := log_spec hx
  set L := Int.log 2 x with hL
  have hu : (0 : ℝ) < (2 : ℝ) ^ (L + 1 - p) := by positivity
  have hfl : fl p x = roundEven (x / (2 : ℝ) ^ (L + 1 - p)) * (2 : ℝ) ^ (L + 1 - p) := by
    unfold fl; rw [abs_of_pos hx]
  rcases le_or_gt ((2 : ℝ) ^ (L + 1)) r with hbig | hsmall
  · refine le_trans ?_ hbig
    have h1 : roundEven (x / (2 : ℝ) ^ (L + 1 - p)) ≤ 2 ^ p := by
      refine roundEven_le ?_
      rw [div_le_iff₀ hu]
      push_cast
      rw [← zpow_natCast, ← zpow_add₀ (by norm_num), show (p : ℤ) + (L + 1 - p) = L + 1 by ring]
      exact l2.le
    have h2 : (roundEven (x / (2 : ℝ) ^ (L + 1 - p)) : ℝ) ≤ 2 ^ p := by exact_mod_cast h1
    calc fl p x ≤ 2 ^ p * (2 : ℝ) ^ (L + 1 - p) := by rw [hfl]; gcongr
      _ = _ := by rw [← zpow_natCast, ← zpow_add₀ (by norm_num)]; congr 1; ring
  · obtain ⟨n, hn⟩ : ∃ n : ℤ, r = n * (2 : ℝ) ^ (L + 1 - p) := by
      obtain ⟨m, j, hm, rfl⟩ := hr
      have hpos : (0 : ℝ) < m * (2 : ℝ) ^ j := lt_of_lt_of_le hx h
      have hj : (0 : ℝ) < (2 : ℝ) ^ j := by positivity
      have hm0 : (0 : ℝ) < m := by
        by_contra hc
        exact absurd hpos (not_lt.2 (mul_nonpos_of_nonpos_of_nonneg (not_lt.1 hc) hj.le))
      have hm0' : 0 < m := by exact_mod_cast hm0
      rw [abs_of_pos hm0'] at hm
      rcases le_or_gt (L + 1 - p) j with hle | hgt
      · obtain ⟨d, hd⟩ := Int.eq_ofNat_of_zero_le (show 0 ≤ j - (L + 1 - p) by omega)
        refine ⟨m * 2 ^ d, ?_⟩
        push_cast
        rw [mul_assoc, ← zpow_natCast, ← zpow_add₀ (by norm_num)]
        congr 2; omega
      · -- then `m` is the power `2 ^ p` and `r` the power `2 ^ L`
        have h3 : (2 : ℝ) ^ L ≤ m * (2 : ℝ) ^ j := l1.trans h
        have h4 : (m : ℝ) * (2 : ℝ) ^ j ≤ (2 : ℝ) ^ ((p : ℤ) + j) := by
          rw [zpow_add₀ (by norm_num), zpow_natCast]
          have : (m : ℝ) ≤ 2 ^ p := by exact_mod_cast hm
          gcongr
        have h5 : L ≤ p + j := (zpow_le_zpow_iff_right₀ (by norm_num : (1 : ℝ) < 2)).1 (h3.trans h4)
        have h6 : L = p + j := by omega
        have h7 : (m : ℝ) * (2 : ℝ) ^ j = (2 : ℝ) ^ L := le_antisymm (by rw [h6]; exact h4) h3
        obtain ⟨q, rfl⟩ : ∃ q, p = q + 1 := ⟨p - 1, by omega⟩
        refine ⟨2 ^ q, ?_⟩
        rw [h7]
        push_cast
        rw [← zpow_natCast, ← zpow_add₀ (by norm_num)]
        congr 1; push_cast; ring
    rw [hfl, hn]
    have : roundEven (x / (2 : ℝ) ^ (L + 1 - p)) ≤ n := by
      refine roundEven_le ?_
      rw [div_le_iff₀ hu, ← hn]; exact h
    have : (roundEven (x / (2 : ℝ) ^ (L + 1 - p)) : ℝ) ≤ n := by exact_mod_cast this
    gcongr

/-- And a lower bound. -/
theorem le_fl {x r : ℝ} (hp : 1 ≤ p) (hr : Rep p r) (hr0 : 0 < r) (h : r ≤ x) : r ≤ fl p x := by
  have hx : 0 < x := lt_of_lt_of_le hr0 h
  obtain ⟨l1, l2⟩ := log_spec hx
  set L := Int.log 2 x with hL
  have hu : (0 : ℝ) < (2 : ℝ) ^ (L + 1 - p) := by positivity
  have hfl : fl p x = roundEven (x / (2 : ℝ) ^ (L + 1 - p)) * (2 : ℝ) ^ (L + 1 - p) := by
    unfold fl; rw [abs_of_pos hx]
  rcases le_or_gt r ((2 : ℝ) ^ L) with hsmall | hbig
  · refine hsmall.trans ?_
    obtain ⟨q, rfl⟩ : ∃ q, p = q + 1 := ⟨p - 1, by omega⟩
    have h1 : 2 ^ q ≤ roundEven (x / (2 : ℝ) ^ (L + 1 - (q + 1 : ℕ))) := by
      refine le_roundEven ?_
      rw [le_div_iff₀ hu]
      push_cast
      rw [← zpow_natCast, ← zpow_add₀ (by norm_num), show (q : ℤ) + (L + 1 - (q + 1)) = L by ring]
      exact l1
    have h2 : (2 : ℝ) ^ q ≤ roundEven (x / (2 : ℝ) ^ (L + 1 - (q + 1 : ℕ))) := by exact_mod_cast h1
    calc (2 : ℝ) ^ L = 2 ^ q * (2 : ℝ) ^ (L + 1 - (q + 1 : ℕ)) := by
          rw [← zpow_natCast, ← zpow_add₀ (by norm_num)]; congr 1; push_cast; ring
      _ ≤ _ := by rw [hfl]; gcongr
  · obtain ⟨n, hn⟩ : ∃ n : ℤ, r = n * (2 : ℝ) ^ (L + 1 - p) := by
      obtain ⟨m, j, hm, rfl⟩ := hr
      have hj : (0 : ℝ) < (2 : ℝ) ^ j := by positivity
      have hm0 : (0 : ℝ) < m := by
        by_contra hc
        exact absurd hr0 (not_lt.2 (mul_nonpos_of_nonpos_of_nonneg (not_lt.1 hc) hj.le))
      have hm0' : 0 < m := by exact_mod_cast hm0
      rw [abs_of_pos hm0'] at hm
      have h4 : (m : ℝ) * (2 : ℝ) ^ j ≤ (2 : ℝ) ^ ((p : ℤ) + j) := by
        rw [zpow_add₀ (by norm_num), zpow_natCast]
        have : (m : ℝ) ≤ 2 ^ p := by exact_mod_cast hm
        gcongr
      have h5 : L < p + j := (zpow_lt_zpow_iff_right₀ (by norm_num : (1 : ℝ) < 2)).1 (hbig.trans_le h4)
      obtain ⟨d, hd⟩ := Int.eq_ofNat_of_zero_le (show 0 ≤ j - (L + 1 - p) by omega)
      refine ⟨m * 2 ^ d, ?_⟩
      push_cast
      rw [mul_assoc, ← zpow_natCast, ← zpow_add₀ (by norm_num)]
      congr 2; omega
    rw [hfl, hn]
    have : n ≤ roundEven (x / (2 : ℝ) ^ (L + 1 - p)) := by
      refine le_roundEven ?_
      rw [le_div_iff₀ hu, ← hn]; exact h
    have : (n : ℝ) ≤ roundEven (x / (2 : ℝ) ^ (L + 1 - p)) := by exact_mod_cast this
    gcongr

/-- Numbers that fit are not changed. -/
theorem fl_of_rep {x : ℝ} (hp : 1 ≤ p) (h : Rep p x) : fl p x = x := by
  rcases lt_trichotomy x 0 with hx | rfl | hx
  · have h1 : 0 < -x := by linarith
    have := le_antisymm (fl_le hp h.neg h1 le_rfl) (le_fl hp h.neg h1 le_rfl)
    rw [fl_neg] at this
    linarith
  · exact fl_zero
  · exact le_antisymm (fl_le hp h hx le_rfl) (le_fl hp h hx le_rfl)

theorem fl_nat {n : Nat} (hp : 1 ≤ p) (h : n ≤ 2 ^ p) : fl p n = n := fl_of_rep hp (rep_nat h)

theorem fl_int {n : ℤ} (hp : 1 ≤ p) (h : |n| ≤ 2 ^ p) : fl p n = n := fl_of_rep hp (rep_int h)

/-- Rounding keeps the order. -/
theorem fl_mono (hp : 1 ≤ p) {x y : ℝ} (h : x ≤ y) : fl p x ≤ fl p y := by
  have pos : ∀ {x y : ℝ}, 0 < x → x ≤ y → fl p x ≤ fl p y := by
    intro x y hx h
    have hy : 0 < y := hx.trans_le h
    obtain ⟨l1, l2⟩ := log_spec hx
    obtain ⟨k1, k2⟩ := log_spec hy
    have hle : Int.log 2 x ≤ Int.log 2 y := Int.log_mono_right hx h
    rcases hle.lt_or_eq with hlt | heq
    · have hr : Rep p ((2 : ℝ) ^ Int.log 2 y) := ⟨1, Int.log 2 y, by
        rw [abs_one]; exact one_le_pow₀ (by norm_num), by simp⟩
      refine (fl_le hp hr hx (l2.le.trans ?_)).trans (le_fl hp hr (by positivity) k1)
      exact zpow_le_zpow_right₀ (by norm_num) (by omega)
    · unfold fl
      rw [abs_of_pos hx, abs_of_pos hy, heq]
      have : roundEven (x / (2 : ℝ) ^ (Int.log 2 y + 1 - p)) ≤ roundEven (y / (2 : ℝ) ^ (Int.log 2 y + 1 - p)) :=
        roundEven_mono (by gcongr)
      have : (roundEven (x / (2 : ℝ) ^ (Int.log 2 y + 1 - p)) : ℝ)
          ≤ roundEven (y / (2 : ℝ) ^ (Int.log 2 y + 1 - p)) := by exact_mod_cast this
      gcongr
  rcases lt_or_ge 0 x with hx | hx
  · exact pos hx h
  rcases le_or_gt 0 y with hy | hy
  · refine le_trans ?_ (fl_nonneg hy)
    have := fl_nonneg (p := p) (show 0 ≤ -x by linarith)
    rw [fl_neg] at this
    linarith
  · have := pos (show 0 < -y by linarith) (show -y ≤ -x by linarith)
    rw [fl_neg, fl_neg] at this
    linarith

end TinyDIP.Rnd
