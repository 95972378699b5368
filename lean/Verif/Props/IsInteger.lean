import Verif.Model.IsInteger
import Verif.Lemmas.Rounding

/-!
# Property C230: `is_integer`

Full statement of C230: `is_integer` holds exactly for the values that are whole numbers.

For the infinities this is false.
-/

namespace TinyDIP.Props

open TinyDIP Sp Rnd

/-! ## C230 -/

/-- `is_integer` holds for a finite number exactly if it is a whole number, for no NaN, and for every integer. Missing: the
infinities, see `C230_infinity_violation`. -/
theorem C230_whole_partial (x : ℝ) (n : Int) : (isInteger (.num x) ↔ ∃ k : ℤ, x = k) ∧ ¬ isInteger .nan ∧
    isIntegerOfInt n := by
  refine ⟨?_, by simp [isInteger, modf], trivial⟩
  simp only [isInteger, modf, Dbl.num.injEq]
  constructor
  · intro h
    split at h
    · exact ⟨_, sub_eq_zero.1 h⟩
    · exact ⟨_, sub_eq_zero.1 h⟩
  · rintro ⟨k, rfl⟩
    simp

/-- A consequence for large numbers: every double of magnitude `2^53` or more is found to be a whole number. -/
theorem C230_large {x : ℝ} (h : Rep 53 x) (hx : 2 ^ 53 ≤ |x|) : isInteger (.num x) := by
  refine (C230_whole_partial x 0).1.2 ?_
  obtain ⟨m, e, hm, rfl⟩ := h
  by_cases he : 0 ≤ e
  · obtain ⟨k, rfl⟩ := Int.eq_ofNat_of_zero_le he
    exact ⟨m * 2 ^ k, by push_cast; simp⟩
  · exfalso
    have h1 : (2 : ℝ) ^ e < 1 := zpow_lt_one_of_neg₀ (by norm_num) (by omega)
    have h0 : (0 : ℝ) < 2 ^ e := by positivity
    have hm' : |(m : ℝ)| ≤ 2 ^ 53 := by exact_mod_cast hm
    rw [abs_mul, abs_of_pos h0] at hx
    nlinarith [abs_nonneg (m : ℝ)]

/-- Violation: the infinities are no whole numbers but pass. -/
theorem C230_infinity_violation : isInteger .pinf ∧ isInteger .ninf := ⟨rfl, rfl⟩

example : isInteger (.num (-3)) ∧ ¬ isInteger (.num (-1.1)) := by
  refine ⟨(C230_whole_partial _ 0).1.2 ⟨-3, by norm_num⟩, fun h => ?_⟩
  obtain ⟨k, hk⟩ := (C230_whole_partial _ 0).1.1 h
  have h2 : (k : ℝ) * 10 = -11 := by rw [← hk]; norm_num
  have h3 : k * 10 = -11 := by exact_mod_cast h2
  omega

example := C230_large (x := 2 ^ 60) ⟨1, 60, by norm_num, by norm_num⟩ (by norm_num)

end TinyDIP.Props
