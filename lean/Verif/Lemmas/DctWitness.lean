import Verif.Lemmas.DctRounded

/-!
# A cosine transform computed step by step in double precision
-/

namespace TinyDIP.Rnd

open TinyDIP

theorem dlit {x v : ℝ} (m e : ℤ) (h1 : (2 : ℝ) ^ e ≤ x) (h2 : x < (2 : ℝ) ^ (e + 1))
    (hm : |x / (2 : ℝ) ^ (e + 1 - (53 : Nat)) - m| < 1 / 2) (hv : m * (2 : ℝ) ^ (e + 1 - (53 : Nat)) = v) : dbl x = v := by
  rw [dbl, fl_lit m e h1 h2 hm, hv]

theorem dlitn {x v : ℝ} (m e : ℤ) (h1 : (2 : ℝ) ^ e ≤ -x) (h2 : -x < (2 : ℝ) ^ (e + 1))
    (hm : |-x / (2 : ℝ) ^ (e + 1 - (53 : Nat)) - m| < 1 / 2) (hv : -(m * (2 : ℝ) ^ (e + 1 - (53 : Nat))) = v) :
    dbl x = v := by
  rw [dbl, ← neg_neg x, fl_neg, fl_lit m e h1 h2 hm, hv]

theorem sqrt2_bounds : 14142135623730950488 / 10 ^ 19 ≤ Real.sqrt 2 ∧ Real.sqrt 2 ≤ 14142135623730950489 / 10 ^ 19 := by
  constructor
  · rw [Real.le_sqrt' (by norm_num)]; norm_num
  · rw [Real.sqrt_le_left (by norm_num)]; norm_num

theorem sqrt2_double : dbl (Real.sqrt 2) = 6369051672525773 / 4503599627370496 := by
  obtain ⟨h1, h2⟩ := sqrt2_bounds
  norm_num at h1 h2
  refine dlit 6369051672525773 0 (by norm_num) (by norm_num) ?_ (by norm_num)
  rw [abs_lt]
  norm_num
  constructor <;> linarith

theorem alpha_zero : dctAlphaD 0 = 6369051672525773 / 9007199254740992 := by
  rw [dctAlphaD, if_pos rfl, sqrt2_double]
  exact dlit 6369051672525773 (-1) (by norm_num) (by norm_num) (by rw [abs_lt]; norm_num) (by norm_num)

theorem alpha_one : dctAlphaD 1 = 1 := rfl

theorem angle_zero (N p : Nat) : dctAngleD N p 0 = 0 := by
  rw [dctAngleD, Nat.cast_zero, dbl_zero, mul_zero, dbl_zero]

theorem angle_01 : dctAngleD 2 0 1 = 884279719003555 / 1125899906842624 := by
  have h2 : dbl (2 : ℝ) = 2 := by exact_mod_cast dbl_nat (n := 2) (by norm_num)
  have h4 : dbl (2 * 2 : ℝ) = 4 := dlit 4503599627370496 2 (by norm_num) (by norm_num) (by rw [abs_lt]; norm_num) (by norm_num)
  have h5 : dbl (884279719003555 / 281474976710656 / 4 : ℝ) = 884279719003555 / 1125899906842624 :=
    dlit 7074237752028440 (-1) (by norm_num) (by norm_num) (by rw [abs_lt]; norm_num) (by norm_num)
  have h6 : dbl (884279719003555 / 1125899906842624 : ℝ) = 884279719003555 / 1125899906842624 :=
    dlit 7074237752028440 (-1) (by norm_num) (by norm_num) (by rw [abs_lt]; norm_num) (by norm_num)
  rw [dctAngleD, pi_double, Nat.cast_zero, Nat.cast_one, Nat.cast_ofNat, h2, h4, h5, dbl_zero, mul_zero,
    dbl_zero, zero_add, dbl_one, mul_one, mul_one, h6, h6]

theorem angle_11 : dctAngleD 2 1 1 = 2652839157010665 / 1125899906842624 := by
  have h2 : dbl (2 : ℝ) = 2 := by exact_mod_cast dbl_nat (n := 2) (by norm_num)
  have h4 : dbl (2 * 2 : ℝ) = 4 := dlit 4503599627370496 2 (by norm_num) (by norm_num) (by rw [abs_lt]; norm_num) (by norm_num)
  have h3 : dbl (2 + 1 : ℝ) = 3 := dlit 6755399441055744 1 (by norm_num) (by norm_num) (by rw [abs_lt]; norm_num) (by norm_num)
  have h5 : dbl (884279719003555 / 281474976710656 / 4 : ℝ) = 884279719003555 / 1125899906842624 :=
    dlit 7074237752028440 (-1) (by norm_num) (by norm_num) (by rw [abs_lt]; norm_num) (by norm_num)
  have h6 : dbl (884279719003555 / 1125899906842624 * 3 : ℝ) = 2652839157010665 / 1125899906842624 :=
    dlit 5305678314021330 1 (by norm_num) (by norm_num) (by rw [abs_lt]; norm_num) (by norm_num)
  have h7 : dbl (2652839157010665 / 1125899906842624 : ℝ) = 2652839157010665 / 1125899906842624 :=
    dlit 5305678314021330 1 (by norm_num) (by norm_num) (by rw [abs_lt]; norm_num) (by norm_num)
  rw [dctAngleD, pi_double, Nat.cast_one, Nat.cast_ofNat, dbl_one, h2, h4, h5, mul_one, mul_one, h2, h3, h6, h7]

theorem cos_01 : dbl (Real.cos (884279719003555 / 1125899906842624)) = 6369051672525773 / 9007199254740992 := by
  have g := Real.pi_gt_d20
  have l := Real.pi_lt_d20
  obtain ⟨h1, h2⟩ := sqrt2_bounds
  set d : ℝ := Real.pi / 4 - 884279719003555 / 1125899906842624 with hd
  have d0 : 0 ≤ d := by rw [hd]; norm_num at g ⊢; linarith
  have d1 : d ≤ 4 / 10 ^ 17 := by rw [hd]; norm_num at l ⊢; linarith
  have e : Real.cos (884279719003555 / 1125899906842624) = Real.sqrt 2 / 2 * (Real.cos d + Real.sin d) := by
    rw [show (884279719003555 / 1125899906842624 : ℝ) = Real.pi / 4 - d by rw [hd]; ring, Real.cos_sub,
      Real.cos_pi_div_four, Real.sin_pi_div_four]
    ring
  have c1 : 1 - d ^ 2 / 2 ≤ Real.cos d := Real.one_sub_sq_div_two_le_cos
  have c2 := Real.cos_le_one d
  have s1 : 0 ≤ Real.sin d := Real.sin_nonneg_of_nonneg_of_le_pi d0 (d1.trans (by linarith))
  have s2 := Real.sin_le d0
  have dd : d ^ 2 ≤ 16 / 10 ^ 34 := by
    calc d ^ 2 ≤ (4 / 10 ^ 17) ^ 2 := pow_le_pow_left₀ d0 d1 2
      _ = 16 / 10 ^ 34 := by norm_num
  have lo : 70710678118654752 / 10 ^ 17 ≤ Real.sqrt 2 / 2 * (Real.cos d + Real.sin d) := by
    calc (70710678118654752 / 10 ^ 17 : ℝ) ≤ (14142135623730950488 / 10 ^ 19 / 2) * (1 - 8 / 10 ^ 34) := by norm_num
      _ ≤ _ := mul_le_mul (by linarith) (by linarith) (by norm_num) (by positivity)
  have hi : Real.sqrt 2 / 2 * (Real.cos d + Real.sin d) ≤ 7071067811865476 / 10 ^ 16 := by
    calc Real.sqrt 2 / 2 * (Real.cos d + Real.sin d) ≤ (14142135623730950489 / 10 ^ 19 / 2) * (1 + 4 / 10 ^ 17) :=
          mul_le_mul (by linarith) (by linarith) (by linarith) (by norm_num)
      _ ≤ _ := by norm_num
  rw [e]
  generalize Real.sqrt 2 / 2 * (Real.cos d + Real.sin d) = c at lo hi
  norm_num at lo hi
  refine dlit 6369051672525773 (-1) (by norm_num; linarith) (by norm_num; linarith) ?_ (by norm_num)
  rw [abs_lt]
  norm_num
  constructor <;> linarith

theorem cos_11 : dbl (Real.cos (2652839157010665 / 1125899906842624)) = -(1592262918131443 / 2251799813685248) := by
  have g := Real.pi_gt_d20
  have l := Real.pi_lt_d20
  obtain ⟨h1, h2⟩ := sqrt2_bounds
  set d : ℝ := 3 * Real.pi / 4 - 2652839157010665 / 1125899906842624 with hd
  have d0 : 9 / 10 ^ 17 ≤ d := by rw [hd]; norm_num at g ⊢; linarith
  have d1 : d ≤ 10 / 10 ^ 17 := by rw [hd]; norm_num at l ⊢; linarith
  have d00 : 0 < d := lt_of_lt_of_le (by norm_num) d0
  have e : Real.cos (2652839157010665 / 1125899906842624) = -(Real.sqrt 2 / 2 * (Real.cos d - Real.sin d)) := by
    rw [show (2652839157010665 / 1125899906842624 : ℝ) = Real.pi - (Real.pi / 4 + d) by rw [hd]; ring,
      Real.cos_pi_sub, Real.cos_add, Real.cos_pi_div_four, Real.sin_pi_div_four]
    ring
  have c1 : 1 - d ^ 2 / 2 ≤ Real.cos d := Real.one_sub_sq_div_two_le_cos
  have c2 := Real.cos_le_one d
  have s1 : d - d ^ 3 / 6 < Real.sin d := Real.sin_gt_sub_cube d00
  have s2 := Real.sin_le d00.le
  have dd : d ^ 2 ≤ 100 / 10 ^ 34 := by
    calc d ^ 2 ≤ (10 / 10 ^ 17) ^ 2 := pow_le_pow_left₀ d00.le d1 2
      _ = 100 / 10 ^ 34 := by norm_num
  have ddd : d ^ 3 ≤ 1000 / 10 ^ 51 := by
    calc d ^ 3 ≤ (10 / 10 ^ 17) ^ 3 := pow_le_pow_left₀ d00.le d1 3
      _ = 1000 / 10 ^ 51 := by norm_num
  have hi : Real.sqrt 2 / 2 * (Real.cos d - Real.sin d) ≤ 70710678118654747 / 10 ^ 17 := by
    calc Real.sqrt 2 / 2 * (Real.cos d - Real.sin d) ≤ (14142135623730950489 / 10 ^ 19 / 2) * (1 - 8 / 10 ^ 17) :=
          mul_le_mul (by linarith) (by norm_num at d0 d1 dd ddd ⊢; linarith) (by norm_num at d0 d1 dd ddd ⊢; linarith) (by norm_num)
      _ ≤ _ := by norm_num
  have lo : 70710678118654745 / 10 ^ 17 ≤ Real.sqrt 2 / 2 * (Real.cos d - Real.sin d) := by
    calc (70710678118654745 / 10 ^ 17 : ℝ) ≤ (14142135623730950488 / 10 ^ 19 / 2) * (1 - 101 / 10 ^ 18) := by norm_num
      _ ≤ _ := mul_le_mul (by linarith) (by norm_num at d0 d1 dd ddd ⊢; linarith) (by norm_num) (by positivity)
  rw [e]
  generalize Real.sqrt 2 / 2 * (Real.cos d - Real.sin d) = c at lo hi
  norm_num at lo hi
  refine dlitn 6369051672525772 (-1) (by norm_num; linarith) (by norm_num; linarith) ?_ (by norm_num)
  rw [abs_lt]
  norm_num
  constructor <;> linarith

theorem v0 : dbl (1 * 1) = 1 :=
  dlit 4503599627370496 (0) (by norm_num) (by norm_num) (by rw [abs_lt]; norm_num) (by norm_num)

theorem v1 : dbl (0 + 1) = 1 :=
  dlit 4503599627370496 (0) (by norm_num) (by norm_num) (by rw [abs_lt]; norm_num) (by norm_num)

theorem v2 : dbl (20 * 1) = 20 :=
  dlit 5629499534213120 (4) (by norm_num) (by norm_num) (by rw [abs_lt]; norm_num) (by norm_num)

theorem v3 : dbl (1 + 20) = 21 :=
  dlit 5910974510923776 (4) (by norm_num) (by norm_num) (by rw [abs_lt]; norm_num) (by norm_num)

theorem v4 : dbl (8 * (6369051672525773 / 9007199254740992)) = (6369051672525773 / 1125899906842624) :=
  dlit 6369051672525773 (2) (by norm_num) (by norm_num) (by rw [abs_lt]; norm_num) (by norm_num)

theorem v5 : dbl ((6369051672525773 / 1125899906842624) * (6369051672525773 / 9007199254740992)) = (4503599627370497 / 1125899906842624) :=
  dlit 4503599627370497 (2) (by norm_num) (by norm_num) (by rw [abs_lt]; norm_num) (by norm_num)

theorem v6 : dbl ((4503599627370497 / 1125899906842624) * (6369051672525773 / 9007199254740992)) = (3184525836262887 / 1125899906842624) :=
  dlit 6369051672525774 (1) (by norm_num) (by norm_num) (by rw [abs_lt]; norm_num) (by norm_num)

theorem v7 : dbl (2 * 1) = 2 :=
  dlit 4503599627370496 (1) (by norm_num) (by norm_num) (by rw [abs_lt]; norm_num) (by norm_num)

theorem v8 : dbl ((3184525836262887 / 1125899906842624) * 21) = (4179690160095039 / 70368744177664) :=
  dlit 8359380320190078 (5) (by norm_num) (by norm_num) (by rw [abs_lt]; norm_num) (by norm_num)

theorem v9 : dbl ((4179690160095039 / 70368744177664) / 2) = (4179690160095039 / 140737488355328) :=
  dlit 8359380320190078 (4) (by norm_num) (by norm_num) (by rw [abs_lt]; norm_num) (by norm_num)

theorem v10 : dbl (1 * (6369051672525773 / 9007199254740992)) = (6369051672525773 / 9007199254740992) :=
  dlit 6369051672525773 (-1) (by norm_num) (by norm_num) (by rw [abs_lt]; norm_num) (by norm_num)

theorem v11 : dbl ((6369051672525773 / 9007199254740992) * 1) = (6369051672525773 / 9007199254740992) :=
  dlit 6369051672525773 (-1) (by norm_num) (by norm_num) (by rw [abs_lt]; norm_num) (by norm_num)

theorem v12 : dbl (0 + (6369051672525773 / 9007199254740992)) = (6369051672525773 / 9007199254740992) :=
  dlit 6369051672525773 (-1) (by norm_num) (by norm_num) (by rw [abs_lt]; norm_num) (by norm_num)

theorem v13 : dbl (20 * (-(1592262918131443 / 2251799813685248))) = (-(7961314590657215 / 562949953421312)) :=
  dlitn 7961314590657215 (3) (by norm_num) (by norm_num) (by rw [abs_lt]; norm_num) (by norm_num)

theorem v14 : dbl ((-(7961314590657215 / 562949953421312)) * 1) = (-(7961314590657215 / 562949953421312)) :=
  dlitn 7961314590657215 (3) (by norm_num) (by norm_num) (by rw [abs_lt]; norm_num) (by norm_num)

theorem v15 : dbl ((6369051672525773 / 9007199254740992) + (-(7961314590657215 / 562949953421312))) = (-(3781624430562177 / 281474976710656)) :=
  dlitn 7563248861124354 (3) (by norm_num) (by norm_num) (by rw [abs_lt]; norm_num) (by norm_num)

theorem v16 : dbl ((4503599627370497 / 1125899906842624) * 1) = (4503599627370497 / 1125899906842624) :=
  dlit 4503599627370497 (2) (by norm_num) (by norm_num) (by rw [abs_lt]; norm_num) (by norm_num)

theorem v17 : dbl ((4503599627370497 / 1125899906842624) * (-(3781624430562177 / 281474976710656))) = (-(1890812215281089 / 35184372088832)) :=
  dlitn 7563248861124356 (5) (by norm_num) (by norm_num) (by rw [abs_lt]; norm_num) (by norm_num)

theorem v18 : dbl ((-(1890812215281089 / 35184372088832)) / 2) = (-(1890812215281089 / 70368744177664)) :=
  dlitn 7563248861124356 (4) (by norm_num) (by norm_num) (by rw [abs_lt]; norm_num) (by norm_num)

theorem v19 : dbl ((6369051672525773 / 9007199254740992) * (6369051672525773 / 9007199254740992)) = (4503599627370497 / 9007199254740992) :=
  dlit 4503599627370497 (-1) (by norm_num) (by norm_num) (by rw [abs_lt]; norm_num) (by norm_num)

theorem v20 : dbl ((4503599627370497 / 9007199254740992) * (6369051672525773 / 9007199254740992)) = (3184525836262887 / 9007199254740992) :=
  dlit 6369051672525774 (-2) (by norm_num) (by norm_num) (by rw [abs_lt]; norm_num) (by norm_num)

theorem v21 : dbl ((3184525836262887 / 9007199254740992) * (4179690160095039 / 140737488355328)) = (2955487255461889 / 281474976710656) :=
  dlit 5910974510923778 (3) (by norm_num) (by norm_num) (by rw [abs_lt]; norm_num) (by norm_num)

theorem v22 : dbl ((2955487255461889 / 281474976710656) * 1) = (2955487255461889 / 281474976710656) :=
  dlit 5910974510923778 (3) (by norm_num) (by norm_num) (by rw [abs_lt]; norm_num) (by norm_num)

theorem v23 : dbl (0 + (2955487255461889 / 281474976710656)) = (2955487255461889 / 281474976710656) :=
  dlit 5910974510923778 (3) (by norm_num) (by norm_num) (by rw [abs_lt]; norm_num) (by norm_num)

theorem v24 : dbl ((4503599627370497 / 9007199254740992) * (-(1890812215281089 / 70368744177664))) = (-(3781624430562179 / 281474976710656)) :=
  dlitn 7563248861124358 (3) (by norm_num) (by norm_num) (by rw [abs_lt]; norm_num) (by norm_num)

theorem v25 : dbl ((-(3781624430562179 / 281474976710656)) * (6369051672525773 / 9007199254740992)) = (-(5348024557502467 / 562949953421312)) :=
  dlitn 5348024557502467 (3) (by norm_num) (by norm_num) (by rw [abs_lt]; norm_num) (by norm_num)

theorem v26 : dbl ((-(5348024557502467 / 562949953421312)) * 1) = (-(5348024557502467 / 562949953421312)) :=
  dlitn 5348024557502467 (3) (by norm_num) (by norm_num) (by rw [abs_lt]; norm_num) (by norm_num)

theorem v27 : dbl ((2955487255461889 / 281474976710656) + (-(5348024557502467 / 562949953421312))) = (562949953421311 / 562949953421312) :=
  dlit 9007199254740976 (-1) (by norm_num) (by norm_num) (by rw [abs_lt]; norm_num) (by norm_num)

theorem v28 : dbl ((-(3781624430562179 / 281474976710656)) * (-(1592262918131443 / 2251799813685248))) = (2674012278751233 / 281474976710656) :=
  dlit 5348024557502466 (3) (by norm_num) (by norm_num) (by rw [abs_lt]; norm_num) (by norm_num)

theorem v29 : dbl ((2674012278751233 / 281474976710656) * 1) = (2674012278751233 / 281474976710656) :=
  dlit 5348024557502466 (3) (by norm_num) (by norm_num) (by rw [abs_lt]; norm_num) (by norm_num)

theorem v30 : dbl ((2955487255461889 / 281474976710656) + (2674012278751233 / 281474976710656)) = (2814749767106561 / 140737488355328) :=
  dlit 5629499534213122 (4) (by norm_num) (by norm_num) (by rw [abs_lt]; norm_num) (by norm_num)

/-- The correctly rounded cosine. -/
noncomputable def cosR (x : ℝ) : ℝ := dbl (Real.cos x)

theorem cosR_zero (N p : Nat) : cosR (dctAngleD N p 0) = 1 := by
  rw [cosR, angle_zero, Real.cos_zero, dbl_one]

theorem cosR_01 : cosR (dctAngleD 2 0 1) = 6369051672525773 / 9007199254740992 := by
  rw [cosR, angle_01, cos_01]

theorem cosR_11 : cosR (dctAngleD 2 1 1) = -(1592262918131443 / 2251799813685248) := by
  rw [cosR, angle_11, cos_11]

theorem dct_witness : dct3OnePlaneD cosR [(0, 0), (1, 0)] [⟨[2, 1], [1, 20]⟩] 0 =
    .ok ⟨[2, 1], [4179690160095039 / 140737488355328, -(1890812215281089 / 70368744177664)]⟩ := by
  have h : dct3OnePlaneD cosR [(0, 0), (1, 0)] [⟨[2, 1], [1, 20]⟩] 0 = .ok ⟨[2, 1], [
    dbl (dbl (dbl (dbl (dbl (8 * dctAlphaD 0) * dctAlphaD 0) * dctAlphaD 0) *
      dbl (dbl (0 + dbl (dbl (dbl (1 * cosR (dctAngleD 2 0 0)) * cosR (dctAngleD 1 0 0)) *
          cosR (dctAngleD 1 0 0))) +
        dbl (dbl (dbl (20 * cosR (dctAngleD 2 1 0)) * cosR (dctAngleD 1 0 0)) * cosR (dctAngleD 1 0 0)))) /
      dbl (dbl (dbl (2 : Nat) * dbl (1 : Nat)) * dbl (1 : Nat))),
    dbl (dbl (dbl (dbl (dbl (8 * dctAlphaD 0) * dctAlphaD 0) * dctAlphaD 1) *
      dbl (dbl (0 + dbl (dbl (dbl (1 * cosR (dctAngleD 2 0 1)) * cosR (dctAngleD 1 0 0)) *
          cosR (dctAngleD 1 0 0))) +
        dbl (dbl (dbl (20 * cosR (dctAngleD 2 1 1)) * cosR (dctAngleD 1 0 0)) * cosR (dctAngleD 1 0 0)))) /
      dbl (dbl (dbl (2 : Nat) * dbl (1 : Nat)) * dbl (1 : Nat)))]⟩ := rfl
  have h2 : dbl ((2 : Nat) : ℝ) = 2 := by exact_mod_cast dbl_nat (n := 2) (by norm_num)
  have h1 : dbl ((1 : Nat) : ℝ) = 1 := by exact_mod_cast dbl_nat (n := 1) (by norm_num)
  rw [h]
  simp only [cosR_zero, cosR_01, cosR_11, alpha_zero, alpha_one, h1, h2, v0, v1, v2, v3, v4, v5, v6, v7, v8, v9, v10, v11, v12, v13, v14, v15, v16, v17, v18]

theorem idct_witness : idct3OnePlaneD cosR [(0, 0), (1, 0)]
    [⟨[2, 1], [4179690160095039 / 140737488355328, -(1890812215281089 / 70368744177664)]⟩] 0 =
    .ok ⟨[2, 1], [562949953421311 / 562949953421312, 2814749767106561 / 140737488355328]⟩ := by
  have h : ∀ a b : ℝ, idct3OnePlaneD cosR [(0, 0), (1, 0)] [⟨[2, 1], [a, b]⟩] 0 = .ok ⟨[2, 1], [
    dbl (dbl (0 + dbl (dbl (dbl (dbl (dbl (dbl (dctAlphaD 0 * dctAlphaD 0) * dctAlphaD 0) * a) *
        cosR (dctAngleD 2 0 0)) * cosR (dctAngleD 1 0 0)) * cosR (dctAngleD 1 0 0))) +
      dbl (dbl (dbl (dbl (dbl (dbl (dctAlphaD 1 * dctAlphaD 0) * dctAlphaD 0) * b) *
        cosR (dctAngleD 2 0 1)) * cosR (dctAngleD 1 0 0)) * cosR (dctAngleD 1 0 0))),
    dbl (dbl (0 + dbl (dbl (dbl (dbl (dbl (dbl (dctAlphaD 0 * dctAlphaD 0) * dctAlphaD 0) * a) *
        cosR (dctAngleD 2 1 0)) * cosR (dctAngleD 1 0 0)) * cosR (dctAngleD 1 0 0))) +
      dbl (dbl (dbl (dbl (dbl (dbl (dctAlphaD 1 * dctAlphaD 0) * dctAlphaD 0) * b) *
        cosR (dctAngleD 2 1 1)) * cosR (dctAngleD 1 0 0)) * cosR (dctAngleD 1 0 0)))]⟩ := fun _ _ => rfl
  rw [h]
  simp only [cosR_zero, cosR_01, cosR_11, alpha_zero, alpha_one, v10, v19, v20, v21, v22, v23, v24, v25, v26, v27, v28, v29, v30]

end TinyDIP.Rnd
