import Verif.Spec.Special
import Verif.Lemmas.Rounded
import Verif.Lemmas.Interp

/-!
# Lemmas on special values
-/

namespace TinyDIP.Sp

open TinyDIP Image Rnd

variable {α : Type}

theorem dbl_abs (x : ℝ) : |dbl x| ≤ 2 * |x| := by
  have h1 := dbl_err x
  have h2 : eps ≤ 1 := by unfold eps; norm_num
  have h3 := abs_nonneg x
  calc |dbl x| = |(dbl x - x) + x| := by ring_nf
    _ ≤ |dbl x - x| + |x| := abs_add_le _ _
    _ ≤ 2 * |x| := by nlinarith

theorem fl_abs (p : Nat) (x : ℝ) : |fl p x| ≤ 2 * |x| := by
  have h1 := fl_err (p := p) x
  have h2 : (2 : ℝ) ^ (-(p : ℤ)) ≤ 1 := by
    rw [zpow_neg, zpow_natCast]
    exact inv_le_one_of_one_le₀ (one_le_pow₀ (by norm_num))
  have h3 := abs_nonneg x
  calc |fl p x| = |(fl p x - x) + x| := by ring_nf
    _ ≤ |fl p x - x| + |x| := abs_add_le _ _
    _ ≤ 2 * |x| := by nlinarith

theorem pow_lt_1024 {k : Nat} (h : k < 1024) : (2 : ℝ) ^ k < 2 ^ 1024 := pow_lt_pow_right₀ (by norm_num) h

theorem rnd_of_lt {x : ℝ} (h : |dbl x| < 2 ^ 1024) : Dbl.rnd x = .num (dbl x) := by
  rw [abs_lt] at h
  unfold Dbl.rnd
  rw [if_neg (not_le.2 h.2), if_neg (not_le.2 h.1)]

theorem rnd_within {x : ℝ} {k : Nat} (h : |x| ≤ 2 ^ k) (hk : k + 1 < 1024) :
    Dbl.rnd x = .num (dbl x) ∧ |dbl x| ≤ 2 ^ (k + 1) := by
  have h1 : |dbl x| ≤ 2 ^ (k + 1) := by
    have := dbl_abs x
    rw [pow_succ]; linarith
  exact ⟨rnd_of_lt (lt_of_le_of_lt h1 (pow_lt_1024 hk)), h1⟩

theorem Within.mono {j k : Nat} {v : Dbl} (h : Within j v) (hjk : j ≤ k) : Within k v := by
  obtain ⟨x, e, hx⟩ := h
  exact ⟨x, e, hx.trans (pow_le_pow_right₀ (by norm_num) hjk)⟩

theorem within_num {x : ℝ} {k : Nat} (h : |x| ≤ 2 ^ k) : Within k (.num x) := ⟨x, rfl, h⟩

theorem within_mul {j k : Nat} {a b : Dbl} (ha : Within j a) (hb : Within k b) (h : j + k + 1 < 1024) :
    Within (j + k + 1) (a.mul b) := by
  obtain ⟨x, rfl, hx⟩ := ha
  obtain ⟨y, rfl, hy⟩ := hb
  have hxy : |x * y| ≤ 2 ^ (j + k) := by
    rw [abs_mul, pow_add]
    exact mul_le_mul hx hy (abs_nonneg _) (by positivity)
  obtain ⟨e, hb⟩ := rnd_within hxy h
  exact ⟨_, e, hb⟩

theorem within_add {k : Nat} {a b : Dbl} (ha : Within k a) (hb : Within k b) (h : k + 2 < 1024) :
    Within (k + 2) (a.add b) := by
  obtain ⟨x, rfl, hx⟩ := ha
  obtain ⟨y, rfl, hy⟩ := hb
  have hxy : |x + y| ≤ 2 ^ (k + 1) := by
    have := abs_add_le x y
    rw [pow_succ]; linarith
  obtain ⟨e, hb⟩ := rnd_within hxy h
  exact ⟨_, e, hb⟩

theorem within_neg {k : Nat} {a : Dbl} (ha : Within k a) : Within k a.neg := by
  obtain ⟨x, rfl, hx⟩ := ha
  exact ⟨-x, rfl, by rwa [abs_neg]⟩

theorem within_abs {k : Nat} {a : Dbl} (ha : Within k a) : Within k a.abs := by
  obtain ⟨x, rfl, hx⟩ := ha
  exact ⟨|x|, rfl, by rwa [abs_abs]⟩

theorem within_sub {k : Nat} {a b : Dbl} (ha : Within k a) (hb : Within k b) (h : k + 2 < 1024) :
    Within (k + 2) (a.sub b) := within_add ha (within_neg hb) h

theorem Within.not_nan {k : Nat} {v : Dbl} (h : Within k v) : v ≠ .nan := by
  obtain ⟨x, rfl, -⟩ := h
  exact fun h => nomatch h

/-- The value `v` is the number `x`, of magnitude at most `2 ^ k`. -/
def Is (k : Nat) (v : Dbl) (x : ℝ) : Prop := v = .num x ∧ |x| ≤ 2 ^ k

theorem Is.within {k : Nat} {v : Dbl} {x : ℝ} (h : Is k v x) : Within k v := ⟨x, h.1, h.2⟩

theorem Is.mono {j k : Nat} {v : Dbl} {x : ℝ} (h : Is j v x) (hjk : j ≤ k) : Is k v x :=
  ⟨h.1, h.2.trans (pow_le_pow_right₀ (by norm_num) hjk)⟩

theorem is_mul {j k : Nat} {a b : Dbl} {x y : ℝ} (ha : Is j a x) (hb : Is k b y) (h : j + k + 1 < 1024) :
    Is (j + k + 1) (a.mul b) (dbl (x * y)) := by
  obtain ⟨rfl, hx⟩ := ha
  obtain ⟨rfl, hy⟩ := hb
  have hxy : |x * y| ≤ 2 ^ (j + k) := by
    rw [abs_mul, pow_add]
    exact mul_le_mul hx hy (abs_nonneg _) (by positivity)
  obtain ⟨e, hb⟩ := rnd_within hxy h
  exact ⟨e, hb⟩

theorem is_add {k : Nat} {a b : Dbl} {x y : ℝ} (ha : Is k a x) (hb : Is k b y) (h : k + 2 < 1024) :
    Is (k + 2) (a.add b) (dbl (x + y)) := by
  obtain ⟨rfl, hx⟩ := ha
  obtain ⟨rfl, hy⟩ := hb
  have hxy : |x + y| ≤ 2 ^ (k + 1) := by
    have := abs_add_le x y
    rw [pow_succ]; linarith
  obtain ⟨e, hb⟩ := rnd_within hxy h
  exact ⟨e, hb⟩

theorem is_neg {k : Nat} {a : Dbl} {x : ℝ} (ha : Is k a x) : Is k a.neg (-x) := by
  obtain ⟨rfl, hx⟩ := ha
  exact ⟨rfl, by rwa [abs_neg]⟩

theorem is_sub {k : Nat} {a b : Dbl} {x y : ℝ} (ha : Is k a x) (hb : Is k b y) (h : k + 2 < 1024) :
    Is (k + 2) (a.sub b) (dbl (x - y)) := by
  rw [sub_eq_add_neg]
  exact is_add ha (is_neg hb) h

theorem is_div {k j : Nat} {a b : Dbl} {x y : ℝ} (ha : Is k a x) (hb : b = .num y) (hy : 1 / 2 ^ j ≤ |y|)
    (h : k + j + 1 < 1024) : Is (k + j + 1) (a.div b) (dbl (x / y)) := by
  obtain ⟨rfl, hx⟩ := ha
  subst hb
  have hpos : (0 : ℝ) < 1 / 2 ^ j := by positivity
  have hy0 : y ≠ 0 := by
    rintro rfl
    rw [abs_zero] at hy
    linarith
  have hxy : |x / y| ≤ 2 ^ (k + j) := by
    rw [abs_div, div_le_iff₀ (by linarith), pow_add]
    have : (2 : ℝ) ^ k ≤ 2 ^ k * 2 ^ j * |y| := by
      rw [mul_assoc]
      refine le_mul_of_one_le_right (by positivity) ?_
      rw [div_le_iff₀ (by positivity)] at hy
      linarith
    linarith
  obtain ⟨e, hb⟩ := rnd_within hxy h
  refine ⟨?_, hb⟩
  show (if y = 0 then _ else Dbl.rnd (x / y)) = _
  rw [if_neg hy0, e]

theorem is_num {x : ℝ} {k : Nat} (h : |x| ≤ 2 ^ k) : Is k (.num x) x := ⟨rfl, h⟩

theorem ofNat_eq {n : Nat} (h : n ≤ 2 ^ 53) : Dbl.ofNat n = .num n := by
  have e := dbl_nat h
  have hn : (n : ℝ) ≤ 2 ^ 53 := by exact_mod_cast h
  unfold Dbl.ofNat
  rw [rnd_of_lt, e]
  rw [e, abs_of_nonneg (by positivity)]
  exact lt_of_le_of_lt hn (pow_lt_1024 (by norm_num))

theorem is_ofNat {n : Nat} (h : n ≤ 2 ^ 53) : Is 53 (Dbl.ofNat n) n :=
  ⟨ofNat_eq h, by rw [abs_of_nonneg (by positivity)]; exact_mod_cast h⟩

theorem within_ofNat {n : Nat} (h : n ≤ 2 ^ 53) : Within 53 (Dbl.ofNat n) :=
  ⟨n, ofNat_eq h, by rw [abs_of_nonneg (by positivity)]; exact_mod_cast h⟩

theorem ofNat_sub {n k : Nat} (h : n ≤ 2 ^ 53) (hk : k ≤ 2) : (Dbl.ofNat n).sub (.num k) = .num ((n : ℝ) - k) := by
  have hi : |((n : ℤ) - k)| ≤ 2 ^ 53 := by
    rw [abs_le]
    have : (n : ℤ) ≤ 2 ^ 53 := by exact_mod_cast h
    have : (k : ℤ) ≤ 2 := by exact_mod_cast hk
    constructor <;> omega
  have e : dbl ((n : ℝ) - k) = n - k := by
    have := dbl_of_rep (rep_int hi)
    push_cast at this
    exact this
  have hr : |(n : ℝ) - k| ≤ 2 ^ 53 := by exact_mod_cast hi
  rw [ofNat_eq h]
  show Dbl.rnd ((n : ℝ) + -(k : ℝ)) = _
  rw [← sub_eq_add_neg, rnd_of_lt, e]
  rw [e]
  exact lt_of_le_of_lt hr (pow_lt_1024 (by norm_num))

theorem ofNat_sub_one {n : Nat} (h : n ≤ 2 ^ 53) : (Dbl.ofNat n).sub (.num 1) = .num ((n : ℝ) - 1) := by
  have := ofNat_sub h (k := 1) (by norm_num)
  simpa using this

theorem ofNat_sub_two {n : Nat} (h : n ≤ 2 ^ 53) : (Dbl.ofNat n).sub (.num 2) = .num ((n : ℝ) - 2) := by
  have := ofNat_sub h (k := 2) (by norm_num)
  simpa using this

/-- A coordinate is outside, NaN or inside. -/
theorem coord_cases {n : Nat} (h : n ≤ 2 ^ 53) (x : Dbl) :
    (x.lt (.num 0) ∨ ((Dbl.ofNat n).sub (.num 1)).lt x) ∨ x = .nan ∨
      ∃ r, x = .num r ∧ 0 ≤ r ∧ r ≤ (n : ℝ) - 1 := by
  rw [ofNat_sub_one h]
  cases x with
  | nan => exact .inr (.inl rfl)
  | pinf => exact .inl (.inr trivial)
  | ninf => exact .inl (.inl trivial)
  | num r =>
    by_cases h0 : r < 0
    · exact .inl (.inl h0)
    · by_cases h1 : (n : ℝ) - 1 < r
      · exact .inl (.inr h1)
      · exact .inr (.inr ⟨r, rfl, not_lt.1 h0, not_lt.1 h1⟩)

theorem inside_index {n : Nat} (h : n ≤ 2 ^ 53) {r : ℝ} (h0 : 0 ≤ r) (h1 : r ≤ (n : ℝ) - 1) :
    (Dbl.num r).toIndex = .ok ⌊r⌋₊ ∧ ⌊r⌋₊ < n ∧ Within 53 (.num r) := by
  have hn : (n : ℝ) ≤ 2 ^ 53 := by exact_mod_cast h
  refine ⟨toSize_ok h0 (by linarith), floor_lt_of_le h0 h1, r, rfl, ?_⟩
  rw [abs_of_nonneg h0]; linarith

theorem not_lt_nan (a : Dbl) : ¬ a.lt .nan := by cases a <;> exact id
theorem nan_not_lt (a : Dbl) : ¬ Dbl.nan.lt a := by cases a <;> exact id
theorem not_le_nan (a : Dbl) : ¬ a.le .nan := by cases a <;> exact id

variable {im : Image α} {w h : Nat} {f : Nat → Nat → α}

/-- What `bilinear` gives for every position. -/
theorem bilinear_inside' (ev : Elem α) (zero : α) (s : im.Shows w h f) (hw : w ≤ 2 ^ 53) (hh : h ≤ 2 ^ 53)
    {x y : ℝ} (hx0 : 0 ≤ x) (hx : x ≤ (w : ℝ) - 1) (hy0 : 0 ≤ y) (hy : y ≤ (h : ℝ) - 1) :
    ∃ v, bilinear ev zero im (.num x) (.num y) = ev.fromD v ∧
      ((∀ a, Within 8 (ev.toD a)) → Within 900 v) := by
  obtain ⟨ix, lx, bx⟩ := inside_index hw hx0 hx
  obtain ⟨iy, ly, by'⟩ := inside_index hh hy0 hy
  have hno : ¬ ((Dbl.num x).lt (.num 0) ∨ ((Dbl.ofNat w).sub (.num 1)).lt (.num x) ∨
      (Dbl.num y).lt (.num 0) ∨ ((Dbl.ofNat h).sub (.num 1)).lt (.num y)) := by
    rw [ofNat_sub_one hw, ofNat_sub_one hh]
    rintro (h1 | h1 | h1 | h1)
    · exact absurd (show x < 0 from h1) (not_lt.2 hx0)
    · exact absurd (show (w : ℝ) - 1 < x from h1) (not_lt.2 hx)
    · exact absurd (show y < 0 from h1) (not_lt.2 hy0)
    · exact absurd (show (h : ℝ) - 1 < y from h1) (not_lt.2 hy)
  have lx2 : min (⌊x⌋₊ + 1) (w - 1) < w := by omega
  have ly2 : min (⌊y⌋₊ + 1) (h - 1) < h := by omega
  have key : ∃ a b c d : α, bilinear ev zero im (.num x) (.num y) = ev.fromD
      (((((ev.toD a).mul ((Dbl.num 1).sub ((Dbl.num x).sub (Dbl.ofNat ⌊x⌋₊)))).add
        ((ev.toD b).mul ((Dbl.num x).sub (Dbl.ofNat ⌊x⌋₊)))).mul
          ((Dbl.num 1).sub ((Dbl.num y).sub (Dbl.ofNat ⌊y⌋₊)))).add
      ((((ev.toD c).mul ((Dbl.num 1).sub ((Dbl.num x).sub (Dbl.ofNat ⌊x⌋₊)))).add
        ((ev.toD d).mul ((Dbl.num x).sub (Dbl.ofNat ⌊x⌋₊)))).mul ((Dbl.num y).sub (Dbl.ofNat ⌊y⌋₊)))) := by
    refine ⟨f ⌊x⌋₊ ⌊y⌋₊, f (min (⌊x⌋₊ + 1) (w - 1)) ⌊y⌋₊, f ⌊x⌋₊ (min (⌊y⌋₊ + 1) (h - 1)),
      f (min (⌊x⌋₊ + 1) (w - 1)) (min (⌊y⌋₊ + 1) (h - 1)), ?_⟩
    unfold bilinear
    simp only
    rw [if_neg (by rw [s.width, s.height]; exact hno), s.width, s.height, ix, Res.ok_bind, iy, Res.ok_bind, clampNext lx s.w_lt, clampNext ly s.h_lt,
      s.px _ _ lx ly, Res.ok_bind, s.px _ _ lx2 ly, Res.ok_bind, s.px _ _ lx ly2, Res.ok_bind,
      s.px _ _ lx2 ly2, Res.ok_bind]
  obtain ⟨a, b, c, d, e⟩ := key
  refine ⟨_, e, ?_⟩
  · intro hev
    have d1 : Within 55 ((Dbl.num x).sub (Dbl.ofNat ⌊x⌋₊)) := within_sub bx (within_ofNat (by omega)) (by norm_num)
    have d2 : Within 55 ((Dbl.num y).sub (Dbl.ofNat ⌊y⌋₊)) := within_sub by' (within_ofNat (by omega)) (by norm_num)
    have one : Within 55 (.num 1) := within_num (by rw [abs_one]; norm_num)
    have e1 : Within 57 ((Dbl.num 1).sub ((Dbl.num x).sub (Dbl.ofNat ⌊x⌋₊))) := within_sub one d1 (by norm_num)
    have e2 : Within 57 ((Dbl.num 1).sub ((Dbl.num y).sub (Dbl.ofNat ⌊y⌋₊))) := within_sub one d2 (by norm_num)
    have row : ∀ a b : α, Within 68 (((ev.toD a).mul ((Dbl.num 1).sub ((Dbl.num x).sub (Dbl.ofNat ⌊x⌋₊)))).add
        ((ev.toD b).mul ((Dbl.num x).sub (Dbl.ofNat ⌊x⌋₊)))) := fun a b =>
      within_add (within_mul (hev a) e1 (by norm_num))
        ((within_mul (hev b) d1 (by norm_num)).mono (by norm_num)) (by norm_num)
    exact (within_add (within_mul (row _ _) e2 (by norm_num))
      ((within_mul (row _ _) d2 (by norm_num)).mono (by norm_num)) (by norm_num)).mono (by norm_num)

theorem bilinear_outside (ev : Elem α) (zero : α) (s : im.Shows w h f) {x y : Dbl}
    (ho : x.lt (.num 0) ∨ ((Dbl.ofNat w).sub (.num 1)).lt x ∨ y.lt (.num 0) ∨ ((Dbl.ofNat h).sub (.num 1)).lt y) :
    bilinear ev zero im x y = .ok zero := by
  unfold bilinear
  simp only
  rw [if_pos (by rw [s.width, s.height]; exact ho)]

theorem bilinear_nan (ev : Elem α) (zero : α) (s : im.Shows w h f) (hw : w ≤ 2 ^ 53) (hh : h ≤ 2 ^ 53) {x y : Dbl}
    (hx : NotOutside w x) (hy : NotOutside h y) (hn : x = .nan ∨ y = .nan) : bilinear ev zero im x y = .ub := by
  have no : ∀ {n : Nat} {v : Dbl}, n ≤ 2 ^ 53 → NotOutside n v →
      ¬ v.lt (.num 0) ∧ ¬ ((Dbl.ofNat n).sub (.num 1)).lt v := by
    rintro n v hn (rfl | ⟨r, rfl, h0, h1⟩)
    · exact ⟨nan_not_lt _, not_lt_nan _⟩
    · rw [ofNat_sub_one hn]
      exact ⟨not_lt.2 h0, not_lt.2 h1⟩
  obtain ⟨a1, a2⟩ := no hw hx
  obtain ⟨b1, b2⟩ := no hh hy
  unfold bilinear
  simp only
  rw [if_neg (by rw [s.width, s.height]; exact fun h => h.elim a1 fun h => h.elim a2 fun h => h.elim b1 b2)]
  rcases hx with rfl | ⟨r, rfl, h0, h1⟩
  · rfl
  · rw [(inside_index hw h0 h1).1, Res.ok_bind]
    rcases hn with hn | rfl
    · cases hn
    · rfl

theorem within_kernel {d : Dbl} (hd : Within 60 d) : Within 192 (kernel d) := by
  have t := within_abs hd
  have t2 := within_mul t t (by norm_num)
  have t3 := within_mul t2 t (by norm_num)
  have c : ∀ {x : ℝ}, |x| ≤ 4 → Within 2 (.num x) := fun h => within_num (by norm_num; exact h)
  have a1 := within_mul (c (x := 1.5) (by rw [abs_of_nonneg] <;> norm_num)) t3 (by norm_num)
  have a2 := within_mul (c (x := 2.5) (by rw [abs_of_nonneg] <;> norm_num)) t2 (by norm_num)
  have b1 := within_mul (c (x := -0.5) (by rw [abs_neg, abs_of_nonneg] <;> norm_num)) t3 (by norm_num)
  have b2 := within_mul (c (x := -2.5) (by rw [abs_neg, abs_of_nonneg] <;> norm_num)) t2 (by norm_num)
  have b3 := within_mul (c (x := -4) (by rw [abs_neg, abs_of_nonneg] <;> norm_num)) t (by norm_num)
  have one : Within 2 (.num 1) := c (by rw [abs_one]; norm_num)
  have two : Within 2 (.num (-2)) := c (by rw [abs_neg, abs_of_nonneg] <;> norm_num)
  unfold kernel
  simp only
  split
  · exact (within_add (within_sub a1 (a2.mono (by norm_num)) (by norm_num)) (one.mono (by norm_num))
      (by norm_num)).mono (by norm_num)
  · split
    · exact (within_sub (within_add (within_sub b1 (b2.mono (by norm_num)) (by norm_num)) (b3.mono (by norm_num))
        (by norm_num)) (two.mono (by norm_num)) (by norm_num)).mono (by norm_num)
    · exact within_num (by rw [abs_zero]; positivity)

/-- The value of `bicubic` away from the border. -/
theorem bicubic_inside' (ev : Elem α) (zero : α) (s : im.Shows w h f) (hw : w ≤ 2 ^ 53) (hh : h ≤ 2 ^ 53)
    {x y : ℝ} (hx0 : 1 ≤ x) (hx : x < (w : ℝ) - 2) (hy0 : 1 ≤ y) (hy : y < (h : ℝ) - 2) :
    ∃ v, bicubic ev zero im (.num x) (.num y) = ev.fromD v ∧ ((∀ a, Within 8 (ev.toD a)) → Within 900 v) := by
  obtain ⟨ix, -, bx⟩ := inside_index hw (r := x) (by linarith) (by linarith)
  obtain ⟨iy, -, by'⟩ := inside_index hh (r := y) (by linarith) (by linarith)
  have hi1 : 1 ≤ ⌊x⌋₊ := by rw [Nat.one_le_floor_iff]; exact hx0
  have hj1 : 1 ≤ ⌊y⌋₊ := by rw [Nat.one_le_floor_iff]; exact hy0
  have hi2 : ⌊x⌋₊ + 2 < w := by
    have h1 := Nat.floor_le (a := x) (by linarith)
    have : ((⌊x⌋₊ + 2 : Nat) : ℝ) < w := by push_cast; linarith
    exact_mod_cast this
  have hj2 : ⌊y⌋₊ + 2 < h := by
    have h1 := Nat.floor_le (a := y) (by linarith)
    have : ((⌊y⌋₊ + 2 : Nat) : ℝ) < h := by push_cast; linarith
    exact_mod_cast this
  have hno : ¬ ((Dbl.num x).lt (.num 1) ∨ ((Dbl.ofNat w).sub (.num 2)).le (.num x) ∨
      (Dbl.num y).lt (.num 1) ∨ ((Dbl.ofNat h).sub (.num 2)).le (.num y)) := by
    rw [ofNat_sub_two hw, ofNat_sub_two hh]
    rintro (h1 | h1 | h1 | h1)
    · exact absurd (show x < 1 from h1) (not_lt.2 hx0)
    · exact absurd (show (w : ℝ) - 2 ≤ x from h1) (not_le.2 hx)
    · exact absurd (show y < 1 from h1) (not_lt.2 hy0)
    · exact absurd (show (h : ℝ) - 2 ≤ y from h1) (not_le.2 hy)
  have idx : ∀ n m k : Nat, 1 ≤ n → n + 2 < m → m ≤ 2 ^ 53 → k < 4 →
      wadd (wsub n 1) k < m ∧ wadd (wsub n 1) k ≤ 2 ^ 53 := by
    intro n m k h1 h2 h3 h4
    rw [wsub_of_le h1 (by omega), wadd_of_lt (by omega)]; omega
  have zero0 : ∀ k, Within k (.num 0) := fun k => within_num (by rw [abs_zero]; positivity)
  have hrow : ∀ v, v < h → ∃ r, forUp 4 (fun (row : Dbl) i => do
      let q ← im.at2 (wadd (wsub ⌊x⌋₊ 1) i) v
      .ok (row.add ((ev.toD q).mul (kernel ((Dbl.num x).sub (Dbl.ofNat (wadd (wsub ⌊x⌋₊ 1) i))))))) (Dbl.num 0) = .ok r ∧
      ((∀ a, Within 8 (ev.toD a)) → Within 210 r) := by
    intro v hv
    rw [forUp_four]
    simp only [s.px _ _ (idx _ _ 0 hi1 hi2 hw (by norm_num)).1 hv, s.px _ _ (idx _ _ 1 hi1 hi2 hw (by norm_num)).1 hv,
      s.px _ _ (idx _ _ 2 hi1 hi2 hw (by norm_num)).1 hv, s.px _ _ (idx _ _ 3 hi1 hi2 hw (by norm_num)).1 hv,
      Res.ok_bind]
    refine ⟨_, rfl, fun hev => ?_⟩
    have term : ∀ k, k < 4 → ∀ a, Within 201 ((ev.toD a).mul
        (kernel ((Dbl.num x).sub (Dbl.ofNat (wadd (wsub ⌊x⌋₊ 1) k))))) := fun k hk a =>
      within_mul (hev a) (within_kernel ((within_sub bx (within_ofNat (idx _ _ k hi1 hi2 hw hk).2)
        (by norm_num)).mono (by norm_num))) (by norm_num)
    exact (within_add (within_add (within_add (within_add (zero0 201) (term 0 (by norm_num) _) (by norm_num))
      ((term 1 (by norm_num) _).mono (by norm_num)) (by norm_num)) ((term 2 (by norm_num) _).mono (by norm_num))
      (by norm_num)) ((term 3 (by norm_num) _).mono (by norm_num)) (by norm_num)).mono (by norm_num)
  unfold bicubic
  simp only
  rw [if_neg (by rw [s.width, s.height]; exact hno), ix, Res.ok_bind, iy, Res.ok_bind, forUp_four]
  obtain ⟨r0, e0, b0⟩ := hrow _ (idx _ _ 0 hj1 hj2 hh (by norm_num)).1
  obtain ⟨r1, e1, b1⟩ := hrow _ (idx _ _ 1 hj1 hj2 hh (by norm_num)).1
  obtain ⟨r2, e2, b2⟩ := hrow _ (idx _ _ 2 hj1 hj2 hh (by norm_num)).1
  obtain ⟨r3, e3, b3⟩ := hrow _ (idx _ _ 3 hj1 hj2 hh (by norm_num)).1
  simp only [e0, e1, e2, e3, Res.ok_bind]
  refine ⟨_, rfl, fun hev => ?_⟩
  have term : ∀ k, k < 4 → ∀ r, Within 210 r → Within 403 (r.mul
      (kernel ((Dbl.num y).sub (Dbl.ofNat (wadd (wsub ⌊y⌋₊ 1) k))))) := fun k hk r hr =>
    within_mul hr (within_kernel ((within_sub by' (within_ofNat (idx _ _ k hj1 hj2 hh hk).2)
      (by norm_num)).mono (by norm_num))) (by norm_num)
  exact (within_add (within_add (within_add (within_add (zero0 403) (term 0 (by norm_num) _ (b0 hev)) (by norm_num))
    ((term 1 (by norm_num) _ (b1 hev)).mono (by norm_num)) (by norm_num))
    ((term 2 (by norm_num) _ (b2 hev)).mono (by norm_num)) (by norm_num))
    ((term 3 (by norm_num) _ (b3 hev)).mono (by norm_num)) (by norm_num)).mono (by norm_num)

/-- The conversions at both ends of a sampler are defined: for every value, or for the values that pixels give. -/
def Elem.Sound (ev : Elem α) : Prop :=
  (∀ v, ∃ a, ev.fromD v = .ok a) ∨ ((∀ a, Within 8 (ev.toD a)) ∧ ∀ v, Within 900 v → ∃ a, ev.fromD v = .ok a)

theorem Elem.dbl_sound : Elem.dbl.Sound := .inl fun v => ⟨v, rfl⟩

theorem Elem.u8_sound : Elem.u8.Sound := by
  refine .inr ⟨fun b => within_num ?_, fun v hv => ?_⟩
  · rw [abs_of_nonneg (by positivity)]
    have : b.toNat < 256 := b.isLt
    have : b.toNat ≤ 2 ^ 8 := by omega
    exact_mod_cast this
  · obtain ⟨x, rfl, -⟩ := hv
    simp only [Elem.u8]
    split
    · exact ⟨_, rfl⟩
    · split <;> exact ⟨_, rfl⟩

theorem Elem.Sound.ok {ev : Elem α} (hs : ev.Sound) {r : Res α}
    (h : ∃ v, r = ev.fromD v ∧ ((∀ a, Within 8 (ev.toD a)) → Within 900 v)) : ∃ a, r = .ok a := by
  obtain ⟨v, rfl, hv⟩ := h
  rcases hs with h1 | ⟨h1, h2⟩
  · exact h1 v
  · exact h2 v (hv h1)

theorem bilinear_ok {ev : Elem α} (hs : ev.Sound) (zero : α) (s : im.Shows w h f) (hw : w ≤ 2 ^ 53) (hh : h ≤ 2 ^ 53)
    {x y : Dbl} (hx : x ≠ .nan) (hy : y ≠ .nan) : ∃ a, bilinear ev zero im x y = .ok a := by
  rcases coord_cases hw x with h1 | h1 | ⟨a, rfl, a0, a1⟩
  · exact ⟨zero, bilinear_outside ev zero s (h1.elim .inl fun h => .inr (.inl h))⟩
  · exact absurd h1 hx
  rcases coord_cases hh y with h1 | h1 | ⟨b, rfl, b0, b1⟩
  · exact ⟨zero, bilinear_outside ev zero s (h1.elim (fun h => .inr (.inr (.inl h))) fun h => .inr (.inr (.inr h)))⟩
  · exact absurd h1 hy
  exact hs.ok (bilinear_inside' ev zero s hw hh a0 a1 b0 b1)

theorem bicubic_border (ev : Elem α) (zero : α) (s : im.Shows w h f) {x y : Dbl}
    (hb : x.lt (.num 1) ∨ ((Dbl.ofNat w).sub (.num 2)).le x ∨ y.lt (.num 1) ∨ ((Dbl.ofNat h).sub (.num 2)).le y) :
    bicubic ev zero im x y = bilinear ev zero im x y := by
  unfold bicubic
  simp only
  rw [if_pos (by rw [s.width, s.height]; exact hb)]

theorem mid_cases {n : Nat} (h : n ≤ 2 ^ 53) (x : Dbl) :
    (x.lt (.num 1) ∨ ((Dbl.ofNat n).sub (.num 2)).le x) ∨ x = .nan ∨ ∃ r, x = .num r ∧ 1 ≤ r ∧ r < (n : ℝ) - 2 := by
  rw [ofNat_sub_two h]
  cases x with
  | nan => exact .inr (.inl rfl)
  | pinf => exact .inl (.inr trivial)
  | ninf => exact .inl (.inl trivial)
  | num r =>
    by_cases h0 : r < 1
    · exact .inl (.inl h0)
    · by_cases h1 : (n : ℝ) - 2 ≤ r
      · exact .inl (.inr h1)
      · exact .inr (.inr ⟨r, rfl, not_lt.1 h0, not_le.1 h1⟩)

theorem bicubic_ok {ev : Elem α} (hs : ev.Sound) (zero : α) (s : im.Shows w h f) (hw : w ≤ 2 ^ 53) (hh : h ≤ 2 ^ 53)
    {x y : Dbl} (hx : x ≠ .nan) (hy : y ≠ .nan) : ∃ a, bicubic ev zero im x y = .ok a := by
  have border := fun hb => (bicubic_border ev zero s (x := x) (y := y) hb).symm ▸ bilinear_ok hs zero s hw hh hx hy
  rcases mid_cases hw x with h1 | h1 | ⟨a, rfl, a0, a1⟩
  · exact border (h1.elim .inl fun h => .inr (.inl h))
  · exact absurd h1 hx
  rcases mid_cases hh y with h1 | h1 | ⟨b, rfl, b0, b1⟩
  · exact border (h1.elim (fun h => .inr (.inr (.inl h))) fun h => .inr (.inr (.inr h)))
  · exact absurd h1 hy
  exact hs.ok (bicubic_inside' ev zero s hw hh a0 a1 b0 b1)

theorem bicubic_nan (ev : Elem α) (zero : α) (s : im.Shows w h f) (hw : w ≤ 2 ^ 53) (hh : h ≤ 2 ^ 53) {x y : Dbl}
    (hx : NotOutside w x) (hy : NotOutside h y) (hn : x = .nan ∨ y = .nan) : bicubic ev zero im x y = .ub := by
  by_cases hb : x.lt (.num 1) ∨ ((Dbl.ofNat w).sub (.num 2)).le x ∨ y.lt (.num 1) ∨ ((Dbl.ofNat h).sub (.num 2)).le y
  · rw [bicubic_border ev zero s hb, bilinear_nan ev zero s hw hh hx hy hn]
  · unfold bicubic
    simp only
    rw [if_neg (by rw [s.width, s.height]; exact hb)]
    rcases hx with rfl | ⟨r, rfl, h0, h1⟩
    · rfl
    · rw [(inside_index hw h0 h1).1, Res.ok_bind]
      rcases hn with hn | rfl
      · cases hn
      · rfl

theorem bicubic_outside (ev : Elem α) (zero : α) (s : im.Shows w h f) (hw : w ≤ 2 ^ 53) (hh : h ≤ 2 ^ 53) {x y : Dbl}
    (ho : x.lt (.num 0) ∨ ((Dbl.ofNat w).sub (.num 1)).lt x ∨ y.lt (.num 0) ∨ ((Dbl.ofNat h).sub (.num 1)).lt y) :
    bicubic ev zero im x y = .ok zero := by
  have up : ∀ v : Dbl, v.lt (.num 0) → v.lt (.num 1) := by
    intro v hv
    cases v with
    | num r => exact lt_trans (show r < 0 from hv) (show (0 : ℝ) < 1 by norm_num)
    | ninf => trivial
    | pinf => exact hv.elim
    | nan => exact hv.elim
  have down : ∀ {n : Nat} (v : Dbl), n ≤ 2 ^ 53 → ((Dbl.ofNat n).sub (.num 1)).lt v → ((Dbl.ofNat n).sub (.num 2)).le v := by
    intro n v hn hv
    rw [ofNat_sub_one hn] at hv
    rw [ofNat_sub_two hn]
    cases v with
    | num r => exact (show (n : ℝ) - 2 ≤ r by have : (n : ℝ) - 1 < r := hv; linarith)
    | pinf => trivial
    | ninf => exact hv.elim
    | nan => exact hv.elim
  rw [bicubic_border ev zero s, bilinear_outside ev zero s ho]
  rcases ho with h | h | h | h
  · exact .inl (up _ h)
  · exact .inr (.inl (down _ hw h))
  · exact .inr (.inr (.inl (up _ h)))
  · exact .inr (.inr (.inr (down _ hh h)))

/-- Sampling never throws. -/
theorem bicubic_ok_or_ub {ev : Elem α} (hs : ev.Sound) (zero : α) (s : im.Shows w h f) (hw : w ≤ 2 ^ 53)
    (hh : h ≤ 2 ^ 53) (x y : Dbl) : (∃ a, bicubic ev zero im x y = .ok a) ∨ bicubic ev zero im x y = .ub := by
  rcases coord_cases hw x with h1 | hx
  · exact .inl ⟨zero, bicubic_outside ev zero s hw hh (h1.elim .inl fun h => .inr (.inl h))⟩
  rcases coord_cases hh y with h1 | hy
  · exact .inl ⟨zero, bicubic_outside ev zero s hw hh
      (h1.elim (fun h => .inr (.inr (.inl h))) fun h => .inr (.inr (.inr h)))⟩
  by_cases hn : x = .nan ∨ y = .nan
  · exact .inr (bicubic_nan ev zero s hw hh hx hy hn)
  · exact .inl (bicubic_ok hs zero s hw hh (fun h => hn (.inl h)) fun h => hn (.inr h))

/-! ### Rotation -/

theorem dbl_abs_le_nat {z : ℝ} {n : Nat} (hn : n ≤ 2 ^ 53) (h : |z| ≤ n) : |dbl z| ≤ n := by
  rw [abs_le] at h ⊢
  refine ⟨?_, dbl_le_nat hn h.2⟩
  have h1 : -z ≤ n := by linarith [h.1]
  have h2 := dbl_le_nat hn h1
  have h3 : dbl (-z) = -dbl z := fl_neg z
  linarith

theorem rnd_nat {z : ℝ} {n : Nat} (hn : n ≤ 2 ^ 53) (h : |z| ≤ n) : Dbl.rnd z = .num (dbl z) := by
  refine rnd_of_lt (lt_of_le_of_lt (dbl_abs_le_nat hn h) ?_)
  have : (n : ℝ) ≤ 2 ^ 53 := by exact_mod_cast hn
  exact lt_of_le_of_lt this (pow_lt_1024 (by norm_num))

theorem abs_mul_le {a : Nat} {c : ℝ} (hc : |c| ≤ 1) : |(a : ℝ) * c| ≤ a := by
  rw [abs_mul, abs_of_nonneg (by positivity : (0 : ℝ) ≤ a)]
  nlinarith [abs_nonneg c, (by positivity : (0 : ℝ) ≤ a)]

theorem side_ok {a b : Nat} {c s : ℝ} (hab : a + b ≤ 2 ^ 53) (hc : |c| ≤ 1) (hs : |s| ≤ 1) :
    ∃ n, side (Dbl.ofNat a) (Dbl.ofNat b) (.num c) (.num s) = .ok n ∧ n ≤ a + b ∧
      n = ⌈dbl (|dbl (a * c)| + |dbl (b * s)|)⌉₊ := by
  have h1 := abs_mul_le (a := a) hc
  have h2 := abs_mul_le (a := b) hs
  have k1 := dbl_abs_le_nat (n := a) (by omega) h1
  have k2 := dbl_abs_le_nat (n := b) (by omega) h2
  have h0 : 0 ≤ |dbl ((a : ℝ) * c)| + |dbl ((b : ℝ) * s)| := by positivity
  have h3 : |(|dbl ((a : ℝ) * c)| + |dbl ((b : ℝ) * s)|)| ≤ ((a + b : Nat) : ℝ) := by
    rw [abs_of_nonneg h0]; push_cast; linarith
  have h4 := dbl_nonneg h0
  have h5 := dbl_abs_le_nat hab h3
  rw [abs_of_nonneg h4] at h5
  have e : (((Dbl.ofNat a).mul (.num c)).abs.add ((Dbl.ofNat b).mul (.num s)).abs) =
      .num (dbl (|dbl ((a : ℝ) * c)| + |dbl ((b : ℝ) * s)|)) := by
    rw [ofNat_eq (by omega), ofNat_eq (by omega)]
    show (Dbl.rnd ((a : ℝ) * c)).abs.add (Dbl.rnd ((b : ℝ) * s)).abs = _
    rw [rnd_nat (n := a) (by omega) h1, rnd_nat (n := b) (by omega) h2]
    exact rnd_nat hab h3
  set y := dbl (|dbl ((a : ℝ) * c)| + |dbl ((b : ℝ) * s)|) with hy
  refine ⟨⌈y⌉₊, ?_, Nat.ceil_le.2 h5, rfl⟩
  unfold side
  rw [e]
  show toSize (⌈y⌉ : ℝ) = _
  have e2 : ((⌈y⌉ : ℤ) : ℝ) = ((⌈y⌉₊ : Nat) : ℝ) := by
    have : ((⌈y⌉₊ : Nat) : ℤ) = ⌈y⌉ := Int.natCast_ceil_eq_ceil h4
    rw [← this]; simp
  rw [e2]
  exact toSize_nat (by have := Nat.ceil_le.2 h5; omega)

theorem centre_eq {n : Nat} (h : n ≤ 2 ^ 53) : centre (Dbl.ofNat n) = .num (((n : ℝ) - 1) / 2) := by
  have hi : |((n : ℤ) - 1)| ≤ 2 ^ 53 := by
    rw [abs_le]
    have : (n : ℤ) ≤ 2 ^ 53 := by exact_mod_cast h
    constructor <;> omega
  have hr : |(n : ℝ) - 1| ≤ 2 ^ 53 := by exact_mod_cast hi
  have e : dbl (((n : ℝ) - 1) / 2) = ((n : ℝ) - 1) / 2 := by
    refine dbl_of_rep ⟨(n : ℤ) - 1, -1, hi, ?_⟩
    push_cast
    rw [zpow_neg_one]; ring
  unfold centre
  rw [ofNat_sub_one h]
  show (if (2 : ℝ) = 0 then _ else Dbl.rnd (((n : ℝ) - 1) / 2)) = _
  rw [if_neg (by norm_num), rnd_of_lt, e]
  rw [e, abs_div, abs_of_pos (show (0 : ℝ) < 2 by norm_num)]
  refine lt_of_le_of_lt (b := (2 : ℝ) ^ 53) ?_ (pow_lt_1024 (by norm_num))
  linarith [abs_nonneg ((n : ℝ) - 1)]

theorem offset_eq {n x : Nat} (h : n ≤ 2 ^ 40) (hx : x < n) :
    (Dbl.ofNat x).sub (centre (Dbl.ofNat n)) = .num ((x : ℝ) - ((n : ℝ) - 1) / 2) ∧
      |(x : ℝ) - ((n : ℝ) - 1) / 2| ≤ (n : ℝ) / 2 := by
  have hb : |(x : ℝ) - ((n : ℝ) - 1) / 2| ≤ (n : ℝ) / 2 := by
    have h1 : (x : ℝ) + 1 ≤ n := by exact_mod_cast hx
    have h2 : (0 : ℝ) ≤ x := by positivity
    rw [abs_le]; constructor <;> linarith
  refine ⟨?_, hb⟩
  have hi : |(2 * (x : ℤ) - n + 1)| ≤ 2 ^ 53 := by
    rw [abs_le]
    have : (n : ℤ) ≤ 2 ^ 40 := by exact_mod_cast h
    have : (x : ℤ) < n := by exact_mod_cast hx
    constructor <;> omega
  have e : dbl ((x : ℝ) - ((n : ℝ) - 1) / 2) = (x : ℝ) - ((n : ℝ) - 1) / 2 := by
    refine dbl_of_rep ⟨2 * (x : ℤ) - n + 1, -1, hi, ?_⟩
    push_cast
    rw [zpow_neg_one]; ring
  rw [centre_eq (by omega), ofNat_eq (by omega)]
  show Dbl.rnd ((x : ℝ) + -(((n : ℝ) - 1) / 2)) = _
  rw [← sub_eq_add_neg, rnd_of_lt, e]
  rw [e]
  have : (n : ℝ) ≤ 2 ^ 40 := by exact_mod_cast h
  refine lt_of_le_of_lt (b := (2 : ℝ) ^ 40) ?_ (pow_lt_1024 (by norm_num))
  linarith [abs_nonneg ((x : ℝ) - ((n : ℝ) - 1) / 2)]

theorem position_eq {a b c s m : ℝ} {M : Nat} (hM : M ≤ 2 ^ 40) (ha : |a| ≤ M) (hb : |b| ≤ M) (hm : |m| ≤ M)
    (hc : |c| ≤ 1) (hs : |s| ≤ 1) :
    ∃ v, (((Dbl.num a).mul (.num c)).add ((Dbl.num b).mul (.num s))).add (.num m) = .num v ∧
      |v - (a * c + b * s + m)| ≤ M / 2 ^ 50 := by
  have hM0 : (0 : ℝ) ≤ M := by positivity
  have h1 : |a * c| ≤ M := by
    rw [abs_mul]; nlinarith [abs_nonneg a, abs_nonneg c]
  have h2 : |b * s| ≤ M := by
    rw [abs_mul]; nlinarith [abs_nonneg b, abs_nonneg s]
  have k1 := dbl_abs_le_nat (n := M) (by omega) h1
  have k2 := dbl_abs_le_nat (n := M) (by omega) h2
  have h3 : |dbl (a * c) + dbl (b * s)| ≤ ((2 * M : Nat) : ℝ) := by
    have := abs_add_le (dbl (a * c)) (dbl (b * s))
    push_cast; linarith
  have k3 := dbl_abs_le_nat (n := 2 * M) (by omega) h3
  have h4 : |dbl (dbl (a * c) + dbl (b * s)) + m| ≤ ((3 * M : Nat) : ℝ) := by
    have := abs_add_le (dbl (dbl (a * c) + dbl (b * s))) m
    push_cast at k3 ⊢; linarith
  refine ⟨dbl (dbl (dbl (a * c) + dbl (b * s)) + m), ?_, ?_⟩
  · show ((Dbl.rnd (a * c)).add (Dbl.rnd (b * s))).add (.num m) = _
    rw [rnd_nat (n := M) (by omega) h1, rnd_nat (n := M) (by omega) h2]
    show (Dbl.rnd _).add (.num m) = _
    rw [rnd_nat (n := 2 * M) (by omega) h3]
    exact rnd_nat (n := 3 * M) (by omega) h4
  · have e1 := dbl_err (a * c)
    have e2 := dbl_err (b * s)
    have e3 := dbl_err (dbl (a * c) + dbl (b * s))
    have e4 := dbl_err (dbl (dbl (a * c) + dbl (b * s)) + m)
    push_cast at h3 h4
    have he := eps_pos
    have b1 : |dbl (a * c) - a * c| ≤ eps * M := e1.trans (mul_le_mul_of_nonneg_left h1 he.le)
    have b2 : |dbl (b * s) - b * s| ≤ eps * M := e2.trans (mul_le_mul_of_nonneg_left h2 he.le)
    have b3 := e3.trans (mul_le_mul_of_nonneg_left h3 he.le)
    have b4 := e4.trans (mul_le_mul_of_nonneg_left h4 he.le)
    have tot : |dbl (dbl (dbl (a * c) + dbl (b * s)) + m) - (a * c + b * s + m)| ≤ eps * (7 * M) := by
      rw [abs_le] at b1 b2 b3 b4 ⊢
      constructor <;> nlinarith [b1.1, b1.2, b2.1, b2.2, b3.1, b3.2, b4.1, b4.2]
    refine tot.trans ?_
    unfold eps
    rw [div_mul_eq_mul_div, div_le_div_iff₀ (by positivity) (by positivity)]
    nlinarith

end TinyDIP.Sp
