import Verif.Spec.HistSpecial
import Verif.Lemmas.Special
import Verif.Lemmas.Fit
import Verif.Lemmas.Hist
import Verif.Props.Hist
import Verif.Props.Special

/-!
# Property C215: a histogram with bins of a picture of `double`

Full statement of C215: `histogram_with_bins` of a picture of `double` counts every pixel once, in a bin whose interval
of the range contains it up to rounding, also with the default range and for pixels that are infinite or NaN.

What is missing: the default range overflows, so that every pixel is counted in the first bin; infinite and NaN pixels
make the call undefined; ranges that do not start at zero are wrong already in exact arithmetic, see C33.
-/

namespace TinyDIP.Props

open TinyDIP Image Hist Rnd Sp Dbl

/-! ## C215 -/

theorem ofNat_num {n : Nat} (hn : n ≤ 2 ^ 50) : Dbl.ofNat n = .num n := by
  have e : dbl (n : ℝ) = n := dbl_nat (hn.trans (by norm_num))
  unfold Dbl.ofNat
  rw [rnd_of_lt, e]
  rw [e, abs_of_nonneg (by positivity)]
  calc (n : ℝ) ≤ 2 ^ 50 := by exact_mod_cast hn
    _ < 2 ^ 1024 := pow_lt_1024 (by norm_num)

/-- The index of a number in a range that starts at zero. -/
theorem binIndexSp_num {bins : Nat} (hb : 0 < bins) (hb50 : bins ≤ 2 ^ 50) {max v : ℝ} (hrep : Rep 53 max)
    (h1 : 1 / 2 ^ 400 ≤ max) (h2 : max ≤ 2 ^ 400) (hv0 : 0 ≤ v) (hv : v ≤ max) :
    ∃ q : ℝ, binIndexSp bins (.num 0) (.num max) (.num v) = .ok ⌊q⌋₊ ∧ 0 ≤ q ∧
      |q - v * bins / max| ≤ (3 * eps) * (v * bins / max) := by
  have hm0 : (0 : ℝ) < max := lt_of_lt_of_le (by positivity) h1
  have hbR : (0 : ℝ) < bins := by exact_mod_cast hb
  have hb50R : (bins : ℝ) ≤ 2 ^ 50 := by exact_mod_cast hb50
  have i1 : Is 400 (.num v) v := ⟨rfl, by rw [abs_of_nonneg hv0]; linarith⟩
  have i2 : Is 50 (Dbl.ofNat bins) bins := ⟨ofNat_num hb50, by rw [abs_of_pos hbR]; exact hb50R⟩
  have i3 := is_mul i1 i2 (by norm_num)
  have i0 : Is 400 (.num 0) 0 := ⟨rfl, by rw [abs_zero]; positivity⟩
  have im : Is 400 (.num max) max := ⟨rfl, by rw [abs_of_pos hm0]; exact h2⟩
  have i4 := is_sub im i0 (by norm_num)
  rw [sub_zero, dbl_of_rep hrep] at i4
  have i5 := is_div (j := 400) i3 i4.1 (by rwa [abs_of_pos hm0]) (by norm_num)
  set a := v * bins with ha
  have ha0 : 0 ≤ a := by positivity
  have ea := dbl_err a
  have da := dbl_nonneg ha0
  have hq0 : 0 ≤ dbl a / max := by positivity
  have eq := dbl_err (dbl a / max)
  have dq := dbl_nonneg hq0
  have heps := eps_pos
  have heps1 : eps ≤ 1 / 2 ^ 53 := le_of_eq rfl
  have hqa : |dbl (dbl a / max) - a / max| ≤ 3 * eps * (a / max) := by
    rw [abs_of_nonneg ha0] at ea
    rw [abs_of_nonneg hq0] at eq
    have e1 : |dbl a / max - a / max| ≤ eps * (a / max) := by
      rw [← sub_div, abs_div, abs_of_pos hm0, ← mul_div_assoc]
      exact div_le_div_of_nonneg_right ea hm0.le
    have hr0 : 0 ≤ a / max := by positivity
    have e2 : dbl a / max ≤ 2 * (a / max) := by
      have := (abs_le.1 e1).2
      have : eps * (a / max) ≤ 1 * (a / max) :=
        mul_le_mul_of_nonneg_right (heps1.trans (by norm_num)) hr0
      linarith
    have e3 : eps * (dbl a / max) ≤ eps * (2 * (a / max)) := mul_le_mul_of_nonneg_left e2 heps.le
    have := abs_sub_le (dbl (dbl a / max)) (dbl a / max) (a / max)
    linarith
  refine ⟨dbl (dbl a / max), ?_, dq, hqa⟩
  unfold binIndexSp
  rw [i5.1]
  simp only [Dbl.floor, toIndex]
  have hlt : (dbl (dbl a / max)) < 2 ^ 64 := by
    have hr : a / max ≤ 2 ^ 50 := by
      rw [div_le_iff₀ hm0, ha]
      nlinarith
    have := (abs_le.1 hqa).2
    have h3 : 3 * eps * (a / max) ≤ 1 * (a / max) :=
      mul_le_mul_of_nonneg_right (by linarith [heps1.trans (by norm_num : (1 : ℝ) / 2 ^ 53 ≤ 1 / 8)]) (by positivity)
    have h4 : (2 : ℝ) ^ 51 < 2 ^ 64 := by norm_num
    have h5 : (2 : ℝ) ^ 51 = 2 * 2 ^ 50 := by norm_num
    linarith
  rw [toSize_ok (by exact_mod_cast Int.floor_nonneg.2 dq) (lt_of_le_of_lt (Int.floor_le _) hlt)]
  congr 1
  rw [← natCast_floor_eq_intCast_floor dq, Nat.floor_natCast]

/-- A picture of numbers in `[0, max]`, counted over that range: the counts sum to the number of pixels, and every
pixel is counted in one bin, whose interval contains it up to rounding. Missing: the default range, see
`C215_default_violation`, and pixels that are no numbers, see `C215_special_violation`. -/
theorem C215_bins_partial (bins : Nat) (hb : 0 < bins) (hb50 : bins ≤ 2 ^ 50) (im : Image Dbl) (w h : Nat)
    (f : Nat → Nat → ℝ) (s : im.Shows w h fun x y => .num (f x y)) (max : ℝ) (hrep : Rep 53 max)
    (h1 : 1 / 2 ^ 400 ≤ max) (h2 : max ≤ 2 ^ 400) (hr : ∀ x y, x < w → y < h → 0 ≤ f x y ∧ f x y ≤ max) :
    ∃ (t : ℝ → Nat) (out : List Nat), withBinsSp bins im (.num 0) (.num max) = .ok out ∧ out.length = bins ∧
      out.sum = w * h ∧ (∀ b, b < bins → out[b]? = some (pixelCount w h f fun v => t v == b)) ∧
      ∀ x y, x < w → y < h → t (f x y) < bins ∧ NearBin bins max (f x y) (t (f x y)) := by
  have hm0 : (0 : ℝ) < max := lt_of_lt_of_le (by positivity) h1
  have hbR : (0 : ℝ) < bins := by exact_mod_cast hb
  have hb50R : (bins : ℝ) ≤ 2 ^ 50 := by exact_mod_cast hb50
  have key : ∀ v : ℝ, ∃ q : ℝ, 0 ≤ v → v ≤ max → binIndexSp bins (.num 0) (.num max) (.num v) = .ok ⌊q⌋₊ ∧ 0 ≤ q ∧
      |q - v * bins / max| ≤ (3 * eps) * (v * bins / max) := by
    intro v
    by_cases hv : 0 ≤ v ∧ v ≤ max
    · obtain ⟨q, hq⟩ := binIndexSp_num hb hb50 hrep h1 h2 hv.1 hv.2
      exact ⟨q, fun _ _ => hq⟩
    · exact ⟨0, fun a b => absurd ⟨a, b⟩ hv⟩
  choose q hq using key
  have hq3 : ∀ v, 0 ≤ v → v ≤ max → ⌊q v⌋₊ ≤ bins := by
    intro v a b
    obtain ⟨-, q0, e⟩ := hq v a b
    have hr : v * bins / max ≤ bins := by
      rw [div_le_iff₀ hm0]
      nlinarith
    have h3 : 3 * eps * (v * bins / max) ≤ 3 * eps * 2 ^ 50 :=
      mul_le_mul_of_nonneg_left (hr.trans hb50R) (by linarith [eps_pos])
    have h4 : 3 * eps * 2 ^ 50 < 1 := by unfold eps; norm_num
    have := (abs_le.1 e).2
    have h5 : q v < ((bins + 1 : Nat) : ℝ) := by push_cast; linarith
    have := (Nat.floor_lt q0).2 h5
    omega
  let t : ℝ → Nat := fun v => if ⌊q v⌋₊ = bins then bins - 1 else ⌊q v⌋₊
  have htb : ∀ v, 0 ≤ v → v ≤ max → t v < bins := by
    intro v a b
    have := hq3 v a b
    simp only [t]
    split <;> omega
  let td : Dbl → Nat := fun v => match v with | .num x => t x | _ => 0
  have hmem : ∀ v ∈ im.data, ∃ x : ℝ, v = .num x ∧ 0 ≤ x ∧ x ≤ max := by
    intro v hv
    rw [s.data_eq, List.mem_map] at hv
    obtain ⟨p, hp, rfl⟩ := hv
    rw [mem_iterYX] at hp
    exact ⟨_, rfl, hr _ _ hp.1 hp.2⟩
  have hz : (List.replicate bins 0).sum = 0 := by simp
  obtain ⟨out, e, hl, hs, hc⟩ := loop_addDense (β := Dbl) td (fun out v => do
      let b ← binIndexSp bins (.num 0) (.num max) v
      if b = bins then addDense out (bins - 1) else addDense out b) im.data bins
    (by
      intro v hv d
      obtain ⟨x, rfl, a, b⟩ := hmem v hv
      rw [(hq x a b).1]
      simp only [Res.ok_bind, td, t]
      split <;> rfl)
    (by
      intro v hv
      obtain ⟨x, rfl, a, b⟩ := hmem v hv
      exact htb x a b) (List.replicate bins 0) (by simp)
    (by rw [hz, s.len]; have := s.fits; omega)
  refine ⟨t, out, e, hl, by rw [hs, hz, s.len]; omega, ?_, ?_⟩
  · intro b hlt
    have e2 : pixelCount w h f (fun v => t v == b) = pixelCount w h (fun x y => .num (f x y)) (fun v => td v == b) := rfl
    rw [hc b hlt, e2, ← pixelCount_eq s]
    simp only [List.getD_eq_getElem?_getD, List.getElem?_replicate, hlt, if_true, Option.getD_some,
      Nat.zero_add, List.count_eq_countP, List.countP_map]
    rfl
  · intro x y hx hy
    obtain ⟨a, b⟩ := hr x y hx hy
    generalize f x y = v at a b
    refine ⟨htb v a b, ?_⟩
    obtain ⟨-, q0, eq⟩ := hq v a b
    have hv : v = v * bins / max * (max / bins) := by field_simp
    have hc0 : 0 < max / bins := by positivity
    have hr0 : 0 ≤ v * bins / max := by positivity
    have hrb : v * bins / max ≤ bins := by
      rw [div_le_iff₀ hm0]
      nlinarith
    have hfl := Nat.floor_le q0
    have hfu := Nat.lt_floor_add_one (q v)
    have heps : 0 < eps := eps_pos
    have heps' : eps ≤ 1 / 1000 := by unfold eps; norm_num
    have e4 : (4 : ℝ) / 2 ^ 53 = 4 * eps := by unfold eps; norm_num
    have hk := hq3 v a b
    unfold NearBin
    rw [e4]
    simp only [t]
    generalize v * bins / max = r at *
    generalize q v = Q at *
    rw [hv]
    obtain ⟨l1, l2⟩ := abs_le.1 eq
    have low : ∀ n : ℝ, 0 ≤ n → n ≤ Q → n * (max / bins) * (1 - 4 * eps) ≤ r * (max / bins) := by
      intro n n0 hn
      have : n * (1 - 4 * eps) ≤ r := by
        have h3 : n * (1 - 4 * eps) ≤ r * (1 + 3 * eps) * (1 - 4 * eps) :=
          mul_le_mul_of_nonneg_right (by linarith) (by linarith)
        have h4 : (1 + 3 * eps) * (1 - 4 * eps) ≤ 1 := by nlinarith
        nlinarith
      calc n * (max / bins) * (1 - 4 * eps) = n * (1 - 4 * eps) * (max / bins) := by ring
        _ ≤ _ := mul_le_mul_of_nonneg_right this hc0.le
    have up : ∀ n : ℝ, 0 ≤ n → (Q ≤ n ∨ r ≤ n) → r * (max / bins) ≤ n * (max / bins) * (1 + 4 * eps) := by
      intro n n0 hn
      have : r ≤ n * (1 + 4 * eps) := by
        rcases hn with hn | hn
        · have h3 : r * (1 - 3 * eps) * (1 + 4 * eps) ≤ n * (1 + 4 * eps) :=
            mul_le_mul_of_nonneg_right (by linarith) (by linarith)
          have h4 : 1 ≤ (1 - 3 * eps) * (1 + 4 * eps) := by nlinarith
          nlinarith
        · nlinarith
      calc r * (max / bins) ≤ n * (1 + 4 * eps) * (max / bins) := mul_le_mul_of_nonneg_right this hc0.le
        _ = _ := by ring
    split_ifs with hkb
    · have hb1 : ((bins - 1 : Nat) : ℝ) = bins - 1 := by rw [Nat.cast_sub hb, Nat.cast_one]
      have hbb : (1 : ℝ) ≤ bins := by exact_mod_cast hb
      rw [hkb] at hfl
      rw [hb1, sub_add_cancel]
      exact ⟨low _ (by linarith) (by linarith), up _ hbR.le (.inr hrb)⟩
    · exact ⟨low _ (by positivity) hfl, up _ (by positivity) (.inl hfu.le)⟩

/-- Two pixels, 0 and 1/2. -/
noncomputable def halves : Image Dbl := picture 2 1 fun x _ => .num (x / 2)

example := C215_bins_partial 4 (by norm_num) (by norm_num) halves 2 1 (fun x _ => x / 2)
  (picture_shows 2 1 _ (by decide) (by decide)) 1 ⟨1, 0, by norm_num, by norm_num⟩
  (by rw [div_le_one (by positivity)]; exact one_le_pow₀ (by norm_num)) (one_le_pow₀ (by norm_num))
  (fun x y hx _ => ⟨by positivity, by
    have : (x : ℝ) ≤ 2 := by exact_mod_cast hx.le
    linarith⟩)

theorem range_overflow : dblMax.sub dblLowest = .pinf := by
  unfold dblMax dblLowest Dbl.sub
  simp only [Dbl.neg, Dbl.add, neg_neg]
  have e : (2 : ℝ) ^ 1024 - 2 ^ 971 + (2 ^ 1024 - 2 ^ 971) = ((2 ^ 53 - 1 : ℤ) : ℝ) * 2 ^ (972 : ℤ) := by
    have h1 : (2 : ℝ) ^ 1024 = 2 ^ 971 * 2 ^ 53 := by rw [← pow_add]
    have h2 : (2 : ℝ) ^ (972 : ℤ) = 2 ^ 971 * 2 := by rw [← pow_succ]; exact zpow_natCast 2 972
    rw [h1, h2]
    generalize (2 : ℝ) ^ 971 = K
    push_cast
    ring
  have hd : dbl (2 ^ 1024 - 2 ^ 971 + (2 ^ 1024 - 2 ^ 971)) = 2 ^ 1024 - 2 ^ 971 + (2 ^ 1024 - 2 ^ 971) :=
    dbl_of_rep ⟨2 ^ 53 - 1, 972, by norm_num, e⟩
  unfold Dbl.rnd
  rw [hd, if_pos]
  clear hd e
  have h1 : (2 : ℝ) ^ 1024 = 2 ^ 971 * 2 ^ 53 := by rw [← pow_add]
  rw [h1]
  have : (0 : ℝ) < 2 ^ 971 := by positivity
  clear h1
  generalize (2 : ℝ) ^ 971 = K at *
  linarith

/-- With the default range every picture of numbers up to `2 ^ 900` gives the same histogram: the width of the range
overflows to infinity, every quotient is zero, and all pixels are counted in the first bin. -/
theorem C215_default_violation (bins : Nat) (hb : 0 < bins) (hb50 : bins ≤ 2 ^ 50) (im : Image Dbl) (w h : Nat)
    (f : Nat → Nat → ℝ) (s : im.Shows w h fun x y => .num (f x y)) (hr : ∀ x y, x < w → y < h → |f x y| ≤ 2 ^ 900) :
    withBinsDefault bins im = .ok (w * h :: List.replicate (bins - 1) 0) := by
  have hmem : ∀ v ∈ im.data, binIndexSp bins dblLowest dblMax v = .ok 0 := by
    intro v hv
    rw [s.data_eq, List.mem_map] at hv
    obtain ⟨p, hp, rfl⟩ := hv
    rw [mem_iterYX] at hp
    have i1 : Is 900 (.num (f p.1 p.2)) (f p.1 p.2) := ⟨rfl, hr _ _ hp.1 hp.2⟩
    have i2 : Is 50 (Dbl.ofNat bins) bins := ⟨ofNat_num hb50, by
      rw [abs_of_nonneg (by positivity)]; exact_mod_cast hb50⟩
    have i3 := is_mul i1 i2 (by norm_num)
    unfold binIndexSp
    rw [i3.1, range_overflow]
    simp only [Dbl.div, Dbl.floor, toIndex, Int.floor_zero, Int.cast_zero]
    rw [toSize_ok le_rfl (by norm_num), Nat.floor_zero]
  have hstep : ∀ (l : List Dbl) (n : Nat), (∀ v ∈ l, binIndexSp bins dblLowest dblMax v = .ok 0) →
      n + l.length < 2 ^ 64 → loop (fun out v => do
        let b ← binIndexSp bins dblLowest dblMax v
        if b = bins then addDense out (bins - 1) else addDense out b) l (n :: List.replicate (bins - 1) 0) =
        .ok ((n + l.length) :: List.replicate (bins - 1) 0) := by
    intro l
    induction l with
    | nil => intro n _ _; rfl
    | cons v l ih =>
      intro n hl hn
      rw [List.length_cons] at hn
      rw [loop, hl v (by simp), Res.ok_bind, if_neg (by omega), addDense_ok (by simp) (by simp; omega)]
      simp only [List.set_cons_zero, List.getElem_cons_zero]
      rw [ih (n + 1) (fun v hv => hl v (by simp [hv])) (by omega), List.length_cons]
      congr 2
      omega
  have hrep : List.replicate bins 0 = 0 :: List.replicate (bins - 1) 0 := by
    rw [← List.replicate_succ, Nat.sub_add_cancel hb]
  unfold withBinsDefault withBinsSp
  rw [hrep, hstep im.data 0 hmem (by rw [s.len]; have := s.fits; omega), s.len, Nat.zero_add]

example : withBinsDefault 8 halves = .ok [2, 0, 0, 0, 0, 0, 0, 0] :=
  C215_default_violation 8 (by norm_num) (by norm_num) halves 2 1 (fun x _ => x / 2)
    (picture_shows 2 1 _ (by decide) (by decide)) (fun x y hx _ => by
      have h1 : (x : ℝ) ≤ 2 := by exact_mod_cast hx.le
      rw [abs_of_nonneg (by positivity)]
      exact (by linarith : (x : ℝ) / 2 ≤ 1).trans (one_le_pow₀ (by norm_num)))

theorem addDense_cases (h : List Nat) (v : Nat) : (∃ s', addDense h v = .ok s' ∧ True) ∨ addDense h v = .ub := by
  unfold addDense vget vset
  by_cases hv : v < h.length
  · left
    simp [hv, Res.ok_bind]
  · right
    simp [hv]

/-- One infinite or NaN pixel makes the call undefined, whatever the range and the other pixels. -/
theorem C215_special_violation (bins : Nat) (im : Image Dbl) (w h : Nat)
    (f : Nat → Nat → Dbl) (s : im.Shows w h f) (lowest max : Dbl) (x y : Nat) (hx : x < w) (hy : y < h)
    (hbad : f x y = .pinf ∨ f x y = .ninf ∨ f x y = .nan) : withBinsSp bins im lowest max = .ub := by
  have hidx : ∀ v, (∃ b, binIndexSp bins lowest max v = .ok b) ∨ binIndexSp bins lowest max v = .ub := by
    intro v
    unfold binIndexSp
    generalize (((v.mul (Dbl.ofNat bins)).div (max.sub lowest)).floor) = d
    cases d with
    | num r =>
      unfold toIndex toSize
      simp only
      split_ifs
      · exact .inl ⟨_, rfl⟩
      · exact .inr rfl
    | _ => exact .inr rfl
  have hub : binIndexSp bins lowest max (f x y) = .ub := by
    have hmul : ∀ d : Dbl, (d = .pinf ∨ d = .ninf ∨ d = .nan) → ∀ e : Dbl,
        (d.mul e = .pinf ∨ d.mul e = .ninf ∨ d.mul e = .nan) := by
      rintro d (rfl | rfl | rfl) e <;> cases e <;> simp only [Dbl.mul, infTimes] <;> (try split_ifs) <;> simp
    have hdiv : ∀ d : Dbl, (d = .pinf ∨ d = .ninf ∨ d = .nan) → ∀ e : Dbl,
        (d.div e = .pinf ∨ d.div e = .ninf ∨ d.div e = .nan) := by
      rintro d (rfl | rfl | rfl) e <;> cases e <;> simp only [Dbl.div] <;> (try split_ifs) <;> simp
    unfold binIndexSp
    rcases hdiv _ (hmul _ hbad (Dbl.ofNat bins)) (max.sub lowest) with e | e | e <;> rw [e] <;> rfl
  unfold withBinsSp
  refine loop_ub (fun _ => True) ?_ (b := f x y) ?_ ?_ _ trivial
  · intro v _ out _
    rcases hidx v with ⟨b, e⟩ | e
    · rw [e, Res.ok_bind]
      split_ifs
      · exact addDense_cases _ _
      · exact addDense_cases _ _
    · right; rw [e]; rfl
  · rw [s.data_eq, List.mem_map]
    exact ⟨(x, y), mem_iterYX.2 ⟨hx, hy⟩, rfl⟩
  · intro out _
    rw [hub]; rfl

/-- A number and a NaN. -/
noncomputable def numberNan : Image Dbl := picture 2 1 fun x _ => if x = 0 then .num 1 else .nan

example : withBinsSp 8 numberNan (.num 0) (.num 1) = .ub :=
  C215_special_violation 8 numberNan 2 1 _ (picture_shows 2 1 _ (by decide) (by decide)) _ _ 1 0 (by decide) (by decide)
    (.inr (.inr rfl))

end TinyDIP.Props
