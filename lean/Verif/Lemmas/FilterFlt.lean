import Verif.Model.FilterFlt
import Verif.Spec.FilterFlt
import Verif.Lemmas.Filter
import Verif.Lemmas.Flt
import Mathlib.Analysis.Complex.ExponentialBounds

/-! # Lemmas on Gaussian filtering with floating elements and with an integer standard deviation -/

namespace TinyDIP.Filter

open TinyDIP Image Finset Rnd

variable {p : Nat}

/-! ### Numbers near each other -/

theorem Near.refl {a : ℝ} (h : 0 ≤ a) : Near 1 a a := ⟨h, h, by simp, by simp⟩

theorem Near.symm {r a b : ℝ} (h : Near r a b) : Near r b a := ⟨h.2.1, h.1, h.2.2.2, h.2.2.1⟩

theorem Near.weaken {r s a b : ℝ} (h : Near r a b) (hs : s ≤ r) : Near s a b :=
  ⟨h.1, h.2.1, (mul_le_mul_of_nonneg_right hs h.1).trans h.2.2.1, (mul_le_mul_of_nonneg_right hs h.2.1).trans h.2.2.2⟩

theorem Near.trans {r s a b c : ℝ} (hr : 0 ≤ r) (hs : 0 ≤ s) (h : Near r a b) (h' : Near s b c) : Near (r * s) a c := by
  obtain ⟨ha, hb, h1, h2⟩ := h
  obtain ⟨-, hc, h3, h4⟩ := h'
  refine ⟨ha, hc, ?_, ?_⟩
  · have := mul_le_mul_of_nonneg_left h1 hs
    nlinarith
  · have := mul_le_mul_of_nonneg_left h4 hr
    nlinarith

theorem Near.add {r a b c d : ℝ} (h : Near r a b) (h' : Near r c d) : Near r (a + c) (b + d) := by
  obtain ⟨h1, h2, h3, h4⟩ := h
  obtain ⟨h5, h6, h7, h8⟩ := h'
  exact ⟨by linarith, by linarith, by rw [mul_add]; linarith, by rw [mul_add]; linarith⟩

theorem Near.sum {ι : Type} {r : ℝ} {s : Finset ι} {f g : ι → ℝ} (h : ∀ i ∈ s, Near r (f i) (g i)) :
    Near r (s.sum f) (s.sum g) := by
  refine ⟨Finset.sum_nonneg fun i hi => (h i hi).1, Finset.sum_nonneg fun i hi => (h i hi).2.1, ?_, ?_⟩
  · rw [Finset.mul_sum]; exact Finset.sum_le_sum fun i hi => (h i hi).2.2.1
  · rw [Finset.mul_sum]; exact Finset.sum_le_sum fun i hi => (h i hi).2.2.2

theorem Near.mul {r s a b c d : ℝ} (hr : 0 ≤ r) (hs : 0 ≤ s) (h : Near r a b) (h' : Near s c d) :
    Near (r * s) (a * c) (b * d) := by
  obtain ⟨h1, h2, h3, h4⟩ := h
  obtain ⟨h5, h6, h7, h8⟩ := h'
  refine ⟨mul_nonneg h1 h5, mul_nonneg h2 h6, ?_, ?_⟩
  · have := mul_le_mul h3 h7 (mul_nonneg hs h5) h2
    linarith [show r * s * (a * c) = r * a * (s * c) by ring]
  · have := mul_le_mul h4 h8 (mul_nonneg hs h6) h1
    linarith [show r * s * (b * d) = r * b * (s * d) by ring]

theorem Near.div {r s a b c d : ℝ} (hr : 0 ≤ r) (hs : 0 ≤ s) (h : Near r a b) (h' : Near s c d) (hc : 0 < c)
    (hd : 0 < d) : Near (r * s) (a / c) (b / d) := by
  obtain ⟨h1, h2, h3, h4⟩ := h
  obtain ⟨h5, h6, h7, h8⟩ := h'
  refine ⟨div_nonneg h1 h5, div_nonneg h2 h6, ?_, ?_⟩
  · rw [← mul_div_assoc, div_le_div_iff₀ hc hd]
    have := mul_le_mul h3 h8 (mul_nonneg hs h6) h2
    linarith [show r * s * a * d = r * a * (s * d) by ring]
  · rw [← mul_div_assoc, div_le_div_iff₀ hd hc]
    have := mul_le_mul h4 h7 (mul_nonneg hs h5) h1
    linarith [show r * s * b * c = r * b * (s * c) by ring]

/-- One rounding. -/
noncomputable def low (p : Nat) : ℝ := 1 - ulp1 p

theorem ulp1_le_half (hp : 1 ≤ p) : ulp1 p ≤ 1 / 2 := by
  unfold ulp1
  have : (2 : ℝ) ^ (-(p : ℤ)) ≤ 2 ^ (-(1 : ℤ)) := zpow_le_zpow_right₀ (by norm_num) (by omega)
  simpa using this

theorem low_pos (hp : 1 ≤ p) : 0 < low p := by unfold low; linarith [ulp1_le_half hp]
theorem low_le_one : low p ≤ 1 := by unfold low; linarith [ulp1_pos (p := p)]

theorem low_pow_anti (hp : 1 ≤ p) {k l : Nat} (h : k ≤ l) : low p ^ l ≤ low p ^ k :=
  pow_le_pow_of_le_one (low_pos hp).le low_le_one h

theorem Near.fl (hp : 1 ≤ p) {t : ℝ} (h : 0 ≤ t) : Near (low p) t (fl p t) := by
  have e := fl_err (p := p) t
  rw [abs_of_nonneg h, abs_le] at e
  have hu := ulp1_pos (p := p)
  have e1 : -(ulp1 p * t) ≤ Rnd.fl p t - t := e.1
  have e2 : Rnd.fl p t - t ≤ ulp1 p * t := e.2
  refine ⟨h, fl_nonneg h, by unfold low; linarith [show (1 - ulp1 p) * t = t - ulp1 p * t by ring], ?_⟩
  have h3 := mul_le_mul_of_nonneg_left (show Rnd.fl p t ≤ (1 + ulp1 p) * t by linarith) (low_pos hp).le
  refine h3.trans ?_
  unfold low
  have := mul_nonneg (mul_nonneg hu.le hu.le) h
  linarith [show (1 - ulp1 p) * ((1 + ulp1 p) * t) = t - ulp1 p * ulp1 p * t by ring]

/-- A sum of numbers that are not negative, in any grouping. -/
theorem brackets_near (hp : 1 ≤ p) {l : List (Flt p)} {v : Flt p} (h : Brackets (· + ·) l v)
    (h0 : ∀ a ∈ l, 0 ≤ a.val) : Near (low p ^ (l.length - 1)) (l.map (·.val)).sum v.val := by
  induction h with
  | one a => simpa using Near.refl (h0 a (by simp))
  | @node l₁ l₂ a b h1 h2 ih1 ih2 =>
    have n1 := brackets_ne h1
    have n2 := brackets_ne h2
    have i1 := (ih1 fun a ha => h0 a (by simp [ha])).weaken (low_pow_anti hp (l := l₁.length + l₂.length - 2) (by omega))
    have i2 := (ih2 fun a ha => h0 a (by simp [ha])).weaken (low_pow_anti hp (l := l₁.length + l₂.length - 2) (by omega))
    have i3 := i1.add i2
    have i4 := i3.trans (pow_nonneg (low_pos hp).le _) (low_pos hp).le (Near.fl hp i3.2.1)
    have e : (l₁ ++ l₂).length - 1 = (l₁.length + l₂.length - 2) + 1 := by simp; omega
    rw [e, pow_succ, List.map_append, List.sum_append]
    exact i4

theorem foldl_sum {α : Type} [AddCommMonoid α] (l : List α) (a : α) : l.foldl (· + ·) a = a + l.sum := by
  induction l generalizing a with
  | nil => simp
  | cons b l ih => simp [ih, add_assoc]

theorem data_of_shows {α : Type} {im : Image α} {w h : Nat} {f : Nat → Nat → α} (s : im.Shows w h f) :
    im.data = (List.range (w * h)).map fun i => f (i % w) (i / w) := by
  apply List.ext_getElem?
  intro i
  by_cases hi : i < w * h
  · have hw : 0 < w := Nat.pos_of_mul_pos_right (lt_of_le_of_lt (Nat.zero_le _) hi)
    have := s.data? (x := i % w) (y := i / w) (Nat.mod_lt _ hw) (Nat.div_lt_of_lt_mul hi)
    rw [Nat.mod_add_div] at this
    rw [this, List.getElem?_map, List.getElem?_range hi]; rfl
  · rw [List.getElem?_eq_none (by rw [s.len]; omega), List.getElem?_eq_none (by simpa using hi)]

theorem row_data {α : Type} {im : Image α} {n : Nat} {f : Nat → α} (s : im.Shows n 1 fun x _ => f x) :
    im.data = (List.range n).map f := by
  rw [data_of_shows s, Nat.mul_one]
  refine List.map_congr_left fun i hi => ?_
  rw [Nat.mod_eq_of_lt (List.mem_range.1 hi)]

theorem column_data {α : Type} {im : Image α} {n : Nat} {f : Nat → α} (s : im.Shows 1 n fun _ y => f y) :
    im.data = (List.range n).map f := by
  rw [data_of_shows s, Nat.one_mul]
  refine List.map_congr_left fun i _ => ?_
  rw [Nat.div_one]

theorem sum_list_range {α : Type} [AddCommMonoid α] (n : Nat) (g : Nat → α) :
    ((List.range n).map g).sum = (range n).sum g := by
  induction n with
  | zero => simp
  | succ n ih => rw [List.range_succ, List.map_append, List.sum_append, ih, Finset.sum_range_succ]; simp

/-! ### Two passes of a separable filter -/

/-- The exact value of the two convolutions and the crop. -/
theorem separable_eq (a b : Nat → ℝ) (F : Int → Int → ℝ) {w h n1 n2 x y : Nat} (hn1 : 0 < n1) (hn2 : 0 < n2)
    (hx : x < w) (hy : y < h) :
    convAt 1 n2 (fun _ j => b j) (w + 2 * n1) (h + 2 * n2)
      (fun i j => convAt n1 1 (fun i _ => a i) (w + 2 * n1) (h + 2 * n2) (fun X Y => F ((X : Int) - n1) ((Y : Int) - n2))
        (i + ((w + 2 * n1 + n1 - 1) / 2 - (w + 2 * n1) / 2)) (j + ((h + 2 * n2 + 1 - 1) / 2 - (h + 2 * n2) / 2)))
      ((w + 2 * n1) / 2 + x - w / 2 + ((w + 2 * n1 + 1 - 1) / 2 - (w + 2 * n1) / 2))
      ((h + 2 * n2) / 2 + y - h / 2 + ((h + 2 * n2 + n2 - 1) / 2 - (h + 2 * n2) / 2)) =
    (range n2).sum fun j => (range n1).sum fun i => b j * a i *
      F ((x : Int) + offset w n1 - i) ((y : Int) + offset h n2 - j) := by
  have ox : (w + 2 * n1 + n1 - 1) / 2 - (w + 2 * n1) / 2 = offset w n1 := by unfold offset; omega
  have oy : (h + 2 * n2 + n2 - 1) / 2 - (h + 2 * n2) / 2 = offset h n2 := by unfold offset; omega
  have bx : offset w n1 ≤ n1 / 2 := by unfold offset; omega
  have by' : offset h n2 ≤ n2 / 2 := by unfold offset; omega
  have z1 : (h + 2 * n2 + 1 - 1) / 2 - (h + 2 * n2) / 2 = 0 := by omega
  have z2 : (w + 2 * n1 + 1 - 1) / 2 - (w + 2 * n1) / 2 = 0 := by omega
  rw [convAt_col, z2, oy]
  refine Finset.sum_congr rfl fun j hj => ?_
  have hj := Finset.mem_range.mp hj
  unfold zeroExt
  rw [if_pos (by omega)]
  dsimp only
  rw [convAt_row, z1, ox, Finset.mul_sum]
  refine Finset.sum_congr rfl fun i hi => ?_
  have hi := Finset.mem_range.mp hi
  unfold zeroExt
  rw [if_pos (by omega), ← mul_assoc]
  refine congrArg₂ (fun p q => _ * F p q) ?_ ?_ <;> omega

theorem Near.zeroExt {r : ℝ} {w h : Nat} {f g : Nat → Nat → ℝ}
    (hfg : ∀ x y, x < w → y < h → Near r (f x y) (g x y)) (a b : Int) :
    Near r (zeroExt w h f a b) (zeroExt w h g a b) := by
  unfold TinyDIP.zeroExt
  by_cases hc : 0 ≤ a ∧ a < w ∧ 0 ≤ b ∧ b < h
  · rw [if_pos hc, if_pos hc]; exact hfg _ _ (by omega) (by omega)
  · rw [if_neg hc, if_neg hc]; exact ⟨le_rfl, le_rfl, by simp, by simp⟩

theorem Near.convAt {r s : ℝ} (hr : 0 ≤ r) (hs : 0 ≤ s) {w1 h1 w2 h2 : Nat} {f g f' g' : Nat → Nat → ℝ}
    (hfg : ∀ x y, x < w1 → y < h1 → Near r (f x y) (g x y))
    (hfg' : ∀ x y, x < w2 → y < h2 → Near s (f' x y) (g' x y)) (i j : Nat) :
    Near (r * s) (convAt w1 h1 f w2 h2 f' i j) (convAt w1 h1 g w2 h2 g' i j) := by
  unfold TinyDIP.convAt
  refine Near.sum fun l hl => Near.sum fun k hk => ?_
  exact (hfg k l (Finset.mem_range.1 hk) (Finset.mem_range.1 hl)).mul hr hs (Near.zeroExt hfg' _ _)

/-- The state of the sum of products of numbers that are not negative. -/
theorem near_step (hp : 1 ≤ p) {k : Nat} {S : ℝ} {s a b : Flt p} (ha : 0 ≤ a.val) (hb : 0 ≤ b.val)
    (h : Near (low p ^ (k + 1)) S s.val) :
    Near (low p ^ (k + 1 + 1)) (S + a.val * b.val) (s + a * b).val := by
  have l0 := (low_pos hp).le
  have hm : Near (low p ^ (k + 1)) (a.val * b.val) (a * b).val :=
    (Near.fl hp (mul_nonneg ha hb)).weaken (by simpa using low_pow_anti hp (show 1 ≤ k + 1 by omega))
  have h1 := h.add hm
  have h2 := h1.trans (pow_nonneg l0 _) l0 (Near.fl hp h1.2.1)
  rw [pow_succ]
  exact h2

/-- `conv2(x, y, true)` of numbers that are not negative. -/
theorem conv2_same_near (hp : 1 ≤ p) {x y : Image (Flt p)} {w1 h1 w2 h2 : Nat} {fx fy : Nat → Nat → Flt p}
    (sx : x.Shows w1 h1 fx) (sy : y.Shows w2 h2 fy)
    (hw1 : 0 < w1) (hh1 : 0 < h1) (hw2 : 0 < w2) (hh2 : 0 < h2)
    (hf : (w1 + w2) * (h1 + h2) < 2 ^ 64) (hb1 : 2 * (w1 + w2) < 2 ^ 64) (hb2 : 2 * (h1 + h2) < 2 ^ 64)
    (px : ∀ i j, i < w1 → j < h1 → 0 ≤ (fx i j).val) (py : ∀ i j, i < w2 → j < h2 → 0 ≤ (fy i j).val) :
    ∃ out G, (∀ order : List Nat, order.Perm (List.range ((w1 + w2 - 1) * (h1 + h2 - 1))) →
        conv2Ord order x y true = .ok out) ∧ out.Shows w1 h1 G ∧ ∀ i j, i < w1 → j < h1 →
      Near (low p ^ (w2 * h2 + 1)) (convAt w2 h2 (fun a b => (fy a b).val) w1 h1 (fun a b => (fx a b).val)
        (i + ((w1 + w2 - 1) / 2 - w1 / 2)) (j + ((h1 + h2 - 1) / 2 - h1 / 2))) (G i j).val := by
  have key : ∀ (yf : Image (Flt p)), yf.Shows w2 h2 (fun x y => fy (w2 - 1 - x) (h2 - 1 - y)) → ∀ i j,
      ∃ s n, conv2Pixel x yf i j = .ok s ∧ n ≤ min w1 w2 * min h1 h2 ∧
        Near (low p ^ (n + 1)) (convAt w1 h1 (fun a b => (fx a b).val) w2 h2 (fun a b => (fy a b).val) i j) s.val := by
    intro yf hyf i j
    refine conv2Pixel_run (v := Flt.val) (R := fun k S _ s => Near (low p ^ (k + 1)) S s.val) sx hyf i j hw1 hw2 ?_ ?_
    · exact ⟨le_rfl, le_rfl, by simp [Flt.zero_val], by simp [Flt.zero_val]⟩
    · intro a b c d ha hb hc hd k S _ s hR
      exact near_step hp (px a b ha hb) (py c d hc hd) hR
  obtain ⟨yf, -, syf⟩ := flipped_shows sy hw2 hh2
  choose P n hP hn hR using key yf syf
  have all := conv2Ord_of_pixels sx sy hw1 hh1 hw2 hh2 hf P (by
    intro yf' syf' i j
    rw [← hP i j, syf'.ext syf fun _ _ _ _ => rfl])
  obtain ⟨full, -, sf, -⟩ := all _ (.refl _)
  obtain ⟨out, eo, so⟩ := subimage2d_shows 0 sf (w := w1) (h := h1) (cx := (w1 + w2 - 1) / 2)
    (cy := (h1 + h2 - 1) / 2) hw1 hh1 sx.fits (by omega) (by omega) (by omega) (by omega) 0
  refine ⟨out, _, fun order ho => ?_, so, fun i j hi hj => ?_⟩
  · obtain ⟨full', -, sf', es⟩ := all order ho
    rw [es, sf'.ext sf fun _ _ _ _ => rfl, eo]
  rw [if_pos (by omega), Props.convAt_comm]
  have e1 : (w1 + w2 - 1) / 2 + i - w1 / 2 = i + ((w1 + w2 - 1) / 2 - w1 / 2) := by omega
  have e2 : (h1 + h2 - 1) / 2 + j - h1 / 2 = j + ((h1 + h2 - 1) / 2 - h1 / 2) := by omega
  rw [e1, e2]
  refine (hR _ _).weaken (low_pow_anti hp ?_)
  have := (hn (i + ((w1 + w2 - 1) / 2 - w1 / 2)) (j + ((h1 + h2 - 1) / 2 - h1 / 2))).trans
    (Nat.mul_le_mul (Nat.min_le_right w1 w2) (Nat.min_le_right h1 h2))
  omega

theorem gaussianFigureF_shows {n : Nat} (hn : n < 2 ^ 64) (c : Nat) (normal : Nat → Nat → Flt p) :
    ∃ out, gaussianFigureF n c normal = .ok out ∧ out.Shows n 1 (fun x _ => normal x c) := by
  obtain ⟨out, e, s⟩ := forUp_inv (n := n)
    (body := fun (row : Image (Flt p)) x => row.set2 x 0 (normal x c))
    (fun k im => im.Shows n 1 (fun x _ => if x < k then normal x c else 0)) (by
      intro k im hk si
      obtain ⟨im', e', s'⟩ := si.set2 hk (Nat.lt_succ_self 0) (normal k c)
      refine ⟨im', e', s'.congr ?_⟩
      intro x y hx hy
      unfold updPx
      by_cases hxk : x = k
      · rw [if_pos ⟨hxk, by omega⟩, if_pos (by omega), hxk]
      · rw [if_neg (by tauto)]
        dsimp only
        by_cases hl : x < k
        · rw [if_pos hl, if_pos (by omega)]
        · rw [if_neg hl, if_neg (by omega)])
    (ofSizes 0 [n, 1]) ((ofSizes_shows 0 hn (by decide) (by simpa using hn)).congr (by simp))
  exact ⟨out, e, s.congr fun x y hx _ => by simp only [if_pos hx]⟩

/-- The computed sum of the samples. -/
theorem reduce_near (hp : 1 ≤ p) {im : Image (Flt p)} {v : Flt p} {n : Nat} {m : Nat → Flt p}
    (hd : im.data = (List.range n).map m) (h0 : ∀ i < n, 0 ≤ (m i).val) (h : SumResult (· + ·) 0 im v) :
    Near (low p ^ n) ((range n).sum fun i => (m i).val) v.val := by
  obtain ⟨l, hl, hv⟩ := h
  have := brackets_near hp hv (by
    intro a ha
    rcases List.mem_cons.1 (hl.mem_iff.1 ha) with rfl | ha
    · exact le_of_eq Flt.zero_val.symm
    · rw [hd, List.mem_map] at ha
      obtain ⟨i, hi, rfl⟩ := ha
      exact h0 i (List.mem_range.1 hi))
  rw [(hl.map _).sum_eq, hl.length_eq, hd, List.map_cons, List.sum_cons, List.map_map, Flt.zero_val, zero_add] at this
  have e := sum_list_range n (fun i => (m i).val)
  simp only [List.length_cons, List.length_map, List.length_range, Nat.add_sub_cancel] at this
  rw [← e]
  exact this

/-- The weights after the division by their computed sum. -/
theorem weight_near (hp : 1 ≤ p) {n : Nat} {m : Nat → Flt p} {v : Flt p} (h0 : ∀ i < n, 0 ≤ (m i).val)
    (hs : 0 < (range n).sum fun i => (m i).val) (hv : Near (low p ^ n) ((range n).sum fun i => (m i).val) v.val)
    {i : Nat} (hi : i < n) :
    Near (low p ^ (n + 1)) ((m i).val / (range n).sum fun i => (m i).val) (divF (m i) v).val := by
  have l0 := low_pos hp
  have hv0 : 0 < v.val := lt_of_lt_of_le (mul_pos (pow_pos l0 n) hs) hv.2.2.1
  have h1 := (Near.refl (h0 i hi)).div zero_le_one (pow_nonneg l0.le n) hv hs hv0
  rw [one_mul] at h1
  have h2 := h1.trans (pow_nonneg l0.le _) l0.le (Near.fl hp h1.2.1)
  rw [pow_succ]
  exact h2

theorem extend_val {b : Boundary} {v : Flt p} {w h : Nat} {f : Nat → Nat → Flt p} (X Y : Int) :
    (extend b v w h f X Y).val = extend b v.val w h (fun x y => (f x y).val) X Y := by
  cases b <;> unfold extend <;> dsimp only
  split <;> rfl

/-! ### Integer standard deviations -/

/-- The weight of a sample: one near the centre, zero elsewhere. -/
theorem normalInt_eq {x sd : Int} (hx : |x| ≤ 46340) (h1 : sd ≠ 0) (h2 : |sd| ≤ 32767) :
    normalInt x sd = .ok (if x * x < 2 * sd * sd then 1 else 0) := by
  have hx' := abs_le.1 hx
  have hs' := abs_le.1 h2
  have hxx : x * x ≤ 46340 * 46340 := by nlinarith
  have hss : sd * sd ≤ 32767 * 32767 := by nlinarith
  have x0 : 0 ≤ x * x := mul_self_nonneg x
  have s0 : 0 < sd * sd := mul_self_pos.2 h1
  have e : 2 * sd * sd = 2 * (sd * sd) := by ring
  have en : -x * x = -(x * x) := by ring
  unfold normalInt
  rw [if_neg (by unfold fitsInt; rw [e, en]; omega), e, en, Int.neg_tdiv,
    Int.tdiv_eq_ediv_of_nonneg x0]
  congr 1
  by_cases hlt : x * x < 2 * (sd * sd)
  · rw [if_pos hlt, Int.ediv_eq_zero_of_lt x0 hlt]; simp
  · rw [if_neg hlt]
    have hq : 1 ≤ x * x / (2 * (sd * sd)) := by
      rw [Int.le_ediv_iff_mul_le (by omega)]; omega
    generalize x * x / (2 * (sd * sd)) = q at hq ⊢
    rw [Int.floor_eq_iff]
    constructor
    · simpa using (Real.exp_pos _).le
    · simp only [Int.cast_zero, zero_add]
      rw [Real.exp_lt_one_iff]
      have : (1 : ℝ) ≤ q := by exact_mod_cast hq
      push_cast
      linarith

theorem gaussianFigureInt_shows {n : Nat} (hn : n ≤ 46340) {c : Nat} (hc : c ≤ 46340) {sd : Int} (h1 : sd ≠ 0)
    (h2 : |sd| ≤ 32767) :
    ∃ out, gaussianFigureInt n c sd = .ok out ∧
      out.Shows n 1 (fun x _ => if ((x : Int) - c) * ((x : Int) - c) < 2 * sd * sd then 1 else 0) := by
  obtain ⟨g, hg⟩ : ∃ g : Nat → Int, ∀ x : Nat,
      (if ((x : Int) - c) * ((x : Int) - c) < 2 * sd * sd then 1 else 0) = g x := ⟨_, fun _ => rfl⟩
  simp only [hg]
  obtain ⟨out, e, s⟩ := forUp_inv (n := n)
    (body := fun (row : Image Int) x => do
      let val ← normalInt ((x : Int) - c) sd
      row.set2 x 0 val)
    (fun k im => im.Shows n 1 (fun x _ => if x < k then g x else 0)) (by
      intro k im hk si
      obtain ⟨im', e', s'⟩ := si.set2 hk (Nat.lt_succ_self 0) (g k)
      refine ⟨im', ?_, s'.congr ?_⟩
      · simp only [normalInt_eq (x := (k : Int) - c) (abs_le.2 (by constructor <;> omega)) h1 h2, Res.ok_bind, hg, e']
      intro x y hx hy
      unfold updPx
      by_cases hxk : x = k
      · rw [if_pos ⟨hxk, by omega⟩, if_pos (by omega), hxk]
      · rw [if_neg (by tauto)]
        dsimp only
        by_cases hl : x < k
        · rw [if_pos hl, if_pos (by omega)]
        · rw [if_neg hl, if_neg (by omega)])
    (ofSizes 0 [n, 1]) ((ofSizes_shows 0 (by omega) (by decide) (by omega)).congr (by simp))
  exact ⟨out, e, s.congr fun x y hx _ => by simp only [if_pos hx]⟩

/-- The number of samples with weight one. -/
theorem ones_sum {n c : Nat} (hc : c = (n + 1) / 2) (hn : 0 < n) {sd : Int} (h1 : sd ≠ 0) :
    let S := (range n).sum fun x : Nat =>
      (if ((x : Int) - c) * ((x : Int) - c) < 2 * sd * sd then (1 : Int) else 0)
    1 ≤ S ∧ (2 ≤ n → 2 ≤ S) := by
  intro S
  have s0 : 0 < sd * sd := mul_self_pos.2 h1
  have e : 2 * sd * sd = 2 * (sd * sd) := by ring
  have nn : ∀ x ∈ range n, (0 : Int) ≤
      (if ((x : Int) - c) * ((x : Int) - c) < 2 * sd * sd then (1 : Int) else 0) := by
    intro x _; split <;> norm_num
  have hlast : (if (((c - 1 : Nat) : Int) - c) *
      (((c - 1 : Nat) : Int) - c) < 2 * sd * sd then (1 : Int) else 0) = 1 := by
    have : ((c - 1 : Nat) : Int) - c = -1 := by omega
    rw [this, if_pos (by omega)]
  constructor
  · have := Finset.single_le_sum nn (Finset.mem_range.2 (show c - 1 < n by omega))
    rw [hlast] at this
    exact this
  · intro h2
    have hsub : ({c - 1, c} : Finset Nat) ⊆ range n := by
      intro a ha
      simp only [Finset.mem_insert, Finset.mem_singleton] at ha
      rw [Finset.mem_range]
      omega
    have := Finset.sum_le_sum_of_subset_of_nonneg hsub fun x hx _ => nn x hx
    rw [Finset.sum_pair (by omega), hlast] at this
    simp only [sub_self, mul_zero] at this
    rw [if_pos (by omega)] at this
    exact this

theorem toReal_shows {im : Image Int} {w h : Nat} {f : Nat → Nat → Int} (s : im.Shows w h f) :
    (toReal im).Shows w h (fun x y => ((f x y : Int) : ℝ)) := by
  refine Image.Shows.of_data s.w_lt s.h_lt s.fits s.size (by simp [toReal, s.len]) ?_
  intro x y hx hy
  simp only [toReal]
  rw [List.getElem?_map, s.data? hx hy]
  rfl

/-- The mask after the division by its sum: all zero, unless there is only one sample. -/
theorem normalizeInt_shows {im : Image Int} {w h n : Nat} {f : Nat → Nat → Int} {m : Nat → Int} (s : im.Shows w h f)
    (h0 : 0 < w * h) (hd : im.data = (List.range n).map m) (hm : ∀ x y, x < w → y < h → f x y = 0 ∨ f x y = 1)
    (hS : 1 ≤ (range n).sum m) :
    ∃ out, normalizeInt im = .ok out ∧ out.Shows w h (fun x y => if 2 ≤ (range n).sum m then 0 else f x y) := by
  have es : im.data.foldl (· + ·) 0 = (range n).sum m := by rw [foldl_sum, zero_add, hd, sum_list_range]
  obtain ⟨o, eo, so⟩ := dividesScalar_shows s h0 Int.tdiv ((range n).sum m)
  refine ⟨o, ?_, so.congr ?_⟩
  · unfold normalizeInt
    simp only [es]
    rw [if_neg (by omega), eo]
  · intro x y hx hy
    by_cases h2 : 2 ≤ (range n).sum m
    · rw [if_pos h2]
      rcases hm x y hx hy with e | e <;> rw [e]
      · simp
      · rw [Int.tdiv_eq_ediv_of_nonneg (by norm_num)]
        exact Int.ediv_eq_zero_of_lt (by norm_num) (by omega)
    · rw [if_neg h2, show (range n).sum m = 1 by omega, Int.tdiv_one]

/-- The two convolutions and the crop, for any two masks of real weights. -/
theorem separable_shows {P m1 m2 : Image ℝ} {w h n1 n2 : Nat} {F : Int → Int → ℝ} {a b : Nat → ℝ}
    (hw : 0 < w) (hh : 0 < h) (hn1 : 0 < n1) (hn2 : 0 < n2)
    (sP : P.Shows (w + 2 * n1) (h + 2 * n2) (fun X Y => F ((X : Int) - n1) ((Y : Int) - n2)))
    (sm1 : m1.Shows n1 1 (fun i _ => a i)) (sm2 : m2.Shows 1 n2 (fun _ j => b j))
    (hx : 2 * (w + 3 * n1 + 1) < 2 ^ 64) (hy : 2 * (h + 3 * n2 + 1) < 2 ^ 64)
    (hf : (w + 3 * n1 + 1) * (h + 3 * n2 + 1) < 2 ^ 64) :
    ∃ o1 o2 out, conv2 P m1 true = .ok o1 ∧ conv2 o1 m2 true = .ok o2 ∧
      subimage2d o2 0 w h (o2.width / 2) (o2.height / 2) 0 = .ok out ∧
      out.Shows w h (fun x y => (range n2).sum fun j => (range n1).sum fun i => b j * a i *
        F ((x : Int) + offset w n1 - i) ((y : Int) + offset h n2 - j)) := by
  have hlt : ∀ a b : Nat, a ≤ w + 3 * n1 + 1 → b ≤ h + 3 * n2 + 1 → a * b < 2 ^ 64 :=
    fun a b ha hb => lt_of_le_of_lt (Nat.mul_le_mul ha hb) hf
  obtain ⟨o1, e1, s1⟩ := conv2_same_shows sP sm1 (by omega) (by omega) hn1 (by omega)
    (hlt _ _ (by omega) (by omega)) (by omega) (by omega)
  obtain ⟨o2, e2, s2⟩ := conv2_same_shows s1 sm2 (by omega) (by omega) (by omega) hn2
    (hlt _ _ (by omega) (by omega)) (by omega) (by omega)
  obtain ⟨out, eo, so⟩ := subimage2d_shows 0 s2 (w := w) (h := h) (cx := (w + 2 * n1) / 2)
    (cy := (h + 2 * n2) / 2) hw hh (hlt _ _ (by omega) (by omega)) (by omega) (by omega) (by omega) (by omega) 0
  refine ⟨o1, o2, out, e1, e2, by rw [s2.width, s2.height]; exact eo, so.congr ?_⟩
  intro x y hx' hy'
  rw [if_pos (by omega)]
  exact separable_eq a b F hn1 hn2 hx' hy'

end TinyDIP.Filter
