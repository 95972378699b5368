import Verif.Lemmas.Flt
import Verif.Lemmas.Rounded
import Verif.Lemmas.Samples
import Verif.Lemmas.Geometry
import Mathlib.LinearAlgebra.Matrix.Notation
import Mathlib.Tactic.FinCases
import Mathlib.Tactic.NormNum

/-!
# C179-C181: sums, means, convolutions and matrix products of floating numbers

`Flt p` (Model/Flt.lean) is the floating type with `p` significant bits: the models of `sum`, `mean`, `conv2` and
`multiply`, taken with these elements, round after every operation. `growth p k = (1 + 2 ^ -p) ^ k - 1` is the
relative error of `k` roundings; `Quant e x` says that `x` is a whole multiple of `2 ^ e`.
-/

namespace TinyDIP.Props

open TinyDIP Rnd

variable {p : Nat}

/-- The `double`s `2 ^ 54`, `1`, `9` and `2 ^ 52 + 3`. -/
noncomputable def big : Flt 53 := ⟨2 ^ 54, 1, 54, by norm_num, by norm_num⟩
noncomputable def unit : Flt 53 := ⟨1, 1, 0, by norm_num, by norm_num⟩
noncomputable def nineF : Flt 53 := ⟨9, 9, 0, by norm_num, by norm_num⟩

noncomputable def oddF : Flt 53 := ⟨2 ^ 52 + 3, 2 ^ 52 + 3, 0, by norm_num, by norm_num⟩

theorem unit_quant : Quant 0 unit.val := ⟨1, by simp [unit]⟩
theorem nine_quant : Quant 0 nineF.val := ⟨9, by simp [nineF]⟩

/-! ## C179: `sum` and `mean` -/

/-- How large the bounds below are: `k` roundings change a number by at most two parts in `2 ^ p` each. -/
theorem C179_bound (k : Nat) (hk : 2 * k ≤ 2 ^ p) : growth p k ≤ 2 * k / 2 ^ p := by
  have hu : ulp1 p = 1 / 2 ^ p := by rw [ulp1, zpow_neg, zpow_natCast, one_div]
  induction k with
  | zero => simp [growth_zero]
  | succ k ih =>
    have ih := ih (by omega)
    have hk' : (2 : ℝ) * k ≤ 2 ^ p := by exact_mod_cast (show 2 * k ≤ 2 ^ p by omega)
    have hP : (0 : ℝ) < 2 ^ p := by positivity
    have h1 : growth p k ≤ 1 := ih.trans ((div_le_one hP).2 hk')
    rw [growth_succ, hu]
    have h2 : 1 / 2 ^ p * (1 + growth p k) ≤ 1 / 2 ^ p * 2 :=
      mul_le_mul_of_nonneg_left (by linarith) (by positivity)
    have h3 : (2 : ℝ) * (k + 1 : ℕ) / 2 ^ p = 2 * k / 2 ^ p + 1 / 2 ^ p * 2 := by push_cast; ring
    linarith

example : growth 53 (1920 * 1080) ≤ 2 * (1920 * 1080 : ℕ) / 2 ^ 53 := C179_bound _ (by norm_num)

/-- Whatever the order and the grouping `std::reduce` chooses, the sum of a picture of `n` pixels is off by at most
`(1 + 2 ^ -p) ^ n - 1` times the sum of the absolute values. Missing: one result for every grouping, see
`C179_sum_violation`. -/
theorem C179_sum_partial (im : Image (Flt p)) (v : Flt p) (h : SumResult (· + ·) 0 im v) :
    |v.val - (im.data.map (·.val)).sum| ≤ growth p im.data.length * (im.data.map fun a => |a.val|).sum := by
  obtain ⟨l, hl, hv⟩ := h
  have e := brackets_err hv
  rw [(hl.map _).sum_eq, (hl.map _).sum_eq, hl.length_eq] at e
  simpa [Flt.zero_val] using e

example : SumResult (· + ·) 0 (⟨[2, 1], [big, nineF]⟩ : Image (Flt 53)) (nineF + (0 + big)) :=
  ⟨[nineF, 0, big], (List.perm_append_comm (l₁ := [nineF]) (l₂ := [0, big])).trans (.cons _ (.refl _)),
    .node (l₁ := [nineF]) (.one _) (.node (l₁ := [0]) (.one _) (.one _))⟩

/-- When all pixels are whole multiples of one power of two and the sum of their absolute values takes at most `p`
bits, the sum is exact, whatever the order and the grouping. -/
theorem C179_sum_exact (hp : 1 ≤ p) (e : ℤ) (im : Image (Flt p)) (hq : ∀ a ∈ im.data, Quant e a.val)
    (hb : (im.data.map fun a => |a.val|).sum ≤ 2 ^ p * (2 : ℝ) ^ e) (v : Flt p) (h : SumResult (· + ·) 0 im v) :
    v.val = (im.data.map (·.val)).sum := by
  obtain ⟨l, hl, hv⟩ := h
  have := (brackets_exact hp (e := e) hv
    (by
      intro a ha
      rcases List.mem_cons.1 (hl.mem_iff.1 ha) with rfl | ha
      · exact Quant.zero e
      · exact hq a ha)
    (by rw [(hl.map _).sum_eq]; simpa [Flt.zero_val] using hb)).1
  rw [this, (hl.map _).sum_eq]
  simp [Flt.zero_val]

example := C179_sum_exact (by norm_num) 0 (⟨[2, 1], [unit, nineF]⟩ : Image (Flt 53))
  (by simpa using ⟨unit_quant, nine_quant⟩) (by norm_num [unit, nineF])

theorem big_unit : fl 53 ((2 : ℝ) ^ 54 + 1) = 2 ^ 54 := by
  rw [fl_lit (2 ^ 52) 54 (by norm_num) (by norm_num) (by norm_num [abs_lt])]
  norm_num

theorem big_three : fl 53 (3 + (2 : ℝ) ^ 54) = 2 ^ 54 + 4 := by
  rw [fl_lit (2 ^ 52 + 1) 54 (by norm_num) (by norm_num) (by norm_num [abs_lt])]
  norm_num

theorem fl_small (n : ℕ) (h : n ≤ 2 ^ 53) : fl 53 (n : ℝ) = n := fl_nat (by norm_num) h

theorem big_rep : fl 53 ((2 : ℝ) ^ 54) = 2 ^ 54 := fl_of_rep (by norm_num) big.rep

theorem unit_add : (0 + unit) + unit + unit = (⟨3, 3, 0, by norm_num, by norm_num⟩ : Flt 53) := by
  apply Flt.ext
  have e1 : fl 53 (1 : ℝ) = 1 := by simpa using fl_small 1 (by norm_num)
  have e2 : fl 53 (2 : ℝ) = 2 := by simpa using fl_small 2 (by norm_num)
  have e3 : fl 53 (3 : ℝ) = 3 := by simpa using fl_small 3 (by norm_num)
  simp only [Flt.add_val, Flt.zero_val, unit, zero_add, e1]
  rw [show (1 : ℝ) + 1 = 2 by norm_num, e2, show (2 : ℝ) + 1 = 3 by norm_num, e3]

/-- The value of the sum depends on the order in which `std::reduce` adds: for the pixels `2 ^ 54, 1, 1, 1` the results
`2 ^ 54` and `2 ^ 54 + 4` are both permitted (the exact sum is `2 ^ 54 + 3`). -/
theorem C179_sum_violation :
    ∃ im : Image (Flt 53), ∃ v w : Flt 53, SumResult (· + ·) 0 im v ∧ SumResult (· + ·) 0 im w ∧
      v.val = 2 ^ 54 ∧ w.val = 2 ^ 54 + 4 ∧ (im.data.map (·.val)).sum = 2 ^ 54 + 3 := by
  refine ⟨⟨[4, 1], [big, unit, unit, unit]⟩, 0 + big + unit + unit + unit, 0 + unit + unit + unit + big,
    ⟨[0, big, unit, unit, unit], .refl _, ?_⟩, ⟨[0, unit, unit, unit, big], ?_, ?_⟩, ?_, ?_, ?_⟩
  · exact .node (.node (.node (.node (.one 0) (.one big)) (.one unit)) (.one unit)) (.one unit)
  · refine .cons _ ?_
    exact (List.perm_append_comm (l₁ := [unit, unit, unit]) (l₂ := [big]))
  · exact .node (.node (.node (.node (.one 0) (.one unit)) (.one unit)) (.one unit)) (.one big)
  · simp only [Flt.add_val, Flt.zero_val, big, unit, zero_add, big_rep, big_unit]
  · rw [unit_add]
    simp only [Flt.add_val, big, big_three]
  · simp only [List.map_cons, List.map_nil, List.sum_cons, List.sum_nil, big, unit]
    norm_num

/-- The mean of a picture of `n` pixels is off by at most `(1 + 2 ^ -p) ^ (n + 1) - 1` times the mean of the absolute
values. Missing: between the smallest and the largest pixel, see `C179_mean_violation`. -/
theorem C179_mean_partial (hp : 1 ≤ p) (im : Image (Flt p)) (wf : im.WF) (hn0 : 0 < im.data.length)
    (hn : im.data.length ≤ 2 ^ p) (v : Flt p) (h : MeanResult (· + ·) Flt.divCount 0 im v) :
    |v.val - (im.data.map (·.val)).sum / im.data.length| ≤
      growth p (im.data.length + 1) * ((im.data.map fun a => |a.val|).sum / im.data.length) := by
  obtain ⟨s, hs, rfl⟩ := h
  have e := C179_sum_partial im s hs
  have hc : im.count = im.data.length := by
    rw [Image.count, prodW_of_lt wf.fits, wf.len]
  set n := im.data.length with hn'
  set S := (im.data.map (·.val)).sum
  set A := (im.data.map fun a => |a.val|).sum
  have hSA : |S| ≤ A := by
    have := abs_sum_le (im.data.map (·.val))
    rwa [List.map_map] at this
  have hnR : (0 : ℝ) < n := by exact_mod_cast hn0
  have hv : (s.divCount im.count).val = fl p (s.val / n) := by
    show fl p (s.val / fl p im.count) = _
    rw [hc, fl_nat hp hn]
  rw [hv]
  have h1 : |s.val / n - S / n| ≤ growth p n * (A / n) := by
    rw [← sub_div, abs_div, abs_of_pos hnR, ← mul_div_assoc]
    exact div_le_div_of_nonneg_right e hnR.le
  have h2 : |s.val / n| ≤ (1 + growth p n) * (A / n) := by
    have : s.val / n = S / n + (s.val / n - S / n) := by ring
    rw [this]
    refine (abs_add_le _ _).trans ?_
    have h3 : |S / n| ≤ A / n := by
      rw [abs_div, abs_of_pos hnR]; exact div_le_div_of_nonneg_right hSA hnR.le
    have : (1 + growth p n) * (A / n) = A / n + growth p n * (A / n) := by ring
    linarith
  have h4 : |fl p (s.val / n) - s.val / n| ≤ ulp1 p * |s.val / n| := fl_err _
  have h5 := mul_le_mul_of_nonneg_left h2 (ulp1_pos (p := p)).le
  have : fl p (s.val / n) - S / n = (fl p (s.val / n) - s.val / n) + (s.val / n - S / n) := by ring
  rw [this, growth_succ]
  refine (abs_add_le _ _).trans ?_
  have : (growth p n + ulp1 p * (1 + growth p n)) * (A / n) =
    growth p n * (A / n) + ulp1 p * ((1 + growth p n) * (A / n)) := by ring
  linarith

example := C179_mean_partial (by norm_num) (⟨[2, 1], [unit, nineF]⟩ : Image (Flt 53)) ⟨rfl, by decide, by decide⟩
  (by simp) (by simp) ((0 + unit + nineF).divCount 2)
  ⟨_, ⟨[0, unit, nineF], .refl _, .node (l₁ := [0, unit]) (.node (l₁ := [0]) (.one _) (.one _)) (.one _)⟩, rfl⟩

/-- The mean of whole multiples of one power of two, whose sum takes at most `p` bits, is the exact mean rounded once,
and lies between the smallest and the largest pixel. -/
theorem C179_mean_exact (hp : 1 ≤ p) (e : ℤ) (im : Image (Flt p)) (wf : im.WF) (hn0 : 0 < im.data.length)
    (hn : im.data.length ≤ 2 ^ p) (hq : ∀ a ∈ im.data, Quant e a.val)
    (hb : (im.data.map fun a => |a.val|).sum ≤ 2 ^ p * (2 : ℝ) ^ e) (lo hi : Flt p)
    (hlo : ∀ a ∈ im.data, lo.val ≤ a.val) (hhi : ∀ a ∈ im.data, a.val ≤ hi.val)
    (v : Flt p) (h : MeanResult (· + ·) Flt.divCount 0 im v) :
    v.val = fl p ((im.data.map (·.val)).sum / im.data.length) ∧ lo.val ≤ v.val ∧ v.val ≤ hi.val := by
  obtain ⟨s, hs, rfl⟩ := h
  have es := C179_sum_exact hp e im hq hb s hs
  have hc : im.count = im.data.length := by
    rw [Image.count, prodW_of_lt wf.fits, wf.len]
  have hnR : (0 : ℝ) < im.data.length := by exact_mod_cast hn0
  have hv : (s.divCount im.count).val = fl p ((im.data.map (·.val)).sum / im.data.length) := by
    show fl p (s.val / fl p im.count) = _
    rw [hc, fl_nat hp hn, es]
  rw [hv]
  have b1 : (im.data.length : ℝ) * lo.val ≤ (im.data.map (·.val)).sum := by
    have := List.card_nsmul_le_sum (im.data.map (·.val)) lo.val (by simpa using hlo)
    simpa using this
  have b2 : (im.data.map (·.val)).sum ≤ (im.data.length : ℝ) * hi.val := by
    have := List.sum_le_card_nsmul (im.data.map (·.val)) hi.val (by simpa using hhi)
    simpa using this
  refine ⟨rfl, ?_, ?_⟩
  · rw [← fl_of_rep hp lo.rep]
    refine fl_mono hp ?_
    rw [le_div_iff₀ hnR]; linarith
  · conv_rhs => rw [← fl_of_rep hp hi.rep]
    refine fl_mono hp ?_
    rw [div_le_iff₀ hnR]; linarith

example := C179_mean_exact (by norm_num) 0 (⟨[2, 1], [unit, nineF]⟩ : Image (Flt 53)) ⟨rfl, by decide, by decide⟩
  (by simp) (by simp) (by simpa using ⟨unit_quant, nine_quant⟩) (by norm_num [unit, nineF]) unit nineF
  (by simp [unit, nineF]) (by simp [unit, nineF])

/-- A pixel value of 53 bits. -/
noncomputable def odd53 : Flt 53 := ⟨6004799503160666, 6004799503160666, 0, by norm_num, by norm_num⟩

/-- Without that the mean can leave the range of the pixels: three equal pixels `k` have the computed mean `k + 1`. -/
theorem C179_mean_violation :
    ∃ im : Image (Flt 53), ∃ k v : Flt 53, (∀ a ∈ im.data, a = k) ∧ im.data.length = 3 ∧ im.WF ∧
      MeanResult (· + ·) Flt.divCount 0 im v ∧ v.val = k.val + 1 := by
  refine ⟨⟨[3, 1], [odd53, odd53, odd53]⟩, odd53, (0 + odd53 + odd53 + odd53).divCount 3, ?_, rfl,
    ⟨rfl, by decide, by decide⟩, ⟨0 + odd53 + odd53 + odd53, ⟨[0, odd53, odd53, odd53], .refl _, ?_⟩, rfl⟩, ?_⟩
  · intro a ha; simpa using ha
  · exact .node (.node (.node (.one 0) (.one odd53)) (.one odd53)) (.one odd53)
  · have e1 : fl 53 (6004799503160666 : ℝ) = 6004799503160666 := fl_of_rep (by norm_num) odd53.rep
    have e2 : fl 53 ((6004799503160666 : ℝ) + 6004799503160666) = 12009599006321332 := by
      rw [fl_of_rep (by norm_num) ⟨6004799503160666, 1, by norm_num, by norm_num⟩]; norm_num
    have e3 : fl 53 ((12009599006321332 : ℝ) + 6004799503160666) = 18014398509482000 := by
      rw [fl_eq_of (e := 54) (m := 4503599627370500) (by norm_num [abs_of_pos]) (by norm_num [abs_of_pos])]
      · norm_num
      · have hf : ⌊((12009599006321332 : ℝ) + 6004799503160666) / (2 : ℝ) ^ ((54 : ℤ) + 1 - (53 : ℕ))⌋ =
            4503599627370499 := by
          rw [Int.floor_eq_iff]; norm_num
        unfold roundEven
        rw [hf]
        norm_num
    have e4 : fl 53 (3 : ℝ) = 3 := by simpa using fl_small 3 (by norm_num)
    have e5 : fl 53 ((18014398509482000 : ℝ) / 3) = 6004799503160667 := by
      rw [fl_lit 6004799503160667 52 (by norm_num) (by norm_num) (by norm_num [abs_lt])]
      norm_num
    simp only [Flt.divCount, Flt.add_val, Flt.zero_val, odd53, zero_add, e1, e2, e3]
    push_cast
    rw [e4, e5]
    norm_num

/-! ## C180: `conv2` -/

theorem conv2_run (hp : 1 ≤ p) (e1 e2 : ℤ) {x y : Image (Flt p)} {w1 h1 w2 h2 : Nat} {fx fy : Nat → Nat → Flt p}
    (sx : x.Shows w1 h1 fx) (sy : y.Shows w2 h2 fy)
    (hw1 : 0 < w1) (hh1 : 0 < h1) (hw2 : 0 < w2) (hh2 : 0 < h2)
    (hf : (w1 + w2) * (h1 + h2) < 2 ^ 64) :
    ∃ P : Nat → Nat → Flt p,
      (∀ i j, ∃ n, n ≤ min w1 w2 * min h1 h2 ∧
        Run p (e1 + e2) ((∀ a b, a < w1 → b < h1 → Quant e1 (fx a b).val) ∧
            ∀ a b, a < w2 → b < h2 → Quant e2 (fy a b).val) n
          (convAt w1 h1 (fun a b => (fx a b).val) w2 h2 (fun a b => (fy a b).val) i j)
          (convAt w1 h1 (fun a b => |(fx a b).val|) w2 h2 (fun a b => |(fy a b).val|) i j) (P i j)) ∧
      ∀ order : List Nat, order.Perm (List.range ((w1 + w2 - 1) * (h1 + h2 - 1))) →
        ∃ out, conv2Ord order x y false = .ok out ∧ out.Shows (w1 + w2 - 1) (h1 + h2 - 1) P ∧
          conv2Ord order x y true = subimage2d out 0 w1 h1 ((w1 + w2 - 1) / 2) ((h1 + h2 - 1) / 2) 0 := by
  have key : ∀ (yf : Image (Flt p)), yf.Shows w2 h2 (fun x y => fy (w2 - 1 - x) (h2 - 1 - y)) → ∀ i j,
      ∃ s n, conv2Pixel x yf i j = .ok s ∧ n ≤ min w1 w2 * min h1 h2 ∧
        Run p (e1 + e2) ((∀ a b, a < w1 → b < h1 → Quant e1 (fx a b).val) ∧
            ∀ a b, a < w2 → b < h2 → Quant e2 (fy a b).val) n
          (convAt w1 h1 (fun a b => (fx a b).val) w2 h2 (fun a b => (fy a b).val) i j)
          (convAt w1 h1 (fun a b => |(fx a b).val|) w2 h2 (fun a b => |(fy a b).val|) i j) s := by
    intro yf hyf i j
    refine conv2Pixel_run (v := Flt.val) sx hyf i j hw1 hw2 (Run.init _ _) ?_
    intro a b c d ha hb hc hd k S A s hR
    exact hR.step hp fun hq => (hq.1 a b ha hb).mul (hq.2 c d hc hd)
  obtain ⟨yf, -, syf⟩ := flipped_shows sy hw2 hh2
  choose P n hP hn hR using key yf syf
  refine ⟨P, fun i j => ⟨n i j, hn i j, hR i j⟩, fun order ho => ?_⟩
  refine conv2Ord_of_pixels sx sy hw1 hh1 hw2 hh2 hf P ?_ order ho
  intro yf' syf' i j
  rw [← hP i j, syf'.ext syf fun _ _ _ _ => rfl]

/-- Whatever the order in which the pixels are computed, every pixel of the convolution is off by at most `(1 + 2 ^
-p) ^ (n + 1) - 1` times the convolution of the absolute values, where `n` is the number of products in the sum (never
more than the kernel has weights, nor than the picture has pixels). Missing: the same when picture and kernel are
exchanged, see `C180_commutative_violation`. -/
theorem C180_conv2_partial (hp : 1 ≤ p) {x y : Image (Flt p)} {w1 h1 w2 h2 : Nat} {fx fy : Nat → Nat → Flt p}
    (sx : x.Shows w1 h1 fx) (sy : y.Shows w2 h2 fy)
    (hw1 : 0 < w1) (hh1 : 0 < h1) (hw2 : 0 < w2) (hh2 : 0 < h2)
    (hf : (w1 + w2) * (h1 + h2) < 2 ^ 64) :
    ∃ P : Nat → Nat → Flt p,
      (∀ order : List Nat, order.Perm (List.range ((w1 + w2 - 1) * (h1 + h2 - 1))) →
        ∃ out, conv2Ord order x y false = .ok out ∧ out.Shows (w1 + w2 - 1) (h1 + h2 - 1) P) ∧
      ∀ i j, |(P i j).val - convAt w1 h1 (fun a b => (fx a b).val) w2 h2 (fun a b => (fy a b).val) i j| ≤
        growth p (min w1 w2 * min h1 h2 + 1) *
          convAt w1 h1 (fun a b => |(fx a b).val|) w2 h2 (fun a b => |(fy a b).val|) i j := by
  obtain ⟨P, hP, ho⟩ := conv2_run hp 0 0 sx sy hw1 hh1 hw2 hh2 hf
  refine ⟨P, fun order h => ?_, fun i j => ?_⟩
  · obtain ⟨out, e, s, -⟩ := ho order h
    exact ⟨out, e, s⟩
  · obtain ⟨n, hn, h1, h2, -⟩ := hP i j
    exact h2.trans (mul_le_mul_of_nonneg_right (growth_mono (by omega)) ((abs_nonneg _).trans h1))

example := C180_conv2_partial (by norm_num) (picture_shows 3 2 fun x _ => if x = 0 then big else nineF)
  (picture_shows 2 2 fun _ y => if y = 0 then nineF else oddF) (by norm_num) (by norm_num) (by norm_num) (by norm_num)
  (by norm_num)

/-- When the pixels are whole multiples of `2 ^ e1`, the weights whole multiples of `2 ^ e2`, and the convolution of the
absolute values takes at most `p` bits, the convolution is exact. -/
theorem C180_conv2_exact (hp : 1 ≤ p) (e1 e2 : ℤ) {x y : Image (Flt p)} {w1 h1 w2 h2 : Nat}
    {fx fy : Nat → Nat → Flt p} (sx : x.Shows w1 h1 fx) (sy : y.Shows w2 h2 fy)
    (hw1 : 0 < w1) (hh1 : 0 < h1) (hw2 : 0 < w2) (hh2 : 0 < h2)
    (hf : (w1 + w2) * (h1 + h2) < 2 ^ 64)
    (hx : ∀ a b, a < w1 → b < h1 → Quant e1 (fx a b).val) (hy : ∀ a b, a < w2 → b < h2 → Quant e2 (fy a b).val)
    (hb : ∀ i j, convAt w1 h1 (fun a b => |(fx a b).val|) w2 h2 (fun a b => |(fy a b).val|) i j ≤
      2 ^ p * (2 : ℝ) ^ (e1 + e2)) (order : List Nat)
    (ho : order.Perm (List.range ((w1 + w2 - 1) * (h1 + h2 - 1)))) :
    ∃ out P, conv2Ord order x y false = .ok out ∧ out.Shows (w1 + w2 - 1) (h1 + h2 - 1) P ∧
      ∀ i j, (P i j).val = convAt w1 h1 (fun a b => (fx a b).val) w2 h2 (fun a b => (fy a b).val) i j := by
  obtain ⟨P, hP, hord⟩ := conv2_run hp e1 e2 sx sy hw1 hh1 hw2 hh2 hf
  obtain ⟨out, e, s, -⟩ := hord order ho
  refine ⟨out, P, e, s, fun i j => ?_⟩
  obtain ⟨n, hn, -, -, h⟩ := hP i j
  exact (h ⟨hx, hy⟩).2 (hb i j)

example := C180_conv2_exact (by norm_num) 0 0 (picture_shows 3 2 fun _ _ => nineF)
  (picture_shows 2 1 fun _ _ => unit) (by norm_num) (by norm_num) (by norm_num) (by norm_num) (by norm_num)
  (fun _ _ _ _ => nine_quant) (fun _ _ _ _ => unit_quant)
  (by
    intro i j
    refine (Finset.sum_le_sum (g := fun _ => (27 : ℝ)) fun l _ => ?_).trans (by norm_num)
    refine (Finset.sum_le_sum (g := fun _ => (9 : ℝ)) fun k _ => ?_).trans (by norm_num)
    unfold zeroExt
    split_ifs <;> norm_num [nineF, unit]) _ (.refl _)

/-- With `is_size_same`: the block of the full result that has the size of the picture, its margins differing by at
most one, pixel for pixel the same numbers. -/
theorem C180_conv2_same (hp : 1 ≤ p) {x y : Image (Flt p)} {w1 h1 w2 h2 : Nat} {fx fy : Nat → Nat → Flt p}
    (sx : x.Shows w1 h1 fx) (sy : y.Shows w2 h2 fy)
    (hw1 : 0 < w1) (hh1 : 0 < h1) (hw2 : 0 < w2) (hh2 : 0 < h2)
    (hf : 2 * ((w1 + w2) * (h1 + h2)) < 2 ^ 64) (order : List Nat)
    (ho : order.Perm (List.range ((w1 + w2 - 1) * (h1 + h2 - 1)))) :
    ∃ full same P s t, conv2Ord order x y false = .ok full ∧ full.Shows (w1 + w2 - 1) (h1 + h2 - 1) P ∧
      conv2Ord order x y true = .ok same ∧ same.Shows w1 h1 (fun i j => P (i + s) (j + t)) ∧
      s + w1 ≤ w1 + w2 - 1 ∧ t + h1 ≤ h1 + h2 - 1 ∧
      |(s : Int) - ((w1 + w2 - 1 : Nat) - (s + w1 : Nat))| ≤ 1 ∧
      |(t : Int) - ((h1 + h2 - 1 : Nat) - (t + h1 : Nat))| ≤ 1 := by
  obtain ⟨P, -, hord⟩ := conv2_run hp 0 0 sx sy hw1 hh1 hw2 hh2 (by omega)
  obtain ⟨o, eo, so, e⟩ := hord order ho
  have hbw : 2 * (w1 + w2) < 2 ^ 64 :=
    lt_of_le_of_lt (Nat.mul_le_mul_left 2 (Nat.le_mul_of_pos_right (w1 + w2) (by omega))) hf
  have hbh : 2 * (h1 + h2) < 2 ^ 64 :=
    lt_of_le_of_lt (Nat.mul_le_mul_left 2 (Nat.le_mul_of_pos_left (h1 + h2) (by omega))) hf
  obtain ⟨out, e2, s2⟩ := subimage2d_shows (0 : Flt p) so (w := w1) (h := h1)
    (cx := (w1 + w2 - 1) / 2) (cy := (h1 + h2 - 1) / 2) hw1 hh1 sx.fits (by omega) (by omega)
    (by omega) (by omega) 0
  refine ⟨o, out, P, (w1 + w2 - 1) / 2 - w1 / 2, (h1 + h2 - 1) / 2 - h1 / 2, eo, so, by rw [e, e2], ?_, by omega,
    by omega, ?_, ?_⟩
  · refine s2.congr ?_
    intro i j hi hj
    rw [if_pos (by omega)]
    congr 1 <;> omega
  · rw [abs_le]; omega
  · rw [abs_le]; omega

example := C180_conv2_same (by norm_num) (picture_shows 3 2 fun x _ => if x = 0 then big else nineF)
  (picture_shows 2 2 fun _ y => if y = 0 then nineF else oddF) (by norm_num) (by norm_num) (by norm_num) (by norm_num)
  (by norm_num) _ (List.reverse_perm _)

/-- Convolution of floating numbers is not commutative: the picture `2 ^ 54, 1, 1, 1` and the kernel `1, 1, 1, 1` give
another result when they are swapped. -/
theorem C180_commutative_violation :
    ∃ x y o o' : Image (Flt 53), ∃ v w : Flt 53, conv2 x y false = .ok o ∧ conv2 y x false = .ok o' ∧
      o.at2 3 0 = .ok v ∧ o'.at2 3 0 = .ok w ∧ v.val = 2 ^ 54 ∧ w.val = 2 ^ 54 + 4 := by
  have bu : big * unit = big := Flt.ext (by simp only [Flt.mul_val, big, unit, mul_one, big_rep])
  have ub : unit * big = big := by rw [Flt.mul_comm, bu]
  have uu : unit * unit = unit :=
    Flt.ext (by simp only [Flt.mul_val, unit, mul_one]; simpa using fl_small 1 (by norm_num))
  refine ⟨⟨[4, 1], [big, unit, unit, unit]⟩, ⟨[4, 1], [unit, unit, unit, unit]⟩, _, _,
    0 + big * unit + unit * unit + unit * unit + unit * unit, 0 + unit * unit + unit * unit + unit * unit + unit * big,
    rfl, rfl, rfl, rfl, ?_, ?_⟩
  · rw [bu, uu]
    simp only [Flt.add_val, Flt.zero_val, big, unit, zero_add, big_rep, big_unit]
  · rw [ub, uu, unit_add]
    simp only [Flt.add_val, big, big_three]

/-! ## C181: `multiply` -/

/-- Example matrices. -/
noncomputable def matF : Mat (Flt 53) := ⟨1, 2, [oddF, nineF]⟩
noncomputable def matG : Mat (Flt 53) := ⟨2, 2, [unit, 0, 0, unit]⟩

theorem matF_is : matF.Is !![oddF, nineF] := by
  refine ⟨rfl, rfl, rfl, by norm_num, ?_⟩
  intro i j
  fin_cases i; fin_cases j <;> rfl

theorem matG_is : matG.Is !![unit, 0; 0, unit] := by
  refine ⟨rfl, rfl, rfl, by norm_num, ?_⟩
  intro i j
  fin_cases i <;> fin_cases j <;> rfl

/-- Every entry of a product of matrices is off by at most `(1 + 2 ^ -p) ^ (n + 1) - 1` times the entry of the product
of the absolute values, where `n` is the common size. Missing: the associative law, see `C181_associative_violation`.
-/
theorem C181_multiply_partial (hp : 1 ≤ p) {m n q : Nat} {A B : Mat (Flt p)} {M : Matrix (Fin m) (Fin n) (Flt p)}
    {N : Matrix (Fin n) (Fin q) (Flt p)} (hA : A.Is M) (hB : B.Is N) (hf : m * q < 2 ^ 64) :
    ∃ C, ∃ P : Matrix (Fin m) (Fin q) (Flt p), Mat.multiply A B = .ok C ∧ C.Is P ∧
      ∀ i j, |(P i j).val - (M.map (·.val) * N.map (·.val)) i j| ≤
        growth p (n + 1) * (M.map (fun a => |a.val|) * N.map (fun a => |a.val|)) i j := by
  obtain ⟨C, e, r⟩ := multiply_fold (hA.reads 0) (hB.reads 0) hf
  refine ⟨C, _, e, r.is, fun i j => ?_⟩
  obtain ⟨-, h, -⟩ := dotFold_run hp 0 n (Mat.ext 0 M i) fun k => Mat.ext 0 N k j
  simp only [Matrix.of_apply, Matrix.mul_apply, Matrix.map_apply]
  rw [Finset.sum_range, Finset.sum_range] at h
  simpa [Mat.ext, abs_mul] using h

example := C181_multiply_partial (by norm_num) matF_is matG_is (by norm_num)

/-- Exact for whole multiples of powers of two whose products of absolute values take at most `p` bits. -/
theorem C181_multiply_exact (hp : 1 ≤ p) (e1 e2 : ℤ) {m n q : Nat} {A B : Mat (Flt p)}
    {M : Matrix (Fin m) (Fin n) (Flt p)} {N : Matrix (Fin n) (Fin q) (Flt p)} (hA : A.Is M) (hB : B.Is N)
    (hf : m * q < 2 ^ 64) (h1 : ∀ i k, Quant e1 (M i k).val) (h2 : ∀ k j, Quant e2 (N k j).val)
    (hb : ∀ i j, (M.map (fun a => |a.val|) * N.map (fun a => |a.val|)) i j ≤ 2 ^ p * (2 : ℝ) ^ (e1 + e2)) :
    ∃ C, ∃ P : Matrix (Fin m) (Fin q) (Flt p), Mat.multiply A B = .ok C ∧ C.Is P ∧
      P.map (·.val) = M.map (·.val) * N.map (·.val) := by
  obtain ⟨C, e, r⟩ := multiply_fold (hA.reads 0) (hB.reads 0) hf
  refine ⟨C, _, e, r.is, ?_⟩
  ext i j
  obtain ⟨-, -, h⟩ := dotFold_run hp (e1 + e2) n (Mat.ext 0 M i) fun k => Mat.ext 0 N k j
  have hb' := hb i j
  simp only [Matrix.of_apply, Matrix.mul_apply, Matrix.map_apply] at hb' ⊢
  rw [Finset.sum_range, Finset.sum_range] at h
  have := (h fun k hk => by simpa [Mat.ext, hk] using (h1 i ⟨k, hk⟩).mul (h2 ⟨k, hk⟩ j)).2
    (by simpa [Mat.ext, abs_mul] using hb')
  simpa [Mat.ext] using this

example := C181_multiply_exact (by norm_num) 0 0 matF_is matG_is (by norm_num)
  (by
    intro i k
    fin_cases i; fin_cases k
    · exact ⟨2 ^ 52 + 3, by norm_num [oddF]⟩
    · exact nine_quant)
  (by
    intro k j
    fin_cases k <;> fin_cases j
    · exact unit_quant
    · exact Quant.zero 0
    · exact Quant.zero 0
    · exact unit_quant)
  (by
    intro i j
    fin_cases i; fin_cases j <;> norm_num [Matrix.mul_apply, oddF, nineF, unit, Flt.zero_val])

/-- `(A B)ᵀ = Bᵀ Aᵀ` to the last bit. -/
theorem C181_transpose {m n q : Nat} {A B : Mat (Flt p)} {M : Matrix (Fin m) (Fin n) (Flt p)}
    {N : Matrix (Fin n) (Fin q) (Flt p)} (hA : A.Is M) (hB : B.Is N) (hf : m * q < 2 ^ 64) :
    ∃ R, (Mat.multiply A B >>= fun X => X.transpose 0) = .ok R ∧
      (do let TB ← B.transpose 0; let TA ← A.transpose 0; Mat.multiply TB TA) = .ok R := by
  obtain ⟨X, ex, hx⟩ := multiply_fold (hA.reads 0) (hB.reads 0) hf
  obtain ⟨R, er, hr⟩ := Mat.transpose_reads 0 hx
  obtain ⟨TA, ea, ha⟩ := Mat.transpose_reads 0 (hA.reads 0)
  obtain ⟨TB, eb, hb⟩ := Mat.transpose_reads 0 (hB.reads 0)
  obtain ⟨R', er', hr'⟩ := multiply_fold hb ha (by rw [Nat.mul_comm]; exact hf)
  refine ⟨R, by rw [ex]; exact er, ?_⟩
  simp only [eb, ea, Res.ok_bind]
  rw [er']
  congr 1
  refine hr'.is.unique (hr.is.congr ?_)
  ext i j
  simp only [Matrix.of_apply, dotFold]
  congr 1
  funext s k
  rw [Flt.mul_comm]

example := C181_transpose matF_is matG_is (by norm_num)

/-- A matrix times the identity matrix is the same matrix, to the last bit. -/
theorem C181_identity (hp : 1 ≤ p) {m n : Nat} {A I : Mat (Flt p)} {M : Matrix (Fin m) (Fin n) (Flt p)}
    {N : Matrix (Fin n) (Fin n) (Flt p)} (hA : A.Is M) (hI : I.Is N)
    (h1 : ∀ i, (N i i).val = 1) (h0 : ∀ i j, i ≠ j → (N i j).val = 0) : Mat.multiply A I = .ok A := by
  obtain ⟨C, e, r⟩ := multiply_fold (hA.reads 0) (hI.reads 0) hA.fits
  rw [e]
  congr 1
  refine r.is.unique (hA.congr ?_)
  ext i j
  rw [Matrix.of_apply, dotFold_single hp n _ _ j, if_pos j.2]
  · simp [Mat.ext]
  · simpa [Mat.ext] using h1 j
  · intro k hk
    by_cases hkn : k < n
    · simpa [Mat.ext, hkn] using h0 ⟨k, hkn⟩ j (fun h => hk (by rw [← h]))
    · simp [Mat.ext, hkn, Flt.zero_val]

example : Mat.multiply matF matG = .ok matF :=
  C181_identity (by norm_num) matF_is matG_is (by intro i; fin_cases i <;> simp [unit])
    (by intro i j h; fin_cases i <;> fin_cases j <;> simp_all [Flt.zero_val])

/-- Products of floating matrices are not associative, not even of matrices with one entry. -/
theorem C181_associative_violation :
    ∃ A B C X Y : Mat (Flt 53), (Mat.multiply A B >>= fun Z => Mat.multiply Z C) = .ok X ∧
      (Mat.multiply B C >>= fun Z => Mat.multiply A Z) = .ok Y ∧ X ≠ Y := by
  refine ⟨⟨1, 1, [oddF]⟩, ⟨1, 1, [oddF]⟩, ⟨1, 1, [nineF]⟩, ⟨1, 1, [0 + (0 + oddF * oddF) * nineF]⟩,
    ⟨1, 1, [0 + oddF * (0 + oddF * nineF)]⟩, rfl, rfl, ?_⟩
  have z : ∀ a : Flt 53, 0 + a = a := fun a => Flt.ext (by
    rw [Flt.add_val, Flt.zero_val, zero_add, fl_of_rep (by norm_num) a.rep])
  rw [z, z, z, z]
  intro h
  have h' : ((oddF * oddF) * nineF).val = (oddF * (oddF * nineF)).val := by
    simp only [Mat.mk.injEq, List.cons.injEq] at h
    rw [h.2.2.1]
  have e1 : fl 53 (((2 : ℝ) ^ 52 + 3) * (2 ^ 52 + 3)) = 2 ^ 104 + 6 * 2 ^ 52 := by
    rw [fl_lit (2 ^ 52 + 6) 104 (by norm_num) (by norm_num) (by norm_num [abs_lt])]
    norm_num
  have e2 : fl 53 (((2 : ℝ) ^ 104 + 6 * 2 ^ 52) * 9) = (9 * 2 ^ 49 + 7) * 2 ^ 55 := by
    rw [fl_lit (9 * 2 ^ 49 + 7) 107 (by norm_num) (by norm_num) (by norm_num [abs_lt])]
    norm_num
  have e3 : fl 53 (((2 : ℝ) ^ 52 + 3) * 9) = 9 * 2 ^ 52 + 24 := by
    rw [fl_lit (9 * 2 ^ 49 + 3) 55 (by norm_num) (by norm_num) (by norm_num [abs_lt])]
    norm_num
  have e4 : fl 53 (((2 : ℝ) ^ 52 + 3) * (9 * 2 ^ 52 + 24)) = (9 * 2 ^ 49 + 6) * 2 ^ 55 := by
    rw [fl_lit (9 * 2 ^ 49 + 6) 107 (by norm_num) (by norm_num) (by norm_num [abs_lt])]
    norm_num
  simp only [Flt.mul_val, oddF, nineF, e1, e2, e3, e4] at h'
  norm_num at h'

/-! ## C182: the squared Euclidean distance of descriptors -/

/-- The exact squared distance of two lists of numbers of a floating type. -/
noncomputable def exactSq (l m : List (Flt p)) : ℝ :=
  (List.zipWith (fun a b => (a.val - b.val) ^ 2) l m).sum

theorem fl_eq_zero {x : ℝ} (hp : 1 ≤ p) : fl p x = 0 ↔ x = 0 := by
  constructor
  · intro h
    by_contra hx
    have e := fl_err (p := p) x
    rw [h, zero_sub, abs_neg] at e
    have hpos := abs_pos.2 hx
    have hu : (2 : ℝ) ^ (-(p : ℤ)) ≤ 1 / 2 := by
      rw [zpow_neg, zpow_natCast, ← one_div]
      refine one_div_le_one_div_of_le (by norm_num) ?_
      calc (2 : ℝ) = 2 ^ 1 := by norm_num
        _ ≤ 2 ^ p := pow_le_pow_right₀ (by norm_num) hp
    nlinarith
  · rintro rfl; exact fl_zero

theorem sq_term_err (a b : Flt p) :
    |((a - b) * (a - b)).val - (a.val - b.val) ^ 2| ≤ growth p 3 * (a.val - b.val) ^ 2 := by
  rw [Flt.mul_val, Flt.sub_val]
  set D := a.val - b.val
  set d := fl p D
  have h1 : |d - D| ≤ ulp1 p * |D| := fl_err D
  have hu := ulp1_pos (p := p)
  have h2 : |d + D| ≤ (2 + ulp1 p) * |D| := by
    have : d + D = (d - D) + 2 * D := by ring
    rw [this]
    refine (abs_add_le _ _).trans ?_
    rw [abs_mul, abs_two]
    have : (2 + ulp1 p) * |D| = ulp1 p * |D| + 2 * |D| := by ring
    linarith
  have h3 : |d * d - D ^ 2| ≤ growth p 2 * D ^ 2 := by
    have : d * d - D ^ 2 = (d - D) * (d + D) := by ring
    rw [this, abs_mul]
    refine (mul_le_mul h1 h2 (abs_nonneg _) (by positivity)).trans (le_of_eq ?_)
    rw [growth, ← sq_abs D]; ring
  have h4 : |d * d| ≤ (1 + growth p 2) * D ^ 2 := by
    have : d * d = D ^ 2 + (d * d - D ^ 2) := by ring
    rw [this]
    refine (abs_add_le _ _).trans ?_
    rw [abs_of_nonneg (sq_nonneg D)]
    have : (1 + growth p 2) * D ^ 2 = D ^ 2 + growth p 2 * D ^ 2 := by ring
    linarith
  have h5 : |fl p (d * d) - d * d| ≤ ulp1 p * |d * d| := fl_err _
  have h6 := mul_le_mul_of_nonneg_left h4 hu.le
  have : fl p (d * d) - D ^ 2 = (fl p (d * d) - d * d) + (d * d - D ^ 2) := by ring
  rw [this, growth_succ]
  refine (abs_add_le _ _).trans ?_
  have : (growth p 2 + ulp1 p * (1 + growth p 2)) * D ^ 2 =
    growth p 2 * D ^ 2 + ulp1 p * ((1 + growth p 2) * D ^ 2) := by ring
  linarith

theorem sq_term_nonneg (a b : Flt p) : 0 ≤ ((a - b) * (a - b)).val := by
  rw [Flt.mul_val]; exact fl_nonneg (mul_self_nonneg _)

theorem sq_term_zero (hp : 1 ≤ p) (a b : Flt p) : ((a - b) * (a - b)).val = 0 ↔ a = b := by
  rw [Flt.mul_val, fl_eq_zero hp, mul_self_eq_zero, Flt.sub_val, fl_eq_zero hp, sub_eq_zero]
  exact ⟨Flt.ext, fun h => by rw [h]⟩

theorem sq_term_comm (a b : Flt p) : (a - b) * (a - b) = (b - a) * (b - a) := by
  apply Flt.ext
  rw [Flt.mul_val, Flt.mul_val, Flt.sub_val, Flt.sub_val, show a.val - b.val = -(b.val - a.val) by ring, fl_neg,
    neg_mul_neg]

theorem brackets_pos {l : List (Flt p)} {v : Flt p} (hp : 1 ≤ p) (h : Brackets (· + ·) l v)
    (h0 : ∀ a ∈ l, 0 ≤ a.val) : 0 ≤ v.val ∧ (v.val = 0 ↔ ∀ a ∈ l, a.val = 0) := by
  induction h with
  | one a => exact ⟨h0 a (by simp), by simp⟩
  | @node l₁ l₂ a b h1 h2 ih1 ih2 =>
    obtain ⟨p1, z1⟩ := ih1 fun a ha => h0 a (by simp [ha])
    obtain ⟨p2, z2⟩ := ih2 fun a ha => h0 a (by simp [ha])
    rw [Flt.add_val, fl_eq_zero hp]
    refine ⟨fl_nonneg (by linarith), ?_⟩
    rw [add_eq_zero_iff_of_nonneg p1 p2, z1, z2]
    constructor
    · rintro ⟨q1, q2⟩ c hc
      rcases List.mem_append.1 hc with h | h
      · exact q1 c h
      · exact q2 c h
    · intro q
      exact ⟨fun c hc => q c (by simp [hc]), fun c hc => q c (by simp [hc])⟩

/-- Every result `squared_euclidean_distance` may give for two lists of `n` numbers is the exact squared distance up
to a relative error of `(1 + 2 ^ -p) ^ (n + 3) - 1`, is not negative, and is zero exactly for equal lists. Missing:
one result with an execution policy, see `C182_grouping_violation`. -/
theorem C182_distance_partial (hp : 1 ≤ p) (l m : List (Flt p)) (hlen : l.length = m.length) (r : Res (Flt p))
    (h : SqEuclidPolicy l m r) :
    ∃ v, r = .ok v ∧ |v.val - exactSq l m| ≤ growth p (l.length + 3) * exactSq l m ∧ 0 ≤ v.val ∧
      (v.val = 0 ↔ l = m) := by
  unfold SqEuclidPolicy at h
  rw [if_neg (by simpa using hlen)] at h
  obtain ⟨v, rfl, q, hq, hv⟩ := h
  have key : ∀ l m : List (Flt p), l.length = m.length →
      |((List.zipWith (fun a b => (a - b) * (a - b)) l m).map (·.val)).sum - exactSq l m| ≤
        growth p 3 * exactSq l m ∧ 0 ≤ exactSq l m ∧
      (List.zipWith (fun a b => (a - b) * (a - b)) l m).length = l.length ∧
      (∀ c ∈ List.zipWith (fun a b => (a - b) * (a - b)) l m, 0 ≤ c.val) ∧
      ((∀ c ∈ List.zipWith (fun a b => (a - b) * (a - b)) l m, c.val = 0) ↔ l = m) := by
    intro l
    induction l with
    | nil => intro m hm; cases m with
      | nil => simp [exactSq]
      | cons b m => simp at hm
    | cons a l ih => intro m hm; cases m with
      | nil => simp at hm
      | cons b m =>
        obtain ⟨i1, i2, i3, i4, i5⟩ := ih m (by simpa using hm)
        have t := sq_term_err a b
        unfold exactSq at i1 i2 ⊢
        simp only [List.zipWith_cons_cons, List.map_cons, List.sum_cons, List.length_cons, List.forall_mem_cons]
        refine ⟨?_, by positivity, by rw [i3], ⟨sq_term_nonneg a b, i4⟩, ?_⟩
        · rw [mul_add]
          rw [show ∀ x y z w : ℝ, x + y - (z + w) = (x - z) + (y - w) from fun _ _ _ _ => by ring]
          exact (abs_add_le _ _).trans (add_le_add t i1)
        · rw [sq_term_zero hp, i5]
          simp
  obtain ⟨k1, k2, k3, k4, k5⟩ := key l m hlen
  set T := List.zipWith (fun a b => (a - b) * (a - b)) l m with hT
  have k4' : ∀ c ∈ q, 0 ≤ c.val := by
    intro c hc
    rcases List.mem_cons.1 (hq.mem_iff.1 hc) with rfl | hc
    · exact le_of_eq Flt.zero_val.symm
    · exact k4 c hc
  obtain ⟨n1, n2⟩ := brackets_pos hp hv k4'
  refine ⟨v, rfl, ?_, n1, ?_⟩
  · have e := brackets_err hv
    rw [(hq.map _).sum_eq, (hq.map _).sum_eq, hq.length_eq] at e
    simp only [List.length_cons, Nat.add_sub_cancel, List.map_cons, List.sum_cons, Flt.zero_val, abs_zero, zero_add,
      k3] at e
    have ea : (T.map fun a => |a.val|).sum = (T.map (·.val)).sum := by
      congr 1
      apply List.map_congr_left
      intro a ha
      exact abs_of_nonneg (k4 a ha)
    rw [ea] at e
    have hg : growth p (l.length + 3) = (1 + growth p l.length) * (1 + growth p 3) - 1 := by
      unfold growth; rw [pow_add]; ring
    have b1 : (T.map (·.val)).sum ≤ (1 + growth p 3) * exactSq l m := by
      have := (abs_le.1 k1).2
      linarith
    have b2 := mul_le_mul_of_nonneg_left b1 (growth_nonneg (p := p) l.length)
    have : v.val - exactSq l m = (v.val - (T.map (·.val)).sum) + ((T.map (·.val)).sum - exactSq l m) := by ring
    rw [this, hg]
    refine (abs_add_le _ _).trans ?_
    have : ((1 + growth p l.length) * (1 + growth p 3) - 1) * exactSq l m =
      growth p l.length * ((1 + growth p 3) * exactSq l m) + growth p 3 * exactSq l m := by ring
    linarith
  · rw [n2, ← k5]
    constructor
    · intro h c hc
      exact h c (hq.mem_iff.2 (by simp [hc]))
    · intro h c hc
      rcases List.mem_cons.1 (hq.mem_iff.1 hc) with rfl | hc
      · exact Flt.zero_val
      · exact h c hc

/-- The distance does not depend on the order of its two arguments: the same results are possible. -/
theorem C182_symmetric (l m : List (Flt p)) (r : Res (Flt p)) : SqEuclidPolicy l m r ↔ SqEuclidPolicy m l r := by
  unfold SqEuclidPolicy
  have : List.zipWith (fun a b => (a - b) * (a - b)) l m = List.zipWith (fun a b => (a - b) * (a - b)) m l := by
    rw [List.zipWith_comm]
    congr 1
    funext a b
    exact sq_term_comm b a
  rw [this]
  by_cases h : l.length = m.length
  · rw [if_neg (by simpa using h), if_neg (by simpa using h.symm)]
  · rw [if_pos h, if_pos (fun e => h e.symm)]

/-- The sequential call gives one of these results. -/
theorem C182_sequential (l m : List (Flt p)) : SqEuclidPolicy l m (sqEuclid l m) := by
  unfold SqEuclidPolicy sqEuclid
  have go : ∀ (l m : List (Flt p)) (pre : List (Flt p)) (acc : Flt p), Brackets (· + ·) pre acc →
      if l.length ≠ m.length then sqEuclidGo l m acc = .throw .runtime
      else ∃ v, sqEuclidGo l m acc = .ok v ∧
        Brackets (· + ·) (pre ++ List.zipWith (fun a b => (a - b) * (a - b)) l m) v := by
    intro l
    induction l with
    | nil => intro m pre acc h; cases m with
      | nil => exact ⟨acc, rfl, by simpa using h⟩
      | cons b m => simp [sqEuclidGo]
    | cons a l ih => intro m pre acc h; cases m with
      | nil => simp [sqEuclidGo]
      | cons b m =>
        have := ih m (pre ++ [(a - b) * (a - b)]) (acc + (a - b) * (a - b)) (.node h (.one _))
        simp only [List.length_cons, ne_eq, Nat.add_right_cancel_iff, sqEuclidGo, List.zipWith_cons_cons]
        simpa using this
  have := go l m [0] 0 (.one 0)
  by_cases h : l.length = m.length
  · rw [if_neg (by simpa using h)] at this ⊢
    obtain ⟨v, e, hv⟩ := this
    exact ⟨v, e, _, .refl _, hv⟩
  · rw [if_pos h] at this ⊢
    exact this

example : ∃ v, sqEuclid [nineF, unit] [unit, nineF] = .ok v ∧
    |v.val - 128| ≤ growth 53 5 * 128 ∧ 0 ≤ v.val ∧ (v.val = 0 ↔ [nineF, unit] = [unit, nineF]) := by
  have e : exactSq [nineF, unit] [unit, nineF] = 128 := by norm_num [exactSq, nineF, unit]
  have := C182_distance_partial (by norm_num) [nineF, unit] [unit, nineF] rfl _ (C182_sequential _ _)
  rwa [e] at this

/-- The `double` `2 ^ 27`. -/
noncomputable def rootF : Flt 53 := ⟨2 ^ 27, 1, 27, by norm_num, by norm_num⟩

/-- With an execution policy the distance depends on the grouping: two different results are permitted for the same two
descriptors. -/
theorem C182_grouping_violation :
    ∃ l m : List (Flt 53), ∃ v w : Flt 53, SqEuclidPolicy l m (.ok v) ∧ SqEuclidPolicy l m (.ok w) ∧
      v.val = 2 ^ 54 ∧ w.val = 2 ^ 54 + 4 := by
  have z : ∀ a : Flt 53, a - 0 = a := fun a => Flt.ext (by
    rw [Flt.sub_val, Flt.zero_val, sub_zero, fl_of_rep (by norm_num) a.rep])
  have rr : rootF * rootF = big := Flt.ext (by
    simp only [Flt.mul_val, rootF, big]
    rw [show (2 : ℝ) ^ 27 * 2 ^ 27 = 2 ^ 54 by norm_num, big_rep])
  have uu : unit * unit = unit :=
    Flt.ext (by simp only [Flt.mul_val, unit, mul_one]; simpa using fl_small 1 (by norm_num))
  have hz : List.zipWith (fun a b : Flt 53 => (a - b) * (a - b)) [rootF, unit, unit, unit] [0, 0, 0, 0] =
      [big, unit, unit, unit] := by simp [z, rr, uu]
  refine ⟨[rootF, unit, unit, unit], [0, 0, 0, 0], 0 + big + unit + unit + unit, 0 + unit + unit + unit + big,
    ?_, ?_, ?_, ?_⟩
  · unfold SqEuclidPolicy
    rw [if_neg (by simp), hz]
    exact ⟨_, rfl, [0, big, unit, unit, unit], .refl _,
      .node (.node (.node (.node (.one 0) (.one big)) (.one unit)) (.one unit)) (.one unit)⟩
  · unfold SqEuclidPolicy
    rw [if_neg (by simp), hz]
    exact ⟨_, rfl, [0, unit, unit, unit, big],
      .cons _ (List.perm_append_comm (l₁ := [unit, unit, unit]) (l₂ := [big])),
      .node (.node (.node (.node (.one 0) (.one unit)) (.one unit)) (.one unit)) (.one big)⟩
  · simp only [Flt.add_val, Flt.zero_val, big, unit, zero_add, big_rep, big_unit]
  · rw [unit_add]
    simp only [Flt.add_val, big, big_three]

end TinyDIP.Props
