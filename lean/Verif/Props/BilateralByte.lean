import Verif.Lemmas.Samples
import Verif.Lemmas.BilateralByte
import Mathlib.Tactic.IntervalCases

/-!
# Property theorems: bilateral filtering of 8-bit pictures (C204)

Full statement of C204: bilateral filtering of an 8-bit picture, in `double`, gives for every window the whole part of
the weighted mean of the window up to the rounding of the sums; the result stays within the range of the input.

What is missing: the whole part is taken of a rounded quotient, so a window of equal values can lose one: white
pictures get darker. The result never gets brighter than the input.
-/

namespace TinyDIP.Filter

open TinyDIP Image Finset Rnd

/-! ## C204 -/

theorem low53 : low 53 = 1 - (2 : ℝ) ^ (-53 : ℤ) := rfl

theorem byteWeight_sum_pos {R : Nat → Flt 53} {g : Nat → Nat → Flt 53} {ww wh : Nat} {fw : Nat → Nat → BitVec 8}
    (hw0 : 0 < ww) (hh0 : 0 < wh) (hR : ∀ d, 0 ≤ (R d).val) (hg : ∀ a b, a < ww → b < wh → 0 ≤ (g a b).val)
    (hR0 : 0 < (R 0).val) (hg0 : 0 < (g (ww / 2) (wh / 2)).val) :
    0 < (range wh).sum fun b => (range ww).sum fun a => byteWeight R g ww wh fw a b := by
  have h0 : ∀ a ∈ range ww, ∀ b ∈ range wh, 0 ≤ byteWeight R g ww wh fw a b := fun a ha b hb =>
    mul_nonneg (hR _) (hg a b (mem_range.1 ha) (mem_range.1 hb))
  refine Finset.sum_pos' (fun b hb => Finset.sum_nonneg fun a ha => h0 a ha b hb)
    ⟨wh / 2, Finset.mem_range.mpr (by omega), ?_⟩
  refine Finset.sum_pos' (fun a ha => h0 a ha _ (Finset.mem_range.mpr (by omega)))
    ⟨ww / 2, Finset.mem_range.mpr (by omega), ?_⟩
  unfold byteWeight
  rw [sub_self, Int.natAbs_zero]
  exact mul_pos hR0 hg0

/-- One window: up to the rounding of the sums (each operation errs by at most one part in 2^53), the result is the
whole part of the mean of the window, weighted by the range kernel of the difference to the centre value times the
spatial weight. -/
theorem C204_window (R : Nat → Flt 53) (win : Image (BitVec 8)) (weight : Image (Flt 53)) (ww wh : Nat)
    (fw : Nat → Nat → BitVec 8) (g : Nat → Nat → Flt 53)
    (sw : win.Shows ww wh fw) (sg : weight.Shows ww wh g) (hw0 : 0 < ww) (hh0 : 0 < wh) (hn : ww * wh < 2 ^ 42)
    (hR : ∀ d, 0 ≤ (R d).val) (hR0 : 0 < (R 0).val) (hg : ∀ a b, a < ww → b < wh → 0 ≤ (g a b).val)
    (hg0 : 0 < (g (ww / 2) (wh / 2)).val) :
    let wt := fun a b => (R ((fw a b).toNat - (fw (ww / 2) (wh / 2)).toNat : Int).natAbs).val * (g a b).val
    let mean := ((range wh).sum fun b => (range ww).sum fun a => ((fw a b).toNat : ℝ) * wt a b) /
      ((range wh).sum fun b => (range ww).sum fun a => wt a b)
    ∃ v : BitVec 8, bilateralDetailByte R weight win = .ok v ∧
      (v.toNat : ℝ) * (1 - (2 : ℝ) ^ (-53 : ℤ)) ^ (2 * (ww * wh) + 4) ≤ mean ∧
      mean * (1 - (2 : ℝ) ^ (-53 : ℤ)) ^ (2 * (ww * wh) + 4) < v.toNat + 1 := by
  obtain ⟨S, T, e, h1, h2⟩ := bilateralDetailByte_near R sw sg hw0 hh0 hR hg
  have hB := byteWeight_sum_pos (fw := fw) hw0 hh0 hR hg hR0 hg0
  obtain ⟨v, ev, h3, h4⟩ := bilateral_byte_of_mean hB (by omega) h1 h2 (by
    rw [Finset.mul_sum]
    refine Finset.sum_le_sum fun b hb => ?_
    rw [Finset.mul_sum]
    refine Finset.sum_le_sum fun a ha => mul_le_mul_of_nonneg_right ?_
      (mul_nonneg (hR _) (hg a b (mem_range.1 ha) (mem_range.1 hb)))
    have := (fw a b).isLt
    exact_mod_cast (show (fw a b).toNat ≤ 255 by omega))
  exact ⟨v, e.trans ev, h3, h4⟩

/-- A bell curve as a `double`. -/
noncomputable def bellF (sd : ℝ) (t : ℝ) : Flt 53 := ⟨fl 53 (bell sd t), fl_rep _⟩

theorem bellF_pos (sd t : ℝ) : 0 < (bellF sd t).val := by
  have h := bell_pos sd t
  have := Near.fl (p := 53) (by decide) h.le
  exact lt_of_lt_of_le (mul_pos (low_pos (by decide)) h) this.2.2.1

example := C204_window (fun d => bellF 20 d) _ _ 3 5 _ _ (picture_shows 3 5 fun x y => BitVec.ofNat 8 (30 * x + y))
  (picture_shows 3 5 fun x y => bellF 3 (x + y : Nat)) (by decide) (by decide) (by decide)
  (fun d => (bellF_pos 20 d).le) (bellF_pos 20 _) (fun a b _ _ => (bellF_pos 3 _).le) (bellF_pos 3 _)

/-- One window: the result is not above the largest value of the window, and not more than one below the smallest. -/
theorem C204_window_range (R : Nat → Flt 53) (win : Image (BitVec 8)) (weight : Image (Flt 53)) (ww wh : Nat)
    (fw : Nat → Nat → BitVec 8) (g : Nat → Nat → Flt 53)
    (sw : win.Shows ww wh fw) (sg : weight.Shows ww wh g) (hw0 : 0 < ww) (hh0 : 0 < wh) (hn : ww * wh < 2 ^ 42)
    (hR : ∀ d, 0 ≤ (R d).val) (hR0 : 0 < (R 0).val) (hg : ∀ a b, a < ww → b < wh → 0 ≤ (g a b).val)
    (hg0 : 0 < (g (ww / 2) (wh / 2)).val) (lo hi : Nat)
    (hr : ∀ a b, a < ww → b < wh → lo ≤ (fw a b).toNat ∧ (fw a b).toNat ≤ hi) :
    ∃ v : BitVec 8, bilateralDetailByte R weight win = .ok v ∧ lo ≤ v.toNat + 1 ∧ v.toNat ≤ hi := by
  obtain ⟨v, e, h1, h2⟩ := C204_window R win weight ww wh fw g sw sg hw0 hh0 hn hR hR0 hg hg0
  refine ⟨v, e, ?_⟩
  have hB := byteWeight_sum_pos (fw := fw) hw0 hh0 hR hg hR0 hg0
  have n0 : ∀ a ∈ range ww, ∀ b ∈ range wh, 0 ≤ byteWeight R g ww wh fw a b := fun a ha b hb =>
    mul_nonneg (hR _) (hg a b (mem_range.1 ha) (mem_range.1 hb))
  change (v.toNat : ℝ) * _ ≤ (((range wh).sum fun b => (range ww).sum fun a =>
    ((fw a b).toNat : ℝ) * byteWeight R g ww wh fw a b) /
      ((range wh).sum fun b => (range ww).sum fun a => byteWeight R g ww wh fw a b)) at h1
  change (((range wh).sum fun b => (range ww).sum fun a =>
    ((fw a b).toNat : ℝ) * byteWeight R g ww wh fw a b) /
      ((range wh).sum fun b => (range ww).sum fun a => byteWeight R g ww wh fw a b)) * _ < _ at h2
  generalize byteWeight R g ww wh fw = u at *
  have k1 : (lo : ℝ) ≤ ((range wh).sum fun b => (range ww).sum fun a => ((fw a b).toNat : ℝ) * u a b) /
      ((range wh).sum fun b => (range ww).sum fun a => u a b) := by
    rw [le_div_iff₀ hB, Finset.mul_sum]
    refine Finset.sum_le_sum fun b hb => ?_
    rw [Finset.mul_sum]
    exact Finset.sum_le_sum fun a ha => mul_le_mul_of_nonneg_right
      (by exact_mod_cast (hr a b (Finset.mem_range.mp ha) (Finset.mem_range.mp hb)).1) (n0 a ha b hb)
  have k2 : ((range wh).sum fun b => (range ww).sum fun a => ((fw a b).toNat : ℝ) * u a b) /
      ((range wh).sum fun b => (range ww).sum fun a => u a b) ≤ hi := by
    rw [div_le_iff₀ hB, Finset.mul_sum]
    refine Finset.sum_le_sum fun b hb => ?_
    rw [Finset.mul_sum]
    exact Finset.sum_le_sum fun a ha => mul_le_mul_of_nonneg_right
      (by exact_mod_cast (hr a b (Finset.mem_range.mp ha) (Finset.mem_range.mp hb)).2) (n0 a ha b hb)
  rw [← low53] at h1 h2
  have hlow : 511 / 512 ≤ low 53 ^ (2 * (ww * wh) + 4) := by
    have h := low_pow_ge (2 * (ww * wh) + 4)
    have hk : ((2 * (ww * wh) + 4 : Nat) : ℝ) * ulp1 53 ≤ 2 ^ 44 * ulp1 53 := by
      refine mul_le_mul_of_nonneg_right ?_ ulp1_pos.le
      exact_mod_cast (show 2 * (ww * wh) + 4 ≤ 2 ^ 44 by omega)
    have hu : (2 : ℝ) ^ 44 * ulp1 53 = 1 / 512 := by unfold ulp1; norm_num
    linarith
  have hv := v.isLt
  have hlo : lo ≤ 255 := ((hr (ww / 2) (wh / 2) (by omega) (by omega)).1).trans (by have := (fw (ww / 2) (wh / 2)).isLt; omega)
  generalize low 53 ^ (2 * (ww * wh) + 4) = c at *
  constructor
  · by_contra hcon
    have : (v.toNat : ℝ) + 2 ≤ lo := by exact_mod_cast (show v.toNat + 2 ≤ lo by omega)
    have h255 : (lo : ℝ) ≤ 255 := by exact_mod_cast hlo
    have h0 : (0 : ℝ) ≤ lo := by positivity
    nlinarith
  · by_contra hcon
    have : (hi : ℝ) + 1 ≤ v.toNat := by exact_mod_cast (show hi + 1 ≤ v.toNat by omega)
    have h255 : (v.toNat : ℝ) ≤ 255 := by exact_mod_cast (show v.toNat ≤ 255 by omega)
    nlinarith

example := C204_window_range (fun d => bellF 20 d) _ _ 3 5 _ _ (picture_shows 3 5 fun x y => BitVec.ofNat 8 (30 * x + y))
  (picture_shows 3 5 fun x y => bellF 3 (x + y : Nat)) (by decide) (by decide) (by decide)
  (fun d => (bellF_pos 20 d).le) (bellF_pos 20 _) (fun a b _ _ => (bellF_pos 3 _).le) (bellF_pos 3 _) 0 64
  (fun a b ha hb => by interval_cases a <;> interval_cases b <;> decide)

theorem fl53_of {x : ℝ} (e m : ℤ) (h1 : (2 : ℝ) ^ e ≤ x) (h2 : x < (2 : ℝ) ^ (e + 1))
    (hm : |x - m * (2 : ℝ) ^ (e + 1 - (53 : Nat))| < (2 : ℝ) ^ (e + 1 - (53 : Nat)) / 2) :
    fl 53 x = m * (2 : ℝ) ^ (e + 1 - (53 : Nat)) := by
  have hx : 0 < x := lt_of_lt_of_le (by positivity) h1
  refine fl_eq_of (by rwa [abs_of_pos hx]) (by rwa [abs_of_pos hx]) (roundEven_eq ?_)
  have hu : (0 : ℝ) < (2 : ℝ) ^ (e + 1 - (53 : Nat)) := by positivity
  have e1 : x / (2 : ℝ) ^ (e + 1 - (53 : Nat)) - m = (x - m * (2 : ℝ) ^ (e + 1 - (53 : Nat))) / (2 : ℝ) ^ (e + 1 - (53 : Nat)) := by
    field_simp
  rw [e1, abs_div, abs_of_pos hu, div_lt_iff₀ hu]
  linarith

/-- Spatial weights right of and below the centre (inclusive) are the kernel of the Euclidean distance, rounded once.
Missing: the other positions, see `C204_spatial_violation`. -/
theorem C204_spatial_partial (ww wh : Nat) (hw : ww < 2 ^ 26) (hh : wh < 2 ^ 26) (K : ℝ → Flt 53) :
    ∃ out g, spatialKernelWeightF [ww, wh] K = .ok out ∧ out.Shows ww wh g ∧
      ∀ a b, ww / 2 ≤ a → a < ww → wh / 2 ≤ b → b < wh →
        g a b = K (fl 53 (Real.sqrt (((a : ℝ) - (ww / 2 : Nat)) ^ 2 + ((b : ℝ) - (wh / 2 : Nat)) ^ 2))) := by
  have hf : ww * wh < 2 ^ 64 := lt_of_le_of_lt (Nat.mul_le_mul hw.le hh.le) (by norm_num)
  obtain ⟨out, e, s⟩ := spatialKernelWeightF_shows (by omega) (by omega) hf K
  refine ⟨out, _, e, s, fun a b ha ha' hb hb' => ?_⟩
  unfold codeDistanceF
  rw [wsub_of_le ha (by omega), wsub_of_le hb (by omega), ← Nat.cast_sub ha, ← Nat.cast_sub hb]
  have ha2 : a - ww / 2 < 2 ^ 26 := by omega
  have hb2 : b - wh / 2 < 2 ^ 26 := by omega
  generalize a - ww / 2 = m at *
  generalize b - wh / 2 = n at *
  have hm : m ^ 2 ≤ (2 ^ 26) ^ 2 := Nat.pow_le_pow_left ha2.le 2
  have hn : n ^ 2 ≤ (2 ^ 26) ^ 2 := Nat.pow_le_pow_left hb2.le 2
  have e1 : fl 53 (m : ℝ) = m := fl_nat (by decide) (by omega)
  have e2 : fl 53 (n : ℝ) = n := fl_nat (by decide) (by omega)
  have e3 : fl 53 ((m : ℝ) ^ 2) = (m : ℝ) ^ 2 := by
    have := fl_nat (p := 53) (n := m ^ 2) (by decide) (by omega); push_cast at this; exact this
  have e4 : fl 53 ((n : ℝ) ^ 2) = (n : ℝ) ^ 2 := by
    have := fl_nat (p := 53) (n := n ^ 2) (by decide) (by omega); push_cast at this; exact this
  have e5 : fl 53 ((m : ℝ) ^ 2 + (n : ℝ) ^ 2) = (m : ℝ) ^ 2 + (n : ℝ) ^ 2 := by
    have := fl_nat (p := 53) (n := m ^ 2 + n ^ 2) (by decide) (by omega); push_cast at this; exact this
  rw [e1, e2, e3, e4, zero_add, e3, e5]

example := C204_spatial_partial 3 5 (by decide) (by decide) (bellF 2)

/-- Violation: the window position directly left of the centre gets the weight of distance 2^64, for every kernel,
while the position directly right of it gets the weight of distance 1. -/
theorem C204_spatial_violation (K : ℝ → Flt 53) (r : Nat) (hr : 0 < r) (hb : 2 * r + 1 < 2 ^ 26) :
    ∃ out, spatialKernelWeightF [2 * r + 1, 1] K = .ok out ∧
      out.at2 (r - 1) 0 = .ok (K (2 ^ 64)) ∧ out.at2 (r + 1) 0 = .ok (K 1) := by
  obtain ⟨out, e, s⟩ := spatialKernelWeightF_shows (ww := 2 * r + 1) (wh := 1) (by omega) (by decide) (by omega) K
  have h1 : (2 * r + 1) / 2 = r := by omega
  have h3 : wsub 0 (1 / 2) = 0 := by decide
  refine ⟨out, e, ?_, ?_⟩
  · rw [s.px (r - 1) 0 (by omega) (by omega)]
    have h2 : wsub (r - 1) r = 2 ^ 64 - 1 := by rw [wsub_of_gt (by omega) (by omega)]; omega
    have rep2 : ∀ k : Nat, fl 53 ((2 : ℝ) ^ k) = 2 ^ k := fun k => fl_of_rep (by decide) ⟨1, k, by norm_num, by simp⟩
    have e1 : fl 53 ((2 ^ 64 - 1 : Nat) : ℝ) = 2 ^ 64 := by
      rw [fl53_of 63 (2 ^ 53) (by norm_num) (by norm_num) (by rw [abs_lt]; norm_num)]
      norm_num
    unfold codeDistanceF
    rw [h1, h2, h3, e1, ← pow_mul, rep2, Nat.cast_zero, fl_zero, zero_pow two_ne_zero, fl_zero, zero_add, rep2, add_zero, rep2,
      show (2 : ℝ) ^ (64 * 2) = (2 ^ 64) ^ 2 by rw [← pow_mul], Real.sqrt_sq (by positivity), rep2]
  · rw [s.px (r + 1) 0 (by omega) (by omega)]
    have h2 : wsub (r + 1) r = 1 := by rw [wsub_of_le (by omega) (by omega)]; omega
    have e1 : fl 53 1 = 1 := by simpa using fl_nat (p := 53) (n := 1) (by decide) (by decide)
    unfold codeDistanceF
    rw [h1, h2, h3]
    simp [fl_zero, e1]

example := C204_spatial_violation (bellF 2) 1 (by decide) (by decide)

/-- Whatever the order in which the pixels are processed, for kernels that are never negative and positive at zero the
result has the input's size and is nowhere brighter than the brightest pixel of the input (and of the padding value, if
it is used).
Missing: the result can be darker than the darkest pixel, see the violation. -/
theorem C204_range_partial (R : Nat → Flt 53) (K : ℝ → Flt 53) (hR : ∀ d, 0 ≤ (R d).val) (hR0 : 0 < (R 0).val)
    (hK : ∀ t, 0 ≤ (K t).val) (hK0 : 0 < (K 0).val) (im : Image (BitVec 8)) (w h : Nat) (f : Nat → Nat → BitVec 8)
    (s : im.Shows w h f) (hw0 : 0 < w) (hh0 : 0 < h) (ww wh : Nat) (hww : 0 < ww) (hwh : 0 < wh)
    (hn : ww * wh < 2 ^ 42) (b : Boundary) (v : BitVec 8)
    (hc : CanPad b w h ww wh) (hx : 2 * (w + 2 * ww) < 2 ^ 64) (hy : 2 * (h + 2 * wh) < 2 ^ 64)
    (hf : (w + 2 * ww) * (h + 2 * wh) < 2 ^ 64) (order : List Nat) (ho : order.Perm (List.range (w * h)))
    (hi : Nat) (hr : ∀ x y, x < w → y < h → (f x y).toNat ≤ hi) (hv : b = .constant → v.toNat ≤ hi) :
    ∃ out g, bilateralFilterByteOrd order im [ww, wh] R K b v = .ok out ∧ out.Shows w h g ∧
      ∀ x y, x < w → y < h → (g x y).toNat ≤ hi := by
  obtain ⟨pad, ep, sp⟩ := paddedImage_extend s (n1 := ww) (n2 := wh) v hc (by omega) (by omega) hf
  have hwin : ww * wh < 2 ^ 64 := by omega
  refine windowedFilter_inv 0 s hw0 hh0 hww hwh hwin hx hy b v _ pad ep sp _
    (fun t => t.toNat ≤ hi) ?_ ?_ order (fun k hk => List.mem_range.mp (ho.mem_iff.mp hk))
  · intro X Y hX hY
    cases b with
    | constant =>
      unfold extend
      dsimp only
      split
      · exact hr _ _ (by omega) (by omega)
      · exact hv rfl
    | mirror =>
      obtain ⟨h1, h2⟩ := hc
      refine hr _ _ ?_ ?_
      · unfold reflectInt; repeat' split
        all_goals omega
      · unfold reflectInt; repeat' split
        all_goals omega
    | replicate =>
      obtain ⟨h1, h2⟩ := hc
      refine hr _ _ ?_ ?_ <;> unfold clampInt <;> omega
  · intro win fw sw hfw
    obtain ⟨wt, e, sw'⟩ := spatialKernelWeightF_shows (ww := ww) (wh := wh) (by omega) (by omega) hwin K
    obtain ⟨u, eu, -, hu⟩ := C204_window_range R win wt ww wh fw _ sw sw' hww hwh hn hR hR0 (fun a b _ _ => hK _)
      (by rw [codeDistanceF_center ww wh (by omega) (by omega)]; exact hK0) 0 hi
      (fun a b ha hb => ⟨Nat.zero_le _, hfw a b ha hb⟩)
    exact ⟨u, by rw [e, Res.ok_bind, eu], hu⟩

example := C204_range_partial (fun d => bellF 20 d) (bellF 3) (fun d => (bellF_pos 20 d).le) (bellF_pos 20 _)
  (fun t => (bellF_pos 3 t).le) (bellF_pos 3 0) _ 7 6 _
  (picture_shows 7 6 fun x y => if x = y then (200 : BitVec 8) else 3) (by decide) (by decide) 3 3 (by decide) (by decide)
  (by decide) .mirror 0 (by unfold CanPad; decide) (by decide) (by decide) (by decide) _ (List.reverse_perm _) 200
  (fun x y _ _ => by split <;> decide) (fun h => by cases h)

/-! ### A white picture gets darker -/

/-- The weight of a neighbour: a little more than 2^-53. -/
noncomputable def smallF : Flt 53 := ⟨1025 * (2 : ℝ) ^ (-63 : ℤ), 1025, -63, by norm_num, by norm_num⟩

/-- The number one. -/
noncomputable def oneF : Flt 53 := ⟨1, 1, 0, by norm_num, by norm_num⟩

open Classical in
/-- A kernel that falls with the distance. -/
noncomputable def steep (d : ℝ) : Flt 53 := if d ≤ 0 then oneF else if d ≤ 1 then smallF else 0

theorem steep_left : steep (codeDistanceF 3 1 0 0) = 0 := by
  have h0 : wsub 0 (3 / 2) = 2 ^ 64 - 1 := by decide
  have h1 : wsub 0 (1 / 2) = 0 := by decide
  have hd : 2 ≤ codeDistanceF 3 1 0 0 := by
    have rep2 : ∀ k : Nat, Rep 53 ((2 : ℝ) ^ k) := fun k => ⟨1, k, by norm_num, by simp⟩
    unfold codeDistanceF
    rw [h0, h1]
    have a1 : (2 : ℝ) ^ 3 ≤ fl 53 ((2 ^ 64 - 1 : Nat) : ℝ) := le_fl (by decide) (rep2 3) (by positivity) (by norm_num)
    have a2 : (2 : ℝ) ^ 3 ≤ fl 53 (fl 53 ((2 ^ 64 - 1 : Nat) : ℝ) ^ 2) :=
      le_fl (by decide) (rep2 3) (by positivity) (by nlinarith)
    have a3 : (2 : ℝ) ^ 3 ≤ fl 53 (0 + fl 53 (fl 53 ((2 ^ 64 - 1 : Nat) : ℝ) ^ 2)) :=
      le_fl (by decide) (rep2 3) (by positivity) (by linarith)
    have a4 : (2 : ℝ) ^ 3 ≤ fl 53 (fl 53 (0 + fl 53 (fl 53 ((2 ^ 64 - 1 : Nat) : ℝ) ^ 2)) + fl 53 (fl 53 ((0 : Nat) : ℝ) ^ 2)) :=
      le_fl (by decide) (rep2 3) (by positivity) (by simpa [fl_zero] using a3)
    have a5 : (2 : ℝ) ^ 1 ≤ Real.sqrt (fl 53 (fl 53 (0 + fl 53 (fl 53 ((2 ^ 64 - 1 : Nat) : ℝ) ^ 2)) + fl 53 (fl 53 ((0 : Nat) : ℝ) ^ 2))) :=
      Real.le_sqrt_of_sq_le (by linarith)
    have := le_fl (by decide) (rep2 1) (by positivity) a5
    linarith
  unfold steep
  rw [if_neg (by linarith), if_neg (by linarith)]

theorem steep_center : steep (codeDistanceF 3 1 1 0) = oneF := by
  have := codeDistanceF_center 3 1 (by decide) (by decide)
  unfold steep
  rw [if_pos this.le]

theorem steep_right : steep (codeDistanceF 3 1 2 0) = smallF := by
  have h0 : wsub 2 (3 / 2) = 1 := by decide
  have h1 : wsub 0 (1 / 2) = 0 := by decide
  have e1 : fl 53 1 = 1 := by simpa using fl_nat (p := 53) (n := 1) (by decide) (by decide)
  have : codeDistanceF 3 1 2 0 = 1 := by
    unfold codeDistanceF
    rw [h0, h1]
    simp [fl_zero, e1]
  unfold steep
  rw [this, if_neg (by norm_num), if_pos le_rfl]

/-- The window of three pixels in a row, with the kernel above and a range kernel that is always one. -/
theorem steep_window {win : Image (BitVec 8)} {fw : Nat → Nat → BitVec 8} (sw : win.Shows 3 1 fw) :
    (do
      let weight ← spatialKernelWeightF [3, 1] steep
      bilateralDetailByte (fun _ => oneF) weight win) =
    toByteQuot (ofByte (fw 1 0) + ofByte (fw 2 0) * oneF * smallF) (oneF + smallF) := by
  obtain ⟨wt, e, s⟩ := spatialKernelWeightF_shows (ww := 3) (wh := 1) (by decide) (by decide) (by decide) steep
  rw [e, Res.ok_bind]
  have hc : win.atUnchecked (centerLocation win) = .ok (fw 1 0) := by
    have := sw.at2u (x := 1) (y := 0) (by decide) (by decide)
    rw [centerLocation, sw.size]; exact this
  have l0 : linearToIndices 0 win.size = .ok [0, 0] := by rw [sw.size]; exact linearToIndices2 (by decide) (by decide)
  have l1 : linearToIndices 1 win.size = .ok [1, 0] := by rw [sw.size]; exact linearToIndices2 (by decide) (by decide)
  have l2 : linearToIndices 2 win.size = .ok [2, 0] := by rw [sw.size]; exact linearToIndices2 (by decide) (by decide)
  have v0 : win.atUnchecked [0, 0] = .ok (fw 0 0) := sw.at2u (by decide) (by decide)
  have v1 : win.atUnchecked [1, 0] = .ok (fw 1 0) := sw.at2u (by decide) (by decide)
  have v2 : win.atUnchecked [2, 0] = .ok (fw 2 0) := sw.at2u (by decide) (by decide)
  have w0 : wt.atUnchecked [0, 0] = .ok 0 := by rw [← steep_left]; exact s.at2u (by decide) (by decide)
  have w1 : wt.atUnchecked [1, 0] = .ok oneF := by rw [← steep_center]; exact s.at2u (by decide) (by decide)
  have w2 : wt.atUnchecked [2, 0] = .ok smallF := by rw [← steep_right]; exact s.at2u (by decide) (by decide)
  have hone : ∀ x : Flt 53, x * oneF = x := fun x => Flt.ext (by
    rw [Flt.mul_val, show (oneF).val = 1 from rfl, mul_one]; exact fl_of_rep (by decide) x.rep)
  have honl : ∀ x : Flt 53, oneF * x = x := fun x => by rw [Flt.mul_comm, hone]
  have hzero : ∀ x : Flt 53, x * 0 = 0 := fun x => Flt.ext (by
    rw [Flt.mul_val, Flt.zero_val, mul_zero, fl_zero])
  have hadd : ∀ x : Flt 53, 0 + x = x := fun x => Flt.ext (by
    rw [Flt.add_val, Flt.zero_val, zero_add]; exact fl_of_rep (by decide) x.rep)
  rw [bilateralDetailByte, hc, Res.ok_bind, sw.count]
  rw [show List.range (3 * 1) = [0, 1, 2] from rfl]
  simp only [loop, l0, l1, l2, v0, v1, v2, w0, w1, w2, Res.ok_bind, hone, honl, hzero, hadd]

theorem steep_white : toByteQuot (ofByte 255 + ofByte 255 * oneF * smallF) (oneF + smallF) = .ok 254 := by
  have e1 : (ofByte 255 * oneF).val = 255 := by
    rw [Flt.mul_val, ofByte_val, show (oneF).val = 1 from rfl, mul_one]
    exact fl_nat (n := 255) (by decide) (by decide)
  have e2 : (ofByte 255 * oneF * smallF).val = 261375 * (2 : ℝ) ^ (-63 : ℤ) := by
    rw [Flt.mul_val, e1, show smallF.val = 1025 * (2 : ℝ) ^ (-63 : ℤ) from rfl]
    rw [show (255 : ℝ) * (1025 * (2 : ℝ) ^ (-63 : ℤ)) = 261375 * (2 : ℝ) ^ (-63 : ℤ) by ring]
    exact fl_of_rep (by decide) ⟨261375, -63, by norm_num, by norm_num⟩
  have e3 : (ofByte 255 + ofByte 255 * oneF * smallF).val = (255 * 2 ^ 45 + 1 : ℤ) * (2 : ℝ) ^ ((7 : ℤ) + 1 - (53 : Nat)) := by
    rw [Flt.add_val, e2, ofByte_val, show ((BitVec.toNat (255 : BitVec 8) : Nat) : ℝ) = 255 from by norm_num [show BitVec.toNat (255 : BitVec 8) = 255 from rfl]]
    refine fl53_of 7 _ ?_ ?_ ?_
    · norm_num
    · norm_num
    · rw [abs_lt]; norm_num
  have e4 : (oneF + smallF).val = (2 ^ 52 + 1 : ℤ) * (2 : ℝ) ^ ((0 : ℤ) + 1 - (53 : Nat)) := by
    rw [Flt.add_val, show smallF.val = 1025 * (2 : ℝ) ^ (-63 : ℤ) from rfl, show (oneF).val = 1 from rfl]
    refine fl53_of 0 _ ?_ ?_ ?_
    · norm_num
    · norm_num
    · rw [abs_lt]; norm_num
  have e5 : (divF (ofByte 255 + ofByte 255 * oneF * smallF) (oneF + smallF)).val =
      (255 * 2 ^ 45 - 1 : ℤ) * (2 : ℝ) ^ ((7 : ℤ) + 1 - (53 : Nat)) := by
    unfold divF
    dsimp only
    rw [e3, e4]
    refine fl53_of 7 _ ?_ ?_ ?_
    · norm_num
    · norm_num
    · rw [abs_lt]; norm_num
  have e6 : ⌊(divF (ofByte 255 + ofByte 255 * oneF * smallF) (oneF + smallF)).val⌋₊ = 254 := by
    rw [e5, Nat.floor_eq_iff (by norm_num)]
    norm_num
  rw [toByteQuot, e6, if_neg (by rw [e4]; norm_num), if_pos (by rw [e5]; norm_num)]
  rfl

/-- Violation: there are kernels, never negative, one at distance zero and falling with the distance, for which a white
picture of any size gets darker everywhere. -/
theorem C204_white_violation (w h : Nat) (hw0 : 0 < w) (hh0 : 0 < h) (hx : w < 2 ^ 62) (hy : h < 2 ^ 62)
    (hf : (w + 6) * (h + 2) < 2 ^ 64) :
    ∃ (R : Nat → Flt 53) (K : ℝ → Flt 53), (∀ d, 0 ≤ (R d).val) ∧ (R 0).val = 1 ∧ (K 0).val = 1 ∧
      (∀ t t', 0 ≤ t → t ≤ t' → (K t').val ≤ (K t).val ∧ 0 ≤ (K t').val) ∧
      ∀ im : Image (BitVec 8), im.Shows w h (fun _ _ => 255) →
        ∃ out, bilateralFilterByteOrd (List.range (w * h)) im [3, 1] R K .replicate 0 = .ok out ∧
          out.Shows w h (fun _ _ => 254) := by
  refine ⟨fun _ => oneF, steep, fun _ => zero_le_one, rfl, by unfold steep; rw [if_pos le_rfl]; rfl, ?_, ?_⟩
  · intro t t' h0 h1
    have h2 : (0 : ℝ) ≤ smallF.val := by unfold smallF; positivity
    have h3 : smallF.val ≤ 1 := by unfold smallF; norm_num
    have h4 : (oneF).val = 1 := rfl
    have h5 : (0 : Flt 53).val = 0 := rfl
    have key : ∀ d, (steep d).val = if d ≤ 0 then 1 else if d ≤ 1 then smallF.val else 0 := by
      intro d; unfold steep; split_ifs <;> rfl
    rw [key, key]
    split_ifs <;> constructor <;> linarith
  · intro im s
    obtain ⟨pad, ep, sp⟩ := paddedImage_extend s (n1 := 3) (n2 := 1) (b := .replicate) 0 ⟨hw0, hh0⟩ (by omega) (by omega) hf
    refine windowedFilter_shows 0 s hw0 hh0 (by decide) (by decide) (by decide) (by omega) (by omega) .replicate 0 _ _ pad ep sp
      _ (fun a b => 1 ≤ a) ?_ ?_ (List.range (w * h)) (List.Perm.refl _) ?_
    · intro u v fu fv su sv hD
      rw [steep_window su, steep_window sv, hD 1 0 (by decide) (by decide) (by decide),
        hD 2 0 (by decide) (by decide) (by decide)]
    · intro x y hx hy win swin
      rw [steep_window swin]
      exact steep_white
    · refine List.pairwise_lt_range.imp ?_
      intro k m hkm a b ha hb h1 h2 h3
      have hb0 : b = 0 := by omega
      have e1 : k / w = m / w := by omega
      have e2 := Nat.mod_add_div k w
      have e3 := Nat.mod_add_div m w
      rw [e1] at e2
      omega

example := C204_white_violation 7 6 (by decide) (by decide) (by decide) (by decide) (by decide)

end TinyDIP.Filter
