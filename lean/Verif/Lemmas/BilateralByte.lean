import Verif.Model.BilateralByte
import Verif.Lemmas.Bilateral
import Verif.Lemmas.FilterFlt

/-! # Lemmas on bilateral filtering of 8-bit pictures -/

namespace TinyDIP.Filter

open TinyDIP Image Rnd Finset

theorem ofByte_val (v : BitVec 8) : (ofByte v).val = v.toNat :=
  fl_nat (by decide) (le_trans v.isLt.le (by norm_num))

/-- The distance the code computes, in `double`, between window position `(a, b)` and the window's centre. -/
noncomputable def codeDistanceF (ww wh a b : Nat) : ℝ :=
  fl 53 (Real.sqrt (fl 53 (fl 53 (0 + fl 53 (fl 53 (wsub a (ww / 2) : Nat) ^ 2)) + fl 53 (fl 53 (wsub b (wh / 2) : Nat) ^ 2))))

theorem codeDistanceF_center (ww wh : Nat) (hw : ww < 2 ^ 64) (hh : wh < 2 ^ 64) :
    codeDistanceF ww wh (ww / 2) (wh / 2) = 0 := by
  unfold codeDistanceF
  rw [wsub_of_le le_rfl (by omega), wsub_of_le le_rfl (by omega)]
  simp [fl_zero]

theorem spatialKernelWeightF_shows {ww wh : Nat} (hw : ww < 2 ^ 64) (hh : wh < 2 ^ 64)
    (hf : ww * wh < 2 ^ 64) (K : ℝ → Flt 53) :
    ∃ out, spatialKernelWeightF [ww, wh] K = .ok out ∧
      out.Shows ww wh (fun a b => K (codeDistanceF ww wh a b)) := by
  have s0 := ofSizes_shows (0 : Flt 53) hw hh hf
  obtain ⟨out, e, so⟩ := forUp_inv (n := ww * wh) (body := fun (output : Image (Flt 53)) idx => do
      let indices ← linearToIndices idx output.size
      let d ← spatialDistanceF indices [ww / 2, wh / 2]
      output.setAtUnchecked indices (K d))
    (fun k im => im.Shows ww wh (fun a b => if a + ww * b < k then K (codeDistanceF ww wh a b) else 0))
    (by
      intro k im hk si
      have hw0 : 0 < ww := Nat.pos_of_mul_pos_right (lt_of_le_of_lt (Nat.zero_le _) hk)
      have hx : k % ww < ww := Nat.mod_lt _ hw0
      have hy : k / ww < wh := Nat.div_lt_of_lt_mul hk
      obtain ⟨im', e', s'⟩ := si.set2u hx hy (K (codeDistanceF ww wh (k % ww) (k / ww)))
      have e'' : im.setAtUnchecked [k % ww, k / ww] (K (codeDistanceF ww wh (k % ww) (k / ww))) = .ok im' := e'
      refine ⟨im', ?_, s'.congr fun a b ha hb => ?_⟩
      · rw [si.size, linearToIndices2 hk hf, Res.ok_bind]
        simp only [spatialDistanceF, List.length_cons, List.length_nil, ne_eq, not_true_eq_false, if_false,
          Res.ok_bind, List.zipWith_cons_cons, List.zipWith_nil_left, List.foldl_cons, List.foldl_nil]
        exact e''
      · unfold updPx
        have hdm := Nat.mod_add_div k ww
        by_cases hc : a = k % ww ∧ b = k / ww
        · rw [if_pos hc, hc.1, hc.2, hdm, if_pos (by omega)]
        · rw [if_neg hc]
          have hne : a + ww * b ≠ k := by
            intro hk'
            apply hc
            rw [← hk', Nat.add_mul_mod_self_left, Nat.mod_eq_of_lt ha, Nat.add_mul_div_left _ _ hw0,
              Nat.div_eq_of_lt ha, Nat.zero_add]
            exact ⟨rfl, rfl⟩
          dsimp only
          by_cases hl : a + ww * b < k
          · rw [if_pos hl, if_pos (by omega)]
          · rw [if_neg hl, if_neg (by omega)])
    (ofSizes 0 [ww, wh]) (s0.congr (by simp))
  refine ⟨out, ?_, so.congr fun a b ha hb => ?_⟩
  · rw [spatialKernelWeightF, ofSizeRange, if_neg (by simp), Res.ok_bind]
    rw [s0.count]
    exact e
  · rw [if_pos]
    have := so.idx_lt ha hb
    rwa [so.len] at this

/-- The weight of a position of a window of 8-bit values. -/
noncomputable def byteWeight (R : Nat → Flt 53) (g : Nat → Nat → Flt 53) (ww wh : Nat) (fw : Nat → Nat → BitVec 8)
    (a b : Nat) : ℝ :=
  (R ((fw a b).toNat - (fw (ww / 2) (wh / 2)).toNat : Int).natAbs).val * (g a b).val

/-- One more product of three numbers is added to a sum. -/
theorem near_step3 {p k : Nat} (hp : 1 ≤ p) {S : ℝ} {s a b c : Flt p} (ha : 0 ≤ a.val) (hb : 0 ≤ b.val) (hc : 0 ≤ c.val)
    (h : Near (low p ^ (k + 2)) S s.val) :
    Near (low p ^ (k + 1 + 2)) (S + a.val * (b.val * c.val)) (s + a * b * c).val := by
  have l0 := (low_pos hp).le
  have h1 : Near (low p) (a.val * b.val) (a * b).val := Near.fl hp (mul_nonneg ha hb)
  have h2 : Near (low p * 1) (a.val * b.val * c.val) ((a * b).val * c.val) := h1.mul l0 zero_le_one (Near.refl hc)
  have h3 : Near (low p) ((a * b).val * c.val) (a * b * c).val := Near.fl hp (mul_nonneg h1.2.1 hc)
  have h4 := h2.trans (by linarith) l0 h3
  rw [mul_one, mul_assoc a.val] at h4
  have h5 : Near (low p ^ (k + 2)) (a.val * (b.val * c.val)) (a * b * c).val := by
    refine h4.weaken ?_
    rw [← sq]
    exact low_pow_anti hp (by omega)
  have h6 := h.add h5
  have h7 : Near (low p) (s.val + (a * b * c).val) (s + a * b * c).val := Near.fl hp h6.2.1
  have := h6.trans (pow_nonneg l0 _) l0 h7
  rwa [← pow_succ, show k + 2 + 1 = k + 1 + 2 by omega] at this

/-- The result of a window is the rounded-down quotient of two sums, each close to the exact one. -/
theorem bilateralDetailByte_near {win : Image (BitVec 8)} {weight : Image (Flt 53)} {ww wh : Nat}
    {fw : Nat → Nat → BitVec 8} {g : Nat → Nat → Flt 53} (R : Nat → Flt 53)
    (sw : win.Shows ww wh fw) (sg : weight.Shows ww wh g) (hw0 : 0 < ww) (hh0 : 0 < wh)
    (hR : ∀ d, 0 ≤ (R d).val) (hg : ∀ a b, a < ww → b < wh → 0 ≤ (g a b).val) :
    ∃ S T : Flt 53, bilateralDetailByte R weight win = toByteQuot S T ∧
      Near (low 53 ^ (ww * wh + 2)) ((range wh).sum fun b => (range ww).sum fun a =>
        ((fw a b).toNat : ℝ) * byteWeight R g ww wh fw a b) S.val ∧
      Near (low 53 ^ (ww * wh + 1)) ((range wh).sum fun b => (range ww).sum fun a => byteWeight R g ww wh fw a b) T.val := by
  have hp : 1 ≤ 53 := by decide
  have hc : win.atUnchecked (centerLocation win) = .ok (fw (ww / 2) (wh / 2)) := by
    have := sw.at2u (x := ww / 2) (y := wh / 2) (by omega) (by omega)
    rw [centerLocation, sw.size]; exact this
  obtain ⟨⟨p, q⟩, e, hp', hq⟩ := forUp_inv (n := ww * wh) (body := fun (s : Flt 53 × Flt 53) idx => do
      let indices ← linearToIndices idx win.size
      let v ← win.atUnchecked indices
      let r := R ((v.toNat : Int) - (fw (ww / 2) (wh / 2)).toNat).natAbs
      let sp ← weight.atUnchecked indices
      (.ok (s.1 + ofByte v * r * sp, s.2 + r * sp) : Res (Flt 53 × Flt 53)))
    (fun k s => Near (low 53 ^ (k + 2)) ((range k).sum (fun i => ((fw (i % ww) (i / ww)).toNat : ℝ) *
        byteWeight R g ww wh fw (i % ww) (i / ww))) s.1.val ∧
      Near (low 53 ^ (k + 1)) ((range k).sum (fun i => byteWeight R g ww wh fw (i % ww) (i / ww))) s.2.val)
    (by
      rintro k ⟨p, q⟩ hk ⟨hp', hq⟩
      have hx : k % ww < ww := Nat.mod_lt _ hw0
      have hy : k / ww < wh := Nat.div_lt_of_lt_mul hk
      have h1 : win.atUnchecked [k % ww, k / ww] = .ok (fw (k % ww) (k / ww)) := sw.at2u hx hy
      have h2 : weight.atUnchecked [k % ww, k / ww] = .ok (g (k % ww) (k / ww)) := sg.at2u hx hy
      refine ⟨_, by
        rw [sw.size, linearToIndices2 hk sw.fits, Res.ok_bind, h1, Res.ok_bind]
        simp only [h2, Res.ok_bind]
        rfl, ?_, ?_⟩
      · rw [Finset.sum_range_succ]
        have := near_step3 hp (a := ofByte (fw (k % ww) (k / ww))) (by rw [ofByte_val]; positivity)
          (hR ((fw (k % ww) (k / ww)).toNat - (fw (ww / 2) (wh / 2)).toNat : Int).natAbs) (hg _ _ hx hy) hp'
        rw [ofByte_val] at this
        exact this
      · rw [Finset.sum_range_succ]
        exact near_step hp (hR _) (hg _ _ hx hy) hq)
    (0, 0) ⟨by
      simp only [range_zero, sum_empty]
      exact (Near.refl le_rfl).weaken (pow_le_one₀ (low_pos hp).le low_le_one), by
      simp only [range_zero, sum_empty]
      exact (Near.refl le_rfl).weaken (pow_le_one₀ (low_pos hp).le low_le_one)⟩
  refine ⟨p, q, ?_, ?_, ?_⟩
  · rw [bilateralDetailByte, hc, Res.ok_bind, sw.count]
    unfold forUp at e
    rw [e, Res.ok_bind]
  · rw [← Fit.sum_idx ww wh (fun a b => ((fw a b).toNat : ℝ) * byteWeight R g ww wh fw a b)]; exact hp'
  · rw [← Fit.sum_idx ww wh (fun a b => byteWeight R g ww wh fw a b)]; exact hq

/-- `low 53 ^ k` is close to one. -/
theorem low_pow_ge (k : Nat) : 1 - (k : ℝ) * ulp1 53 ≤ low 53 ^ k := by
  have hl : low 53 = 1 + -ulp1 53 := by unfold low; ring
  have := one_add_mul_le_pow (a := -ulp1 53) (by have := ulp1_le_half (p := 53) (by decide); linarith) k
  rw [hl]; linarith

/-- The window result, from the exact mean `m` of the window. -/
theorem bilateral_byte_of_mean {S T : Flt 53} {n : Nat} {A B : ℝ} (hB : 0 < B) (hn : 2 * n + 4 < 2 ^ 44)
    (h1 : Near (low 53 ^ (n + 2)) A S.val) (h2 : Near (low 53 ^ (n + 1)) B T.val) (hA : A ≤ 255 * B) :
    ∃ v : BitVec 8, toByteQuot S T = .ok v ∧ (v.toNat : ℝ) * low 53 ^ (2 * n + 4) ≤ A / B ∧
      A / B * low 53 ^ (2 * n + 4) < v.toNat + 1 := by
  have hp : 1 ≤ 53 := by decide
  have l0 := low_pos hp
  have hT : 0 < T.val := lt_of_lt_of_le (mul_pos (pow_pos l0 _) hB) h2.2.2.1
  have h3 := h1.div (pow_nonneg l0.le _) (pow_nonneg l0.le _) h2 hB hT
  have h4 : Near (low 53) (S.val / T.val) (divF S T).val := Near.fl hp h3.2.1
  have h5 := h3.trans (by positivity) l0.le h4
  have e : low 53 ^ (n + 2) * low 53 ^ (n + 1) * low 53 = low 53 ^ (2 * n + 4) := by
    rw [← pow_add, ← pow_succ]; congr 1; omega
  rw [e] at h5
  obtain ⟨h6, h7, h8, h9⟩ := h5
  have hlow := low_pow_ge (2 * n + 4)
  have hk : ((2 * n + 4 : Nat) : ℝ) * ulp1 53 ≤ 2 ^ 44 * ulp1 53 := by
    refine mul_le_mul_of_nonneg_right ?_ ulp1_pos.le
    exact_mod_cast hn.le
  have hu : (2 : ℝ) ^ 44 * ulp1 53 = 1 / 512 := by unfold ulp1; norm_num
  have hm : A / B ≤ 255 := by rw [div_le_iff₀ hB]; exact hA
  have hlt : (divF S T).val < 256 := by
    have : low 53 ^ (2 * n + 4) ≥ 511 / 512 := by linarith
    nlinarith
  refine ⟨BitVec.ofNat 8 ⌊(divF S T).val⌋₊, ?_, ?_⟩
  · rw [toByteQuot, if_neg hT.ne', if_pos ⟨by linarith, hlt⟩]
  · have hfl : ⌊(divF S T).val⌋₊ < 2 ^ 8 := by
      rw [Nat.floor_lt h7]; simpa using hlt
    rw [BitVec.toNat_ofNat, Nat.mod_eq_of_lt hfl]
    have f1 := Nat.floor_le h7
    have f2 := Nat.lt_floor_add_one (divF S T).val
    refine ⟨?_, ?_⟩
    · calc _ ≤ (divF S T).val * low 53 ^ (2 * n + 4) := mul_le_mul_of_nonneg_right f1 (pow_nonneg l0.le _)
        _ ≤ _ := by rw [mul_comm]; exact h9
    · calc _ = low 53 ^ (2 * n + 4) * (A / B) := mul_comm _ _
        _ ≤ (divF S T).val := h8
        _ < _ := f2

end TinyDIP.Filter
