import Verif.Lemmas.Filter
import Verif.Lemmas.Fit

/-! # Lemmas on bilateral filtering -/

namespace TinyDIP

open Image

variable {α : Type}

/-- Windowed filtering, in any order, keeps every pixel inside a set `Q` that contains the padded
picture and is closed under the window function. -/
theorem windowedFilter_inv (z : α) {im : Image α} {w h : Nat} {f : Nat → Nat → α}
    (s : im.Shows w h f) (hw0 : 0 < w) (hh0 : 0 < h)
    {ww wh : Nat} (hww : 0 < ww) (hwwh : 0 < wh) (hwin : ww * wh < 2 ^ 64)
    (hx : 2 * (w + 2 * ww) < 2 ^ 64) (hy : 2 * (h + 2 * wh) < 2 ^ 64) (bd : Boundary) (value : α)
    (P : Nat → Nat → α) (pad : Image α) (hpad : paddedImage z im ww wh bd value = .ok pad)
    (sp : pad.Shows (w + 2 * ww) (h + 2 * wh) P) (filter : Image α → Res α) (Q : α → Prop)
    (hP : ∀ X Y, X < w + 2 * ww → Y < h + 2 * wh → Q (P X Y))
    (hQ : ∀ win fw, win.Shows ww wh fw → (∀ a b, a < ww → b < wh → Q (fw a b)) →
      ∃ v, filter win = .ok v ∧ Q v)
    (order : List Nat) (ho : ∀ k ∈ order, k < w * h) :
    ∃ out g, windowedFilterOrd z order im [ww, wh] filter bd value = .ok out ∧ out.Shows w h g ∧
      ∀ x y, x < w → y < h → Q (g x y) := by
  obtain ⟨o, eo, ⟨P', so, hP'⟩, _⟩ := loop_inv (body := fun (padded_image : Image α) idx => do
      let indices ← linearToIndices idx im.size
      let padded_indices := List.zipWith wadd indices [ww, wh]
      let window ← subimage padded_image z [ww, wh] padded_indices z
      let v ← filter window
      padded_image.setAt padded_indices v)
    (fun rest (pd : Image α) => (∃ P', pd.Shows (w + 2 * ww) (h + 2 * wh) P' ∧
      ∀ X Y, X < w + 2 * ww → Y < h + 2 * wh → Q (P' X Y)) ∧ ∀ k ∈ rest, k < w * h)
    (by
      rintro m rest pd ⟨⟨P', sp', hP'⟩, hr⟩
      have hm := hr m (by simp)
      have hxm : m % w < w := Nat.mod_lt _ hw0
      have hym : m / w < h := by rw [Nat.div_lt_iff_lt_mul hw0, Nat.mul_comm]; exact hm
      have elin := linearToIndices2 hm s.fits
      generalize m % w = mx at *
      generalize m / w = my at *
      have e1 : wadd (mx) ww = mx + ww := wadd_of_lt (by omega)
      have e2 : wadd (my) wh = my + wh := wadd_of_lt (by omega)
      obtain ⟨win, ew, sw⟩ := subimage2d_shows z sp' (w := ww) (h := wh) (cx := mx + ww)
        (cy := my + wh) hww hwwh hwin (by omega) (by omega) (by omega) (by omega) z
      obtain ⟨v, ev, hv⟩ := hQ win _ sw (by
        intro a b ha hb
        rw [if_pos (by omega)]
        exact hP' _ _ (by omega) (by omega))
      obtain ⟨pd', es, sp''⟩ := sp'.set2 (show mx + ww < w + 2 * ww by omega)
        (show my + wh < h + 2 * wh by omega) v
      have e3 : subimage pd z [ww, wh] [mx + ww, my + wh] z = .ok win := ew
      have e4 : pd.setAt [mx + ww, my + wh] v = .ok pd' := es
      refine ⟨pd', ?_, ⟨_, sp'', ?_⟩, fun k hk => hr k (by simp [hk])⟩
      · simp only [s.size, elin, Res.ok_bind, List.zipWith_cons_cons,
          List.zipWith_nil_left, e1, e2, e3, ev, e4]
      · intro X Y hX hY
        unfold updPx
        split
        · exact hv
        · exact hP' X Y hX hY) order pad ⟨⟨P, sp, hP⟩, ho⟩
  obtain ⟨out, e, sout⟩ := subimage2d_shows z so (w := w) (h := h) (cx := (w + 2 * ww) / 2)
    (cy := (h + 2 * wh) / 2) hw0 hh0 s.fits (by omega) (by omega) (by omega) (by omega) z
  refine ⟨out, _, ?_, sout, ?_⟩
  · unfold windowedFilterOrd
    have hd : im.dim = 2 := s.dim
    simp only [hd, List.length_cons, List.length_nil, Nat.zero_add, Nat.reduceAdd, ne_eq, not_true_eq_false,
      if_false, if_true, List.getD_cons_zero, List.getD_cons_succ, hpad, Res.ok_bind]
    rw [eo]
    simp only [Res.ok_bind, so.size, s.size, List.map_cons, List.map_nil]
    exact e
  · intro x y hx' hy'
    rw [if_pos (by omega)]
    exact hP' _ _ (by omega) (by omega)

namespace Filter

open Finset

/-- The distance the code computes between window position `(a, b)` and the window's centre. -/
noncomputable def codeDistance (ww wh a b : Nat) : ℝ :=
  Real.sqrt (((wsub a (ww / 2) : Nat) : ℝ) ^ 2 + ((wsub b (wh / 2) : Nat) : ℝ) ^ 2)

theorem spatialKernelWeight_shows {ww wh : Nat} (hw : ww < 2 ^ 64) (hh : wh < 2 ^ 64)
    (hf : ww * wh < 2 ^ 64) (K : ℝ → ℝ) :
    ∃ out, spatialKernelWeight [ww, wh] K = .ok out ∧
      out.Shows ww wh (fun a b => K (codeDistance ww wh a b)) := by
  have s0 := ofSizes_shows (0 : ℝ) hw hh hf
  obtain ⟨out, e, so⟩ := forUp_inv (n := ww * wh) (body := fun (output : Image ℝ) idx => do
      let indices ← linearToIndices idx output.size
      let d ← spatialDistance indices [ww / 2, wh / 2]
      output.setAtUnchecked indices (K d))
    (fun k im => im.Shows ww wh (fun a b => if a + ww * b < k then K (codeDistance ww wh a b) else 0))
    (by
      intro k im hk si
      have hw0 : 0 < ww := Nat.pos_of_mul_pos_right (lt_of_le_of_lt (Nat.zero_le _) hk)
      have hx : k % ww < ww := Nat.mod_lt _ hw0
      have hy : k / ww < wh := Nat.div_lt_of_lt_mul hk
      obtain ⟨im', e', s'⟩ := si.set2u hx hy (K (codeDistance ww wh (k % ww) (k / ww)))
      have e'' : im.setAtUnchecked [k % ww, k / ww] (K (codeDistance ww wh (k % ww) (k / ww))) = .ok im' := e'
      refine ⟨im', ?_, s'.congr fun a b ha hb => ?_⟩
      · rw [si.size, linearToIndices2 hk hf, Res.ok_bind]
        simp only [spatialDistance, List.length_cons, List.length_nil, ne_eq, not_true_eq_false, if_false,
          Res.ok_bind, List.zipWith_cons_cons, List.zipWith_nil_left, List.foldl_cons, List.foldl_nil, zero_add]
        exact e''
      · unfold updPx
        have hdm := Nat.mod_add_div k ww
        by_cases hc : a = k % ww ∧ b = k / ww
        · rw [if_pos hc, hc.1, hc.2, hdm, if_pos (by omega)]
        · rw [if_neg hc]
          have hne : a + ww * b ≠ k := by
            intro hk'
            apply hc
            rw [← hk', Nat.add_mul_mod_self_left, Nat.mod_eq_of_lt ha, Nat.add_mul_div_left _ _ hw0,
              Nat.div_eq_of_lt ha, Nat.zero_add]
            exact ⟨rfl, rfl⟩
          dsimp only
          by_cases hl : a + ww * b < k
          · rw [if_pos hl, if_pos (by omega)]
          · rw [if_neg hl, if_neg (by omega)])
    (ofSizes 0 [ww, wh]) (s0.congr (by simp))
  refine ⟨out, ?_, so.congr fun a b ha hb => ?_⟩
  · rw [spatialKernelWeight, ofSizeRange, if_neg (by simp), Res.ok_bind]
    rw [s0.count]
    exact e
  · rw [if_pos]
    have := so.idx_lt ha hb
    rwa [so.len] at this

/-- Numerator and denominator of the bilateral mean of a window. -/
noncomputable def weightOf (R : ℝ → ℝ) (g : Nat → Nat → ℝ) (c : ℝ) (fw : Nat → Nat → ℝ) (a b : Nat) : ℝ :=
  R |fw a b - c| * g a b

theorem bilateralDetail_eq {win weight : Image ℝ} {ww wh : Nat} {fw g : Nat → Nat → ℝ} (R : ℝ → ℝ)
    (sw : win.Shows ww wh fw) (sg : weight.Shows ww wh g) (hw0 : 0 < ww) (hh0 : 0 < wh) :
    bilateralDetail R weight win = .ok
      (((range wh).sum fun b => (range ww).sum fun a =>
          fw a b * weightOf R g (fw (ww / 2) (wh / 2)) fw a b) /
        ((range wh).sum fun b => (range ww).sum fun a => weightOf R g (fw (ww / 2) (wh / 2)) fw a b)) := by
  have hc : win.atUnchecked (centerLocation win) = .ok (fw (ww / 2) (wh / 2)) := by
    have := sw.at2u (x := ww / 2) (y := wh / 2) (by omega) (by omega)
    rw [centerLocation, sw.size]; exact this
  obtain ⟨⟨p, q⟩, e, hp, hq⟩ := forUp_inv (n := ww * wh) (body := fun (s : ℝ × ℝ) idx => do
      let indices ← linearToIndices idx win.size
      let v ← win.atUnchecked indices
      let r := R (Real.sqrt ((v - fw (ww / 2) (wh / 2)) ^ 2))
      let sp ← weight.atUnchecked indices
      (.ok (s.1 + v * r * sp, s.2 + r * sp) : Res (ℝ × ℝ)))
    (fun k s => s.1 = (range k).sum (fun i => fw (i % ww) (i / ww) *
        weightOf R g (fw (ww / 2) (wh / 2)) fw (i % ww) (i / ww)) ∧
      s.2 = (range k).sum (fun i => weightOf R g (fw (ww / 2) (wh / 2)) fw (i % ww) (i / ww)))
    (by
      rintro k ⟨p, q⟩ hk ⟨hp, hq⟩
      have hx : k % ww < ww := Nat.mod_lt _ hw0
      have hy : k / ww < wh := Nat.div_lt_of_lt_mul hk
      have h1 : win.atUnchecked [k % ww, k / ww] = .ok (fw (k % ww) (k / ww)) := sw.at2u hx hy
      have h2 : weight.atUnchecked [k % ww, k / ww] = .ok (g (k % ww) (k / ww)) := sg.at2u hx hy
      simp only at hp hq
      refine ⟨(p + fw (k % ww) (k / ww) * R (Real.sqrt ((fw (k % ww) (k / ww) - fw (ww / 2) (wh / 2)) ^ 2)) *
          g (k % ww) (k / ww), q + R (Real.sqrt ((fw (k % ww) (k / ww) - fw (ww / 2) (wh / 2)) ^ 2)) *
          g (k % ww) (k / ww)), ?_, ?_⟩
      · rw [sw.size, linearToIndices2 hk sw.fits, Res.ok_bind, h1, Res.ok_bind]
        simp only [h2, Res.ok_bind]
      · simp only [Finset.sum_range_succ, Real.sqrt_sq_eq_abs]
        rw [← hp, ← hq]
        unfold weightOf
        exact ⟨by ring, rfl⟩)
    (0, 0) ⟨by simp, by simp⟩
  simp only at hp hq
  rw [bilateralDetail, hc, Res.ok_bind, sw.count]
  unfold forUp at e
  rw [e, Res.ok_bind]
  simp only
  rw [hp, hq, Fit.sum_idx ww wh (fun a b => fw a b * weightOf R g (fw (ww / 2) (wh / 2)) fw a b),
    Fit.sum_idx ww wh (fun a b => weightOf R g (fw (ww / 2) (wh / 2)) fw a b)]

end Filter

end TinyDIP
