import Verif.Lemmas.Conv
import Verif.Lemmas.ImageIter

/-! # Windowed filters -/

namespace TinyDIP

open Image

variable {α : Type}

theorem linearToIndices2 {w h i : Nat} (hi : i < w * h) (hf : w * h < 2 ^ 64) :
    linearToIndices i [w, h] = .ok [i % w, i / w] := by
  obtain ⟨idx, e, hb, hr⟩ := linearToIndicesGo_spec i [w, h] 1 (by decide) (by simpa using hi)
    (by rw [W_eq]; simpa using hf)
  rw [linearToIndices, e]
  have hl := hb.length_eq
  match idx, hl with
  | [x, y], _ =>
    rw [inBounds2] at hb
    rw [rowMajor2, Nat.div_one] at hr
    have h1 : i % w = x := by rw [← hr, Nat.add_mul_mod_self_left, Nat.mod_eq_of_lt hb.1]
    have h2 : i / w = y := by
      rw [← hr, Nat.add_mul_div_left _ _ (by omega), Nat.div_eq_of_lt hb.1, Nat.zero_add]
    rw [h1, h2]

/-- The pixel function after the pixels `done` (linear indices) have been filtered. -/
def windowState (w ww wh : Nat) (P G : Nat → Nat → α) (done : List Nat) (X Y : Nat) : α :=
  if X ≥ ww ∧ Y ≥ wh ∧ X - ww < w ∧ (X - ww) + w * (Y - wh) ∈ done then G (X - ww) (Y - wh) else P X Y

theorem windowed_loop (z : α) {im : Image α} {w h : Nat} (hsz : im.size = [w, h])
    (hwh : w * h < 2 ^ 64) (hw0 : 0 < w)
    {ww wh : Nat} (hww : 0 < ww) (hwwh : 0 < wh) (hwin : ww * wh < 2 ^ 64)
    (hx : w + 2 * ww + ww < 2 ^ 64) (hy : h + 2 * wh + wh < 2 ^ 64)
    (P G : Nat → Nat → α) (filter : Image α → Res α) (D : Nat → Nat → Prop)
    (hdep : ∀ u v fu fv, u.Shows ww wh fu → v.Shows ww wh fv →
      (∀ a b, a < ww → b < wh → D a b → fu a b = fv a b) → filter u = filter v)
    (hok : ∀ x y, x < w → y < h → ∀ win, win.Shows ww wh (fun a b =>
      P (x + ww + a - ww / 2) (y + wh + b - wh / 2)) → filter win = .ok (G x y))
    (rest done : List Nat) (hd : ∀ k ∈ done, k < w * h) (hr : ∀ k ∈ rest, k < w * h)
    (hp : (done ++ rest).Pairwise fun k m => ∀ a b, a < ww → b < wh → k % w + ww / 2 = m % w + a →
      k / w + wh / 2 = m / w + b → ¬ D a b)
    (pad : Image α) (sp : pad.Shows (w + 2 * ww) (h + 2 * wh) (windowState w ww wh P G done)) :
    ∃ out, loop (fun (padded_image : Image α) idx => do
      let indices ← linearToIndices idx im.size
      let padded_indices :=
        if 2 = 2 then List.zipWith wadd indices [ww, wh] else indices
      let window ← subimage padded_image z [ww, wh] padded_indices z
      let v ← filter window
      padded_image.setAt padded_indices v) rest pad = .ok out ∧
      out.Shows (w + 2 * ww) (h + 2 * wh) (windowState w ww wh P G (done ++ rest)) := by
  induction rest generalizing done pad with
  | nil => exact ⟨pad, rfl, by simpa using sp⟩
  | cons m rest ih =>
    have hm := hr m (by simp)
    have hxm : m % w < w := Nat.mod_lt _ hw0
    have hym : m / w < h := by rw [Nat.div_lt_iff_lt_mul hw0, Nat.mul_comm]; exact hm
    have hmxy : m % w + w * (m / w) = m := Nat.mod_add_div m w
    obtain ⟨x, hxd⟩ : ∃ x, x = m % w := ⟨_, rfl⟩
    obtain ⟨y, hyd⟩ : ∃ y, y = m / w := ⟨_, rfl⟩
    rw [← hxd, ← hyd] at hmxy
    rw [← hxd] at hxm
    rw [← hyd] at hym
    have e1 : wadd x ww = x + ww := wadd_of_lt (by omega)
    have e2 : wadd y wh = y + wh := wadd_of_lt (by omega)
    obtain ⟨win, ew, sw⟩ := subimage2d_shows z sp (w := ww) (h := wh) (cx := x + ww) (cy := y + wh)
      hww hwwh hwin (by omega) (by omega) (by omega) (by omega) z
    -- the window in the unfiltered padded image
    have sp0 : ∃ pad0 : Image α, pad0.Shows (w + 2 * ww) (h + 2 * wh) P := by
      refine ⟨⟨[w + 2 * ww, h + 2 * wh], (List.range ((w + 2 * ww) * (h + 2 * wh))).map fun i =>
        P (i % (w + 2 * ww)) (i / (w + 2 * ww))⟩, ?_⟩
      refine Image.Shows.of_data (by omega) (by omega) sp.fits rfl (by simp) ?_
      intro a b ha hb
      have hi : a + (w + 2 * ww) * b < (w + 2 * ww) * (h + 2 * wh) := sp.len ▸ sp.idx_lt ha hb
      simp only [List.getElem?_map, List.getElem?_range hi, Option.map_some]
      rw [Nat.add_mul_mod_self_left, Nat.mod_eq_of_lt ha, Nat.add_mul_div_left _ _ (by omega),
        Nat.div_eq_of_lt ha, Nat.zero_add]
    obtain ⟨pad0, sp0⟩ := sp0
    obtain ⟨win0, _, sw0⟩ := subimage2d_shows z sp0 (w := ww) (h := wh) (cx := x + ww) (cy := y + wh)
      hww hwwh hwin (by omega) (by omega) (by omega) (by omega) z
    have in_ : ∀ a b, a < ww → b < wh → (ww / 2 ≤ x + ww + a ∧ x + ww + a - ww / 2 < w + 2 * ww) ∧
        wh / 2 ≤ y + wh + b ∧ y + wh + b - wh / 2 < h + 2 * wh := by
      intro a b ha hb; refine ⟨⟨?_, ?_⟩, ?_, ?_⟩ <;> omega
    have sw0' := sw0.congr (g := fun a b => P (x + ww + a - ww / 2) (y + wh + b - wh / 2))
      (fun a b ha hb => by rw [if_pos (in_ a b ha hb)])
    have hfw : filter win = .ok (G x y) := by
      rw [← hok x y hxm hym win0 sw0']
      refine hdep _ _ _ _ sw sw0' ?_
      intro a b ha hb hD
      rw [if_pos (in_ a b ha hb)]
      unfold windowState
      rw [if_neg]
      rintro ⟨g1, g2, g3, g4⟩
      set k := (x + ww + a - ww / 2 - ww) + w * (y + wh + b - wh / 2 - wh) with hk
      have hkm : k % w = x + ww + a - ww / 2 - ww := by
        rw [hk, Nat.add_mul_mod_self_left, Nat.mod_eq_of_lt g3]
      have hkd : k / w = y + wh + b - wh / 2 - wh := by
        rw [hk, Nat.add_mul_div_left _ _ hw0, Nat.div_eq_of_lt g3, Nat.zero_add]
      have := (List.pairwise_append.mp hp).2.2 k g4 m (by simp) a b ha hb (by rw [hkm]; omega)
        (by rw [hkd]; omega)
      exact this hD
    obtain ⟨pad', es, sp'⟩ := sp.set2 (show x + ww < w + 2 * ww by omega)
      (show y + wh < h + 2 * wh by omega) (G x y)
    have sp'' : pad'.Shows (w + 2 * ww) (h + 2 * wh) (windowState w ww wh P G (done ++ [m])) := by
      refine sp'.congr ?_
      intro X Y hX hY
      unfold updPx windowState
      by_cases hc : X = x + ww ∧ Y = y + wh
      · rw [if_pos hc, if_pos]
        · rw [hc.1, hc.2]; simp
        · rw [hc.1, hc.2]
          refine ⟨by omega, by omega, by omega, ?_⟩
          simp [hmxy]
      · rw [if_neg hc]
        by_cases hin : X ≥ ww ∧ Y ≥ wh ∧ X - ww < w ∧ (X - ww) + w * (Y - wh) ∈ done
        · rw [if_pos hin, if_pos ⟨hin.1, hin.2.1, hin.2.2.1, by simp [hin.2.2.2]⟩]
        · rw [if_neg hin, if_neg]
          rintro ⟨g1, g2, g3, g4⟩
          rw [List.mem_append, List.mem_singleton] at g4
          rcases g4 with g4 | g4
          · exact hin ⟨g1, g2, g3, g4⟩
          · apply hc
            have hxx : x = X - ww := by
              rw [hxd, ← g4, Nat.add_mul_mod_self_left, Nat.mod_eq_of_lt g3]
            have hyy : y = Y - wh := by
              rw [hyd, ← g4, Nat.add_mul_div_left _ _ hw0, Nat.div_eq_of_lt g3, Nat.zero_add]
            omega
    obtain ⟨out, eo, so⟩ := ih (done ++ [m]) (by
        intro k hk; rw [List.mem_append, List.mem_singleton] at hk
        rcases hk with hk | hk
        · exact hd k hk
        · rw [hk]; exact hm) (fun k hk => hr k (by simp [hk])) (by simpa using hp) pad' sp''
    refine ⟨out, ?_, by simpa using so⟩
    rw [loop, hsz, linearToIndices2 hm hwh]
    rw [hsz] at eo
    have e3 : subimage pad z [ww, wh] [x + ww, y + wh] z = .ok win := ew
    have e4 : pad.setAt [x + ww, y + wh] (G x y) = .ok pad' := es
    simp only [Res.ok_bind, if_true, List.zipWith_cons_cons, List.zipWith_nil_left, ← hxd, ← hyd, e1, e2, e3, hfw, e4]
    exact eo

theorem windowedFilter_shows (z : α) {im : Image α} {w h : Nat} {f : Nat → Nat → α}
    (s : im.Shows w h f) (hw0 : 0 < w) (hh0 : 0 < h)
    {ww wh : Nat} (hww : 0 < ww) (hwwh : 0 < wh) (hwin : ww * wh < 2 ^ 64)
    (hx : 2 * (w + 2 * ww) < 2 ^ 64) (hy : 2 * (h + 2 * wh) < 2 ^ 64) (bd : Boundary) (value : α)
    (P G : Nat → Nat → α) (pad : Image α) (hpad : paddedImage z im ww wh bd value = .ok pad)
    (sp : pad.Shows (w + 2 * ww) (h + 2 * wh) P)
    (filter : Image α → Res α) (D : Nat → Nat → Prop)
    (hdep : ∀ u v fu fv, u.Shows ww wh fu → v.Shows ww wh fv →
      (∀ a b, a < ww → b < wh → D a b → fu a b = fv a b) → filter u = filter v)
    (hok : ∀ x y, x < w → y < h → ∀ win, win.Shows ww wh (fun a b =>
      P (x + ww + a - ww / 2) (y + wh + b - wh / 2)) → filter win = .ok (G x y))
    (order : List Nat) (ho : order.Perm (List.range (w * h)))
    (hp : order.Pairwise fun k m => ∀ a b, a < ww → b < wh → k % w + ww / 2 = m % w + a →
      k / w + wh / 2 = m / w + b → ¬ D a b) :
    ∃ out, windowedFilterOrd z order im [ww, wh] filter bd value = .ok out ∧ out.Shows w h G := by
  have sp0 : pad.Shows (w + 2 * ww) (h + 2 * wh) (windowState w ww wh P G []) :=
    sp.congr fun X Y _ _ => by simp [windowState]
  obtain ⟨o, eo, so⟩ := windowed_loop z s.size s.fits hw0 hww hwwh hwin (by omega) (by omega) P G filter
    D hdep hok order [] (by simp) (fun k hk => List.mem_range.mp (ho.mem_iff.mp hk)) (by simpa using hp)
    pad sp0
  obtain ⟨out, e, sout⟩ := subimage2d_shows z so (w := w) (h := h) (cx := (w + 2 * ww) / 2)
    (cy := (h + 2 * wh) / 2) hw0 hh0 s.fits (by omega) (by omega) (by omega) (by omega) z
  refine ⟨out, ?_, ?_⟩
  · unfold windowedFilterOrd
    have hd : im.dim = 2 := s.dim
    simp only [hd, List.length_cons, List.length_nil, Nat.zero_add, Nat.reduceAdd, ne_eq, not_true_eq_false,
      if_false, if_true, List.getD_cons_zero, List.getD_cons_succ, hpad, Res.ok_bind]
    simp only [if_true] at eo
    rw [eo]
    simp only [Res.ok_bind, so.size, s.size, List.map_cons, List.map_nil]
    exact e
  · refine sout.congr ?_
    intro i j hi hj
    have c1 : (w + 2 * ww) / 2 + i - w / 2 = ww + i := by omega
    have c2 : (h + 2 * wh) / 2 + j - h / 2 = wh + j := by omega
    rw [if_pos (by omega), c1, c2]
    unfold windowState
    have hmem : (ww + i - ww) + w * (wh + j - wh) ∈ ([] ++ order) := by
      rw [List.nil_append]
      refine ho.mem_iff.mpr (List.mem_range.mpr ?_)
      have := s.idx_lt hi hj
      rw [s.len] at this
      simpa using this
    rw [if_pos ⟨by omega, by omega, by omega, hmem⟩]
    simp

end TinyDIP
