import Verif.Lemmas.Samples
import Verif.Lemmas.ConvN
import Verif.Lemmas.Window
import Verif.Props.Core

/-!
# Properties C22–C24: windowed filters and convolution

`convAt` and `convNAt` (Spec/Conv.lean) are the mathematical convolutions in two and in `N`
dimensions. Elements are taken from an arbitrary commutative ring.
-/

namespace TinyDIP.Props

open TinyDIP Image

variable {α : Type}

/-! ## C23 two-dimensional convolution -/

/-- The full result is the mathematical convolution, whatever the order in which the output pixels
are computed. -/
theorem C23_conv2_full [CommRing α] (x y : Image α) (w1 h1 w2 h2 : Nat) (fx fy : Nat → Nat → α)
    (sx : x.Shows w1 h1 fx) (sy : y.Shows w2 h2 fy)
    (hw1 : 0 < w1) (hh1 : 0 < h1) (hw2 : 0 < w2) (hh2 : 0 < h2)
    (hf : (w1 + w2) * (h1 + h2) < 2 ^ 64) (order : List Nat)
    (ho : order.Perm (List.range ((w1 + w2 - 1) * (h1 + h2 - 1)))) :
    ∃ out, conv2Ord order x y false = .ok out ∧
      out.Shows (w1 + w2 - 1) (h1 + h2 - 1) (convAt w1 h1 fx w2 h2 fy) := by
  obtain ⟨out, e, s, _⟩ := conv2Ord_full sx sy hw1 hh1 hw2 hh2 hf order ho
  exact ⟨out, e, s⟩

example := C23_conv2_full _ _ 3 2 2 2 _ _ (picture_shows 3 2 fun x y => (x : Int) - y)
  (picture_shows 2 2 fun x y => (x : Int) + 2 * y) (by decide) (by decide) (by decide) (by decide) (by decide) _
  (List.reverse_perm _)

theorem conv2_order {x y : Image α} {w1 h1 w2 h2 : Nat} {fx fy : Nat → Nat → α}
    (sx : x.Shows w1 h1 fx) (sy : y.Shows w2 h2 fy)
    (hw1 : 0 < w1) (hh1 : 0 < h1)
    (hf : (w1 + w2) * (h1 + h2) < 2 ^ 64) (hh2 : 0 < h2) (hw2 : 0 < w2) :
    List.range (wmul (wsub (wadd x.width y.width) 1) (wsub (wadd x.height y.height) 1)) =
      List.range ((w1 + w2 - 1) * (h1 + h2 - 1)) := by
  have hbw : w1 + w2 < 2 ^ 64 :=
    lt_of_le_of_lt (Nat.le_mul_of_pos_right (w1 + w2) (by omega)) hf
  have hbh : h1 + h2 < 2 ^ 64 :=
    lt_of_le_of_lt (Nat.le_mul_of_pos_left (h1 + h2) (by omega)) hf
  have e1 : wsub (wadd w1 w2) 1 = w1 + w2 - 1 := by
    rw [wadd_of_lt hbw, wsub_of_le (by omega) hbw]
  have e2 : wsub (wadd h1 h2) 1 = h1 + h2 - 1 := by
    rw [wadd_of_lt hbh, wsub_of_le (by omega) hbh]
  rw [sx.width, sx.height, sy.width, sy.height, e1, e2,
    wmul_of_lt (lt_of_le_of_lt (Nat.mul_le_mul (by omega) (by omega)) hf)]

/-- The sequential call. -/
theorem C23_conv2_sequential [CommRing α] (x y : Image α) (w1 h1 w2 h2 : Nat) (fx fy : Nat → Nat → α)
    (sx : x.Shows w1 h1 fx) (sy : y.Shows w2 h2 fy)
    (hw1 : 0 < w1) (hh1 : 0 < h1) (hw2 : 0 < w2) (hh2 : 0 < h2)
    (hf : (w1 + w2) * (h1 + h2) < 2 ^ 64) :
    ∃ out, conv2 x y false = .ok out ∧
      out.Shows (w1 + w2 - 1) (h1 + h2 - 1) (convAt w1 h1 fx w2 h2 fy) := by
  rw [conv2, conv2_order sx sy hw1 hh1 hf hh2 hw2]
  exact C23_conv2_full x y w1 h1 w2 h2 fx fy sx sy hw1 hh1 hw2 hh2 hf _ (.refl _)

example := C23_conv2_sequential _ _ 3 2 2 2 _ _ (picture_shows 3 2 fun x y => (x : Int) - y)
  (picture_shows 2 2 fun x y => (x : Int) + 2 * y) (by decide) (by decide) (by decide) (by decide) (by decide)

theorem zeroExt_sum [CommRing α] (w h : Nat) (f : Nat → Nat → α) (a b : Int) :
    zeroExt w h f a b = (Finset.range h).sum fun l => (Finset.range w).sum fun k =>
      if (k : Int) = a ∧ (l : Int) = b then f k l else 0 := by
  unfold zeroExt
  by_cases hc : 0 ≤ a ∧ a < w ∧ 0 ≤ b ∧ b < h
  · rw [if_pos hc, Finset.sum_eq_single b.toNat, Finset.sum_eq_single a.toNat]
    · rw [if_pos (by omega)]
    · intro k _ hk; rw [if_neg (by omega)]
    · intro hk; exact absurd (Finset.mem_range.mpr (by omega)) hk
    · intro l _ hl
      apply Finset.sum_eq_zero
      intro k _; rw [if_neg (by omega)]
    · intro hl; exact absurd (Finset.mem_range.mpr (by omega)) hl
  · rw [if_neg hc]
    symm
    apply Finset.sum_eq_zero
    intro l hl
    apply Finset.sum_eq_zero
    intro k hk
    have := Finset.mem_range.mp hl
    have := Finset.mem_range.mp hk
    rw [if_neg (by omega)]

theorem convAt_comm [CommRing α] (w1 h1 : Nat) (fx : Nat → Nat → α) (w2 h2 : Nat)
    (fy : Nat → Nat → α) (i j : Nat) :
    convAt w1 h1 fx w2 h2 fy i j = convAt w2 h2 fy w1 h1 fx i j := by
  have e : ∀ (w1 h1 : Nat) (fx : Nat → Nat → α) (w2 h2 : Nat) (fy : Nat → Nat → α),
      convAt w1 h1 fx w2 h2 fy i j = (Finset.range h1).sum fun l => (Finset.range h2).sum fun l' =>
        (Finset.range w1).sum fun k => (Finset.range w2).sum fun k' =>
          if k + k' = i ∧ l + l' = j then fx k l * fy k' l' else 0 := by
    intro w1 h1 fx w2 h2 fy
    unfold convAt
    apply Finset.sum_congr rfl
    intro l _
    rw [Finset.sum_comm]
    apply Finset.sum_congr rfl
    intro k _
    rw [zeroExt_sum, Finset.mul_sum]
    apply Finset.sum_congr rfl
    intro l' _
    rw [Finset.mul_sum]
    apply Finset.sum_congr rfl
    intro k' _
    by_cases hc : k + k' = i ∧ l + l' = j
    · rw [if_pos hc, if_pos (by omega)]
    · rw [if_neg hc, if_neg (by omega), mul_zero]
  rw [e, e, Finset.sum_comm]
  apply Finset.sum_congr rfl
  intro l _
  apply Finset.sum_congr rfl
  intro l' _
  rw [Finset.sum_comm]
  apply Finset.sum_congr rfl
  intro k _
  apply Finset.sum_congr rfl
  intro k' _
  by_cases hc : k + k' = i ∧ l + l' = j
  · rw [if_pos (by omega), if_pos (by omega), mul_comm]
  · rw [if_neg (by omega), if_neg (by omega)]

/-- Swapping image and kernel gives the same full result. -/
theorem C23_conv2_commutative [CommRing α] (x y : Image α) (w1 h1 w2 h2 : Nat)
    (fx fy : Nat → Nat → α) (sx : x.Shows w1 h1 fx) (sy : y.Shows w2 h2 fy)
    (hw1 : 0 < w1) (hh1 : 0 < h1) (hw2 : 0 < w2) (hh2 : 0 < h2)
    (hf : (w1 + w2) * (h1 + h2) < 2 ^ 64) : conv2 x y false = conv2 y x false := by
  obtain ⟨o1, e1, s1⟩ := C23_conv2_sequential x y _ _ _ _ _ _ sx sy hw1 hh1 hw2 hh2 hf
  obtain ⟨o2, e2, s2⟩ := C23_conv2_sequential y x _ _ _ _ _ _ sy sx hw2 hh2 hw1 hh1
    (by rw [Nat.add_comm w2, Nat.add_comm h2]; exact hf)
  rw [e1, e2]
  rw [Nat.add_comm w2, Nat.add_comm h2] at s2
  congr 1
  exact s1.ext s2 fun a b _ _ => convAt_comm _ _ _ _ _ _ _ _

example := C23_conv2_commutative _ _ 3 2 2 2 _ _ (picture_shows 3 2 fun x y => (x : Int) - y)
  (picture_shows 2 2 fun x y => (x : Int) + 2 * y) (by decide) (by decide) (by decide) (by decide) (by decide)

/-- The full result is linear in the image: the convolution of `c • x + x'` is
`c • conv2 x + conv2 x'` pixel by pixel. (With `C23_conv2_commutative`, also in the kernel.) -/
theorem C23_conv2_linear [CommRing α] (x x' x'' y : Image α) (w1 h1 w2 h2 : Nat) (c : α)
    (fx fx' fy : Nat → Nat → α) (sx : x.Shows w1 h1 fx) (sx' : x'.Shows w1 h1 fx')
    (sx'' : x''.Shows w1 h1 (fun i j => c * fx i j + fx' i j)) (sy : y.Shows w2 h2 fy)
    (hw1 : 0 < w1) (hh1 : 0 < h1) (hw2 : 0 < w2) (hh2 : 0 < h2)
    (hf : (w1 + w2) * (h1 + h2) < 2 ^ 64) :
    ∃ o o' o'' g g', conv2 x y false = .ok o ∧ conv2 x' y false = .ok o' ∧
      conv2 x'' y false = .ok o'' ∧ o.Shows (w1 + w2 - 1) (h1 + h2 - 1) g ∧
      o'.Shows (w1 + w2 - 1) (h1 + h2 - 1) g' ∧
      o''.Shows (w1 + w2 - 1) (h1 + h2 - 1) (fun i j => c * g i j + g' i j) := by
  obtain ⟨o, e, s⟩ := C23_conv2_sequential x y _ _ _ _ _ _ sx sy hw1 hh1 hw2 hh2 hf
  obtain ⟨o', e', s'⟩ := C23_conv2_sequential x' y _ _ _ _ _ _ sx' sy hw1 hh1 hw2 hh2 hf
  obtain ⟨o'', e'', s''⟩ := C23_conv2_sequential x'' y _ _ _ _ _ _ sx'' sy hw1 hh1 hw2 hh2 hf
  refine ⟨o, o', o'', _, _, e, e', e'', s, s', s''.congr ?_⟩
  intro i j _ _
  simp only [convAt, Finset.mul_sum, ← Finset.sum_add_distrib]
  apply Finset.sum_congr rfl; intro l _
  apply Finset.sum_congr rfl; intro k _
  ring

example := C23_conv2_linear _ _ _ _ 3 2 2 2 5 _ _ _ (picture_shows 3 2 fun x _ => (x : Int))
  (picture_shows 3 2 fun _ y => (y : Int)) (picture_shows 3 2 fun x y => 5 * (x : Int) + y)
  (picture_shows 2 2 fun x y => (x : Int) + 2 * y) (by decide) (by decide) (by decide) (by decide) (by decide)

/-- With `is_size_same` the result has the size of the image and is the block of the full result
that starts at `(s, t)`, where the margins cut off on the two sides differ by at most one. -/
theorem C23_conv2_same [CommRing α] (x y : Image α) (w1 h1 w2 h2 : Nat) (fx fy : Nat → Nat → α)
    (sx : x.Shows w1 h1 fx) (sy : y.Shows w2 h2 fy)
    (hw1 : 0 < w1) (hh1 : 0 < h1) (hw2 : 0 < w2) (hh2 : 0 < h2)
    (hf : 2 * ((w1 + w2) * (h1 + h2)) < 2 ^ 64) (order : List Nat)
    (ho : order.Perm (List.range ((w1 + w2 - 1) * (h1 + h2 - 1)))) :
    ∃ out s t, conv2Ord order x y true = .ok out ∧
      out.Shows w1 h1 (fun i j => convAt w1 h1 fx w2 h2 fy (i + s) (j + t)) ∧
      s + w1 ≤ w1 + w2 - 1 ∧ t + h1 ≤ h1 + h2 - 1 ∧
      |(s : Int) - ((w1 + w2 - 1 : Nat) - (s + w1 : Nat))| ≤ 1 ∧
      |(t : Int) - ((h1 + h2 - 1 : Nat) - (t + h1 : Nat))| ≤ 1 := by
  obtain ⟨o, _, so, e⟩ := conv2Ord_full sx sy hw1 hh1 hw2 hh2 (by omega) order ho
  have hbw : 2 * (w1 + w2) < 2 ^ 64 :=
    lt_of_le_of_lt (Nat.mul_le_mul_left 2 (Nat.le_mul_of_pos_right (w1 + w2) (by omega))) hf
  have hbh : 2 * (h1 + h2) < 2 ^ 64 :=
    lt_of_le_of_lt (Nat.mul_le_mul_left 2 (Nat.le_mul_of_pos_left (h1 + h2) (by omega))) hf
  obtain ⟨out, e2, s2⟩ := subimage2d_shows (0 : α) so (w := w1) (h := h1)
    (cx := (w1 + w2 - 1) / 2) (cy := (h1 + h2 - 1) / 2) hw1 hh1 sx.fits (by omega) (by omega)
    (by omega) (by omega) 0
  refine ⟨out, (w1 + w2 - 1) / 2 - w1 / 2, (h1 + h2 - 1) / 2 - h1 / 2, by rw [e, e2], ?_, by omega,
    by omega, ?_, ?_⟩
  · refine s2.congr ?_
    intro i j hi hj
    rw [if_pos (by omega)]
    congr 1 <;> omega
  · rw [abs_le]; omega
  · rw [abs_le]; omega

/-- A concrete pair: `[1 2 3] * [1 1] = [1 3 5 3]`. -/
example : conv2 (⟨[3, 1], [1, 2, 3]⟩ : Image Int) ⟨[2, 1], [1, 1]⟩ false =
    .ok ⟨[4, 1], [1, 3, 5, 3]⟩ := by decide +kernel

/-! ## C24 N-dimensional convolution

Full statement: with `is_size_same` the result is the centre of the full convolution. The code crops
the input image instead of the output, so it returns the input image for every kernel. -/

/-- Without `is_size_same`: the result has the sizes `l + r - 1` and is the `N`-dimensional
convolution. Missing: the `is_size_same` case, which is wrong in the code. -/
theorem C24_convolution_full_partial [CommRing α] (image kernel : Image α) (I K : List Nat)
    (fi fk : List Nat → α) (si : image.ShowsN I fi) (sk : kernel.ShowsN K fk)
    (hlen : K.length = I.length) (hne : I ≠ []) (hdim : I.length < 2 ^ 64)
    (hI : ∀ s ∈ I, 0 < s) (hK : ∀ s ∈ K, 0 < s)
    (hsum : ∀ s ∈ List.zipWith (· + ·) I K, s < 2 ^ 64)
    (hf : (List.zipWith (fun l r => l + r - 1) I K).prod < 2 ^ 64) :
    ∃ out, convolution image kernel false = .ok out ∧
      out.ShowsN (List.zipWith (fun l r => l + r - 1) I K) (convNAt I fi K fk) := by
  obtain ⟨out, e, s, _⟩ := convolution_full si sk hlen hne hdim hI hK hsum hf
  exact ⟨out, e, s⟩

example : ∃ out, convolution (⟨[2, 1, 2], [1, 2, 3, 4]⟩ : Image Int) ⟨[1, 2, 2], [1, -1, 2, 5]⟩ false = .ok out ∧
    out.ShowsN [2, 2, 3] (convNAt [2, 1, 2] (fun idx => ([1, 2, 3, 4] : List Int).getD (rowMajor [2, 1, 2] idx) 0)
      [1, 2, 2] (fun idx => ([1, -1, 2, 5] : List Int).getD (rowMajor [1, 2, 2] idx) 0)) :=
  C24_convolution_full_partial _ _ _ _ _ _
    ⟨⟨by decide, by decide, by decide⟩, rfl, fun idx h => by
      rw [← mem_allIdx] at h
      revert h idx
      decide +kernel⟩
    ⟨⟨by decide, by decide, by decide⟩, rfl, fun idx h => by
      rw [← mem_allIdx] at h
      revert h idx
      decide +kernel⟩ (by decide) (by decide) (by decide) (by decide) (by decide) (by decide) (by decide)

theorem shiftCoords_center (I idx : List Nat) (hl : InBounds I idx) :
    shiftCoords I (I.map (· / 2)) idx = idx.map Int.ofNat := by
  unfold InBounds at hl
  induction hl with
  | nil => rfl
  | cons _ _ ih =>
    simp only [List.map_cons, shiftCoords, ih]
    congr 1
    simp

/-- With `is_size_same` the kernel has no influence: the input image itself is returned. -/
theorem C24_same_size_ignores_kernel_violation [CommRing α] (image kernel : Image α) (I K : List Nat)
    (fi fk : List Nat → α) (si : image.ShowsN I fi) (sk : kernel.ShowsN K fk)
    (hlen : K.length = I.length) (hne : I ≠ []) (hdim : I.length < 2 ^ 64)
    (hI : ∀ s ∈ I, 0 < s) (hK : ∀ s ∈ K, 0 < s) (hb : ∀ s ∈ I, 2 * s < 2 ^ 64)
    (hsum : ∀ s ∈ List.zipWith (· + ·) I K, s < 2 ^ 64)
    (hf : (List.zipWith (fun l r => l + r - 1) I K).prod < 2 ^ 64) :
    ∃ out, convolution image kernel true = .ok out ∧ out.ShowsN I fi := by
  obtain ⟨_, _, so, e⟩ := convolution_full si sk hlen hne hdim hI hK hsum hf
  clear so
  have wf := si.wf
  have hp : I.prod < 2 ^ 64 := by have := wf.fits; rwa [si.size] at this
  have hfit : SubimageFits image.size I (I.map (· / 2)) := by
    rw [si.size]
    clear e hsum hf si sk hlen hne hdim hI hp
    induction I with
    | nil => trivial
    | cons a I ih =>
      have ha := hb a (by simp)
      exact ⟨by show a / 2 + a < _; omega, by omega, ih (fun s hs => hb s (by simp [hs]))⟩
  obtain ⟨out, e2, wfo, hso, hpx⟩ := subimage_spec (0 : α) wf I (I.map (· / 2)) (by rw [si.size])
    (by simp [si.size]) hfit hp (List.prod_pos hI)
    (fun n hn => by have := hb n hn; omega) 0
  refine ⟨out, by rw [e, e2], wfo, hso, ?_⟩
  intro idx hidx
  rw [(hpx idx hidx).1 idx (by rw [si.size]; exact hidx) (shiftCoords_center I idx hidx).symm,
    si.px idx hidx]

/-- The witness: the centre of `[1 2 3] * [1 1 1] = [1 3 6 5 3]` is `[3 6 5]`, the code returns
`[1 2 3]`. -/
theorem C24_same_size_witness_violation :
    convolution (⟨[3], [1, 2, 3]⟩ : Image Int) ⟨[3], [1, 1, 1]⟩ false = .ok ⟨[5], [1, 3, 6, 5, 3]⟩ ∧
    convolution (⟨[3], [1, 2, 3]⟩ : Image Int) ⟨[3], [1, 1, 1]⟩ true = .ok ⟨[3], [1, 2, 3]⟩ := by
  decide +kernel

/-- A concrete case of the hypotheses, with three dimensions. -/
example : (⟨[2, 1, 2], [1, 2, 3, 4]⟩ : Image Int).ShowsN [2, 1, 2]
    (fun idx => ([1, 2, 3, 4] : List Int).getD (rowMajor [2, 1, 2] idx) 0) := by
  refine ⟨⟨by decide, by decide, by decide⟩, rfl, ?_⟩
  intro idx h
  rw [← mem_allIdx] at h
  revert h idx
  decide +kernel

/-! ## C22 windowed filter

Full statement: the pixel at each position is the window function of the window of the *unmodified*
padded input around it, in every evaluation order. The code writes each result back into the padded
image it is still reading windows from. -/

/-- What holds: let `D` be the window positions the filter looks at. If no pixel is filtered before
another one that can see it through `D`, every pixel of the result is the filter applied to its
window of the padded input (`P`). Missing: filters and orders that break that condition. -/
theorem C22_windowed_filter_partial (z : α) (im : Image α) (w h : Nat) (f : Nat → Nat → α)
    (s : im.Shows w h f) (hw0 : 0 < w) (hh0 : 0 < h)
    (ww wh : Nat) (hww : 0 < ww) (hwwh : 0 < wh) (hwin : ww * wh < 2 ^ 64)
    (hx : 2 * (w + 2 * ww) < 2 ^ 64) (hy : 2 * (h + 2 * wh) < 2 ^ 64) (bd : Boundary) (value : α)
    (P G : Nat → Nat → α) (pad : Image α) (hpad : paddedImage z im ww wh bd value = .ok pad)
    (sp : pad.Shows (w + 2 * ww) (h + 2 * wh) P)
    (filter : Image α → Res α) (D : Nat → Nat → Prop)
    (hdep : ∀ u v fu fv, u.Shows ww wh fu → v.Shows ww wh fv →
      (∀ a b, a < ww → b < wh → D a b → fu a b = fv a b) → filter u = filter v)
    (hok : ∀ x y, x < w → y < h → ∀ win, win.Shows ww wh (fun a b =>
      P (x + ww + a - ww / 2) (y + wh + b - wh / 2)) → filter win = .ok (G x y))
    (order : List Nat) (ho : order.Perm (List.range (w * h)))
    (hp : order.Pairwise fun k m => ∀ a b, a < ww → b < wh → k % w + ww / 2 = m % w + a →
      k / w + wh / 2 = m / w + b → ¬ D a b) :
    ∃ out, windowedFilterOrd z order im [ww, wh] filter bd value = .ok out ∧ out.Shows w h G :=
  windowedFilter_shows z s hw0 hh0 hww hwwh hwin hx hy bd value P G pad hpad sp filter D hdep hok order
    ho hp

/-- In particular a filter that only looks at the centre of its window is applied correctly in
every order. -/
theorem C22_windowed_filter_centre_partial (z : α) (im : Image α) (w h : Nat) (f : Nat → Nat → α)
    (s : im.Shows w h f) (hw0 : 0 < w) (hh0 : 0 < h)
    (ww wh : Nat) (hww : 0 < ww) (hwwh : 0 < wh) (hwin : ww * wh < 2 ^ 64)
    (hx : 2 * (w + 2 * ww) < 2 ^ 64) (hy : 2 * (h + 2 * wh) < 2 ^ 64)
    (hf : (w + 2 * ww) * (h + 2 * wh) < 2 ^ 64) (value : α) (φ : α → α)
    (filter : Image α → Res α)
    (hφ : ∀ u fu, u.Shows ww wh fu → filter u = .ok (φ (fu (ww / 2) (wh / 2))))
    (order : List Nat) (ho : order.Perm (List.range (w * h))) :
    ∃ out, windowedFilterOrd z order im [ww, wh] filter .constant value = .ok out ∧
      out.Shows w h (fun x y => φ (f x y)) := by
  obtain ⟨pad, ep, sp⟩ := constantPadding_shows z s (we := ww) (he := wh) (by omega) (by omega) hf value
  refine windowedFilter_shows z s hw0 hh0 hww hwwh hwin hx hy .constant value _ _ pad ep sp filter
    (fun a b => a = ww / 2 ∧ b = wh / 2) ?_ ?_ order ho ?_
  · intro u v fu fv su sv hD
    rw [hφ u fu su, hφ v fv sv, hD (ww / 2) (wh / 2) (by omega) (by omega) ⟨rfl, rfl⟩]
  · intro x y hx' hy' win sw
    rw [hφ win _ sw]
    congr 2
    rw [if_pos (by omega)]
    congr 1 <;> omega
  · have hn : order.Nodup := ho.nodup_iff.mpr List.nodup_range
    refine hn.imp ?_
    rintro k m hkm a b _ _ h1 h2 ⟨rfl, rfl⟩
    apply hkm
    have e1 : k % w = m % w := by omega
    have e2 : k / w = m / w := by omega
    rw [← Nat.mod_add_div k w, ← Nat.mod_add_div m w, e1, e2]

/-- Another instance, for the sequential order: filters that look only at the centre, at pixels
further right in its row and at rows below. -/
theorem C22_windowed_filter_causal_partial (z : α) (im : Image α) (w h : Nat) (f : Nat → Nat → α)
    (s : im.Shows w h f) (hw0 : 0 < w) (hh0 : 0 < h)
    (ww wh : Nat) (hww : 0 < ww) (hwwh : 0 < wh) (hwin : ww * wh < 2 ^ 64)
    (hx : 2 * (w + 2 * ww) < 2 ^ 64) (hy : 2 * (h + 2 * wh) < 2 ^ 64) (bd : Boundary) (value : α)
    (P G : Nat → Nat → α) (pad : Image α) (hpad : paddedImage z im ww wh bd value = .ok pad)
    (sp : pad.Shows (w + 2 * ww) (h + 2 * wh) P)
    (filter : Image α → Res α)
    (hdep : ∀ u v fu fv, u.Shows ww wh fu → v.Shows ww wh fv →
      (∀ a b, a < ww → b < wh → (wh / 2 < b ∨ b = wh / 2 ∧ ww / 2 ≤ a) → fu a b = fv a b) →
      filter u = filter v)
    (hok : ∀ x y, x < w → y < h → ∀ win, win.Shows ww wh (fun a b =>
      P (x + ww + a - ww / 2) (y + wh + b - wh / 2)) → filter win = .ok (G x y)) :
    ∃ out, windowedFilter z im [ww, wh] filter bd value = .ok out ∧ out.Shows w h G := by
  rw [windowedFilter, s.count]
  refine windowedFilter_shows z s hw0 hh0 hww hwwh hwin hx hy bd value P G pad hpad sp filter _ hdep hok
    _ (.refl _) ?_
  refine List.pairwise_lt_range.imp ?_
  rintro k m hkm a b _ _ h1 h2 hD
  have hdm : k / w ≤ m / w := Nat.div_le_div_right hkm.le
  have e1 := Nat.mod_add_div k w
  have e2 := Nat.mod_add_div m w
  rcases hD with hD | ⟨hb, ha⟩
  · omega
  · have : k / w = m / w := by omega
    rw [this] at e1
    omega

example := C22_windowed_filter_causal_partial 0 _ 3 2 _ sample2_shows (by decide) (by decide) 3 3 (by decide)
  (by decide) (by decide) (by decide) (by decide) .constant 0
  (fun x y => if 3 ≤ x ∧ x < 6 ∧ 3 ≤ y ∧ y < 5 then 10 + (x - 3) + 3 * (y - 3) else 0)
  (fun x y => if x < 2 ∧ y < 1 then 10 + (x + 1) + 3 * (y + 1) else 0)
  (picture 9 8 fun x y => if 3 ≤ x ∧ x < 6 ∧ 3 ≤ y ∧ y < 5 then 10 + (x - 3) + 3 * (y - 3) else 0) (by decide +kernel)
  (picture_shows 9 8 _) (fun u => u.at2 2 2)
  (fun u v fu fv su sv h => by
    rw [su.px 2 2 (by decide) (by decide), sv.px 2 2 (by decide) (by decide), h 2 2 (by decide) (by decide) (.inl (by decide))])
  (fun x y hx hy win sw => by
    rw [sw.px 2 2 (by decide) (by decide)]
    obtain rfl | rfl | rfl : x = 0 ∨ x = 1 ∨ x = 2 := by omega
    all_goals obtain rfl | rfl : y = 0 ∨ y = 1 := by omega
    all_goals rfl)

/-- The sum of a window. -/
def windowSum (w : Image Int) : Res Int := .ok w.data.sum

/-- The violation: for the row `[1, 1]` with zero padding, every `3 × 1` window of the padded input
sums to 2, but the second pixel is computed from the already replaced first one; and processing
the pixels in the other order gives another image. -/
theorem C22_windowed_filter_violation :
    windowedFilter 0 (⟨[2, 1], [1, 1]⟩ : Image Int) [3, 1] windowSum .constant 0 =
      .ok ⟨[2, 1], [2, 3]⟩ ∧
    windowedFilterOrd 0 [1, 0] (⟨[2, 1], [1, 1]⟩ : Image Int) [3, 1] windowSum .constant 0 =
      .ok ⟨[2, 1], [3, 2]⟩ ∧
    (∃ pad, paddedImage 0 (⟨[2, 1], [1, 1]⟩ : Image Int) 3 1 .constant 0 = .ok pad ∧
      (subimage pad 0 [3, 1] [0 + 3, 0 + 1] 0 >>= windowSum) = .ok 2 ∧
      (subimage pad 0 [3, 1] [1 + 3, 0 + 1] 0 >>= windowSum) = .ok 2) := by
  refine ⟨by decide +kernel, by decide +kernel, ⟨[8, 3],
    [0,0,0,0,0,0,0,0, 0,0,0,1,1,0,0,0, 0,0,0,0,0,0,0,0]⟩, by decide +kernel, by decide +kernel,
    by decide +kernel⟩

/-- The hypotheses of the centre theorem are met by a concrete image and filter. -/
example : sample2.Shows 3 2 (fun x y => 10 + x + 3 * y) ∧ (3 + 2 * 3) * (2 + 2 * 3) < 2 ^ 64 ∧
    ∃ filter : Image Nat → Res Nat, ∀ u fu, u.Shows 3 3 fu → filter u = .ok (2 * fu (3 / 2) (3 / 2)) :=
  ⟨sample2_shows, by decide, fun u => do .ok (2 * (← u.at2 1 1)), fun u fu su => by
    have := su.px 1 1 (by decide) (by decide)
    simp only [this, Res.ok_bind]⟩

example := C22_windowed_filter_centre_partial 0 _ 3 2 _ sample2_shows (by decide) (by decide) 3 3 (by decide) (by decide)
  (by decide) (by decide) (by decide) (by decide) 0 (2 * ·) (fun u => do .ok (2 * (← u.at2 1 1)))
  (fun u fu su => by
    have := su.px 1 1 (by decide) (by decide)
    simp only [this, Res.ok_bind]) _ (List.reverse_perm _)

-- A filter which triples the left neighbour, on a 2 × 1 picture surrounded by the value 7: visiting the right
-- pixel first is safe.
example : ∃ out, windowedFilterOrd 0 [1, 0] (⟨[2, 1], [4, 5]⟩ : Image Nat) [3, 1]
    (fun u => do .ok (3 * (← u.at2 0 0))) .constant 7 = .ok out ∧
      out.Shows 2 1 (fun x _ => if x = 0 then 21 else 12) := by
  have s : (⟨[2, 1], [4, 5]⟩ : Image Nat).Shows 2 1 (fun x _ => 4 + x) :=
    Image.Shows.of_data (by decide) (by decide) (by decide) rfl (by simp) (fun x y hx hy => by
      obtain rfl : y = 0 := by omega
      obtain rfl | rfl : x = 0 ∨ x = 1 := by omega
      all_goals rfl)
  refine C22_windowed_filter_partial 0 _ 2 1 _ s (by decide) (by decide) 3 1
    (by decide) (by decide) (by decide) (by decide) (by decide) .constant 7
    (fun x y => if x = 3 ∧ y = 1 then 4 else if x = 4 ∧ y = 1 then 5 else 7) _
    (picture 8 3 fun x y => if x = 3 ∧ y = 1 then 4 else if x = 4 ∧ y = 1 then 5 else 7) (by decide +kernel)
    (picture_shows 8 3 _) _ (fun a b => a = 0 ∧ b = 0) ?_ ?_ _ (by decide)
    (.cons (by rintro m hm a b ha hb h1 h2 ⟨rfl, rfl⟩; simp only [List.mem_singleton] at hm; omega)
      (.cons (by simp) .nil))
  · intro u v fu fv su sv h
    rw [su.px 0 0 (by decide) (by decide), sv.px 0 0 (by decide) (by decide), h 0 0 (by decide) (by decide) ⟨rfl, rfl⟩]
  · intro x y hx hy win sw
    rw [sw.px 0 0 (by decide) (by decide)]
    obtain rfl : y = 0 := by omega
    obtain rfl | rfl : x = 0 ∨ x = 1 := by omega
    all_goals rfl

end TinyDIP.Props
