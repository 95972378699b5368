import Verif.Lemmas.Samples
import Verif.Lemmas.Filter

/-!
# Property theorems: Gaussian filtering (C105–C107)

The vocabulary (`blur`, `bellWeight`, `extend`, `offset`, `CanPad`) is defined in Spec/Filter.lean.
-/

namespace TinyDIP.Filter

open TinyDIP Image Finset

/-! ## C105 Gaussian filtering

Full statement: the result at `(x, y)` is the average of the extended picture around `(x, y)` with
normalised bell-curve weights centred on `(x, y)` itself, so the picture is not displaced. The code
centres the bell curve on sample `(n + 1) / 2` (counting from zero) while the pixel itself meets sample
`(n - 1) / 2`: everything moves by one pixel. -/

/-- The result has the size of the input, and each pixel is a normalised bell-curve average of the
extended picture. Missing: the bell curve is centred on sample `(n + 1) / 2` instead of on the sample
`offset w n` that meets the pixel. -/
theorem C105_filter_partial (im : Image ℝ) (w h : Nat) (f : Nat → Nat → ℝ) (s : im.Shows w h f)
    (hw : 0 < w) (hh : 0 < h) (n1 n2 : Nat) (hn1 : 0 < n1) (hn2 : 0 < n2) (sd1 sd2 : ℝ)
    (b : Boundary) (v : ℝ) (hc : CanPad b w h n1 n2)
    (hx : 2 * (w + 3 * n1 + 1) < 2 ^ 64) (hy : 2 * (h + 3 * n2 + 1) < 2 ^ 64)
    (hf : (w + 3 * n1 + 1) * (h + 3 * n2 + 1) < 2 ^ 64) :
    ∃ out, imgaussfilt im sd1 sd2 n1 n2 b v = .ok out ∧ out.Shows w h
      (blur sd1 sd2 n1 n2 (offset w n1) (offset h n2) ((n1 + 1) / 2 : Nat) ((n2 + 1) / 2 : Nat)
        (extend b v w h f)) :=
  imgaussfilt_shows s hw hh hn1 hn2 sd1 sd2 v hc hx hy hf

example := C105_filter_partial _ 9 8 _ (picture_shows 9 8 fun x y => ((x * y : Nat) : ℝ)) (by decide) (by decide) 3 5
  (by decide) (by decide) 1 2 .mirror 0 (by unfold CanPad; decide) (by decide) (by decide) (by decide)

/-- The sample meeting the pixel: the middle one for odd window lengths; for even lengths it depends
on the parity of the image side. -/
theorem C105_offset (w k : Nat) :
    offset w (2 * k + 1) = k ∧ offset (2 * w + 1) (2 * k) = k ∧
      (0 < k → offset (2 * w) (2 * k) = k - 1) := by
  unfold offset; omega

/-- The normalised weights are positive, sum to one, and fall off strictly with the distance to the
centre. -/
theorem C105_weights (sd c : ℝ) (hsd : sd ≠ 0) (n : Nat) (hn : 0 < n) :
    (∀ i, 0 < bellWeight sd c n i) ∧ (range n).sum (bellWeight sd c n) = 1 ∧
    ∀ i j : Nat, bellWeight sd c n i < bellWeight sd c n j ↔ |(j : ℝ) - c| < |(i : ℝ) - c| := by
  refine ⟨bellWeight_pos sd c hn, bellWeight_sum sd c hn, fun i j => ?_⟩
  unfold bellWeight
  rw [div_lt_div_iff_of_pos_right (bellSum_pos sd c hn)]
  unfold bell
  rw [Real.exp_lt_exp, div_lt_div_iff_of_pos_right (by positivity), neg_lt_neg_iff, sq_lt_sq]

example := C105_weights 2 3 (by norm_num) 7 (by decide)

theorem extend_single {w h x0 y0 : Nat} (hx0 : x0 < w) (hy0 : y0 < h) (a b : Int) :
    extend .constant (0 : ℝ) w h (fun x y => if x = x0 ∧ y = y0 then 1 else 0) a b =
      if a = x0 ∧ b = y0 then 1 else 0 := by
  unfold extend
  dsimp only
  by_cases hc : a = x0 ∧ b = y0
  · rw [if_pos (by omega), if_pos (by omega), if_pos hc]
  · rw [if_neg hc]
    by_cases hin : 0 ≤ a ∧ a < w ∧ 0 ≤ b ∧ b < h
    · rw [if_pos hin, if_neg (by omega)]
    · rw [if_neg hin]

theorem blur_single {w h x0 y0 : Nat} (hx0 : x0 < w) (hy0 : y0 < h) (sd1 sd2 c1 c2 : ℝ)
    {n1 n2 o1 o2 x y : Nat} {i j : Nat} (hi : i < n1) (hj : j < n2) (ex : x + o1 = x0 + i)
    (ey : y + o2 = y0 + j) :
    blur sd1 sd2 n1 n2 o1 o2 c1 c2
      (extend .constant 0 w h (fun x y => if x = x0 ∧ y = y0 then 1 else 0)) x y =
      bellWeight sd2 c2 n2 j * bellWeight sd1 c1 n1 i := by
  unfold blur
  rw [Finset.sum_eq_single j, Finset.sum_eq_single i]
  · rw [extend_single hx0 hy0, if_pos (by omega), mul_one]
  · intro k _ hk
    rw [extend_single hx0 hy0, if_neg (by omega), mul_zero]
  · intro hk; exact absurd (Finset.mem_range.mpr hi) hk
  · intro l _ hl
    refine Finset.sum_eq_zero fun k _ => ?_
    rw [extend_single hx0 hy0, if_neg (by omega), mul_zero]
  · intro hk; exact absurd (Finset.mem_range.mpr hj) hk

/-- Violation: for every odd window of at least three samples and every sigma, a picture with a single
bright pixel at `(x0, y0)` is brighter at `(x0 + 1, y0 + 1)` than at `(x0, y0)` after filtering. -/
theorem C105_displacement_violation (w h x0 y0 : Nat) (hx0 : x0 + 1 < w) (hy0 : y0 + 1 < h) (im : Image ℝ)
    (s : im.Shows w h (fun x y => if x = x0 ∧ y = y0 then 1 else 0)) (k : Nat) (hk : 0 < k) (sd : ℝ)
    (hsd : sd ≠ 0) (hx : 2 * (w + 3 * (2 * k + 1) + 1) < 2 ^ 64) (hy : 2 * (h + 3 * (2 * k + 1) + 1) < 2 ^ 64)
    (hf : (w + 3 * (2 * k + 1) + 1) * (h + 3 * (2 * k + 1) + 1) < 2 ^ 64) :
    ∃ out a b, imgaussfilt im sd sd (2 * k + 1) (2 * k + 1) .constant 0 = .ok out ∧
      out.at2 x0 y0 = .ok a ∧ out.at2 (x0 + 1) (y0 + 1) = .ok b ∧ a < b := by
  obtain ⟨out, e, so⟩ := C105_filter_partial im w h _ s (by omega) (by omega) (2 * k + 1) (2 * k + 1)
    (by omega) (by omega) sd sd .constant 0 trivial hx hy hf
  have h1 := so.px x0 y0 (by omega) (by omega)
  have h2 := so.px (x0 + 1) (y0 + 1) (by omega) (by omega)
  rw [(C105_offset w k).1, (C105_offset h k).1] at h1 h2
  rw [blur_single (by omega) (by omega) _ _ _ _ (i := k) (j := k) (by omega) (by omega) (by omega)
    (by omega)] at h1
  rw [blur_single (by omega) (by omega) _ _ _ _ (i := k + 1) (j := k + 1) (by omega) (by omega) (by omega)
    (by omega)] at h2
  refine ⟨out, _, _, e, h1, h2, ?_⟩
  obtain ⟨hp, _, hlt⟩ := C105_weights sd (((2 * k + 1 + 1) / 2 : Nat) : ℝ) hsd (2 * k + 1) (by omega)
  have hc : (2 * k + 1 + 1) / 2 = k + 1 := by omega
  have := (hlt k (k + 1)).mpr (by rw [hc]; push_cast; simp)
  exact mul_lt_mul'' this this (hp k).le (hp k).le

/-- The hypotheses are met: a 9 × 8 image with one bright pixel and a 3 × 3 window. -/
example : ∃ im : Image ℝ, im.Shows 9 8 (fun x y => if x = 4 ∧ y = 3 then 1 else 0) ∧
    CanPad .mirror 9 8 3 3 ∧ (9 + 3 * 3 + 1) * (8 + 3 * 3 + 1) < 2 ^ 64 := by
  obtain ⟨im, _, s⟩ := (ofSizes_shows (0 : ℝ) (w := 9) (h := 8) (by decide) (by decide) (by decide)).set2
    (x := 4) (y := 3) (by decide) (by decide) 1
  exact ⟨im, s, by unfold CanPad; decide, by decide⟩

/-! ## C106 averaging laws -/

theorem blur_affine (sd1 sd2 : ℝ) {n1 n2 : Nat} (hn1 : 0 < n1) (hn2 : 0 < n2) (o1 o2 : Nat) (c1 c2 : ℝ)
    (F : Int → Int → ℝ) (x y : Nat) {lo hi : ℝ}
    (hF : ∀ i j : Nat, i < n1 → j < n2 →
      lo ≤ F ((x : Int) + o1 - i) ((y : Int) + o2 - j) ∧ F ((x : Int) + o1 - i) ((y : Int) + o2 - j) ≤ hi) :
    lo ≤ blur sd1 sd2 n1 n2 o1 o2 c1 c2 F x y ∧ blur sd1 sd2 n1 n2 o1 o2 c1 c2 F x y ≤ hi := by
  have hone : ∀ t : ℝ, (range n2).sum (fun j => (range n1).sum fun i =>
      bellWeight sd2 c2 n2 j * bellWeight sd1 c1 n1 i * t) = t := by
    intro t
    simp only [mul_assoc, ← Finset.mul_sum, ← Finset.sum_mul, bellWeight_sum _ _ hn1, bellWeight_sum _ _ hn2,
      one_mul]
  have hpos : ∀ i j, 0 ≤ bellWeight sd2 c2 n2 j * bellWeight sd1 c1 n1 i :=
    fun i j => (mul_pos (bellWeight_pos _ _ hn2 _) (bellWeight_pos _ _ hn1 _)).le
  constructor
  · rw [← hone lo]
    unfold blur
    exact Finset.sum_le_sum fun j hj => Finset.sum_le_sum fun i hi =>
      mul_le_mul_of_nonneg_left (hF i j (Finset.mem_range.mp hi) (Finset.mem_range.mp hj)).1 (hpos i j)
  · rw [← hone hi]
    unfold blur
    exact Finset.sum_le_sum fun j hj => Finset.sum_le_sum fun i hi =>
      mul_le_mul_of_nonneg_left (hF i j (Finset.mem_range.mp hi) (Finset.mem_range.mp hj)).2 (hpos i j)

theorem extend_range {b : Boundary} {v : ℝ} {w h : Nat} {f : Nat → Nat → ℝ} {n1 n2 : Nat}
    (hc : CanPad b w h n1 n2) {lo hi : ℝ} (hf : ∀ x y, x < w → y < h → lo ≤ f x y ∧ f x y ≤ hi)
    (hv : b = .constant → lo ≤ v ∧ v ≤ hi) (X Y : Int) (hX : -(n1 : Int) ≤ X ∧ X < w + n1)
    (hY : -(n2 : Int) ≤ Y ∧ Y < h + n2) :
    lo ≤ extend b v w h f X Y ∧ extend b v w h f X Y ≤ hi := by
  cases b with
  | constant =>
    unfold extend
    dsimp only
    split
    · exact hf _ _ (by omega) (by omega)
    · exact hv rfl
  | mirror =>
    obtain ⟨h1, h2⟩ := hc
    refine hf _ _ ?_ ?_
    · unfold reflectInt; repeat' split
      all_goals omega
    · unfold reflectInt; repeat' split
      all_goals omega
  | replicate =>
    obtain ⟨h1, h2⟩ := hc
    refine hf _ _ ?_ ?_ <;> unfold clampInt <;> omega

theorem offset_le (w n : Nat) : offset w n ≤ n / 2 := by unfold offset; omega

/-- Filtering creates no new extremes: a range containing every pixel (and the padding value, if it is
used) contains every pixel of the result. -/
theorem C106_range (im : Image ℝ) (w h : Nat) (f : Nat → Nat → ℝ) (s : im.Shows w h f)
    (hw : 0 < w) (hh : 0 < h) (n1 n2 : Nat) (hn1 : 0 < n1) (hn2 : 0 < n2) (sd1 sd2 : ℝ)
    (b : Boundary) (v : ℝ) (hc : CanPad b w h n1 n2)
    (hx : 2 * (w + 3 * n1 + 1) < 2 ^ 64) (hy : 2 * (h + 3 * n2 + 1) < 2 ^ 64)
    (hf : (w + 3 * n1 + 1) * (h + 3 * n2 + 1) < 2 ^ 64) (lo hi : ℝ)
    (hr : ∀ x y, x < w → y < h → lo ≤ f x y ∧ f x y ≤ hi) (hv : b = .constant → lo ≤ v ∧ v ≤ hi) :
    ∃ out g, imgaussfilt im sd1 sd2 n1 n2 b v = .ok out ∧ out.Shows w h g ∧
      ∀ x y, x < w → y < h → lo ≤ g x y ∧ g x y ≤ hi := by
  obtain ⟨out, e, so⟩ := C105_filter_partial im w h f s hw hh n1 n2 hn1 hn2 sd1 sd2 b v hc hx hy hf
  refine ⟨out, _, e, so, fun x y hx' hy' => ?_⟩
  have := offset_le w n1
  have := offset_le h n2
  refine blur_affine sd1 sd2 hn1 hn2 _ _ _ _ _ x y fun i j hi hj => ?_
  exact extend_range hc hr hv _ _ (by omega) (by omega)

example := C106_range _ 9 8 _ (picture_shows 9 8 fun x y => if x = y then (1 : ℝ) else 0) (by decide) (by decide) 3 5
  (by decide) (by decide) 1 2 .mirror 0 (by unfold CanPad; decide) (by decide) (by decide) (by decide) 0 1
  (fun x y _ _ => by split <;> norm_num) (fun h => by cases h)

/-- A picture of one colour is left unchanged. -/
theorem C106_constant (im : Image ℝ) (w h : Nat) (c : ℝ) (s : im.Shows w h (fun _ _ => c))
    (hw : 0 < w) (hh : 0 < h) (n1 n2 : Nat) (hn1 : 0 < n1) (hn2 : 0 < n2) (sd1 sd2 : ℝ)
    (b : Boundary) (v : ℝ) (hv : b = .constant → v = c) (hc : CanPad b w h n1 n2)
    (hx : 2 * (w + 3 * n1 + 1) < 2 ^ 64) (hy : 2 * (h + 3 * n2 + 1) < 2 ^ 64)
    (hf : (w + 3 * n1 + 1) * (h + 3 * n2 + 1) < 2 ^ 64) :
    imgaussfilt im sd1 sd2 n1 n2 b v = .ok im := by
  obtain ⟨out, g, e, so, hg⟩ := C106_range im w h _ s hw hh n1 n2 hn1 hn2 sd1 sd2 b v hc hx hy hf c c
    (fun _ _ _ _ => ⟨le_rfl, le_rfl⟩) (fun hb => by rw [hv hb]; exact ⟨le_rfl, le_rfl⟩)
  rw [e]
  refine congrArg Res.ok (so.ext s fun x y hx' hy' => ?_)
  exact le_antisymm (hg x y hx' hy').2 (hg x y hx' hy').1

example := C106_constant _ 9 8 7 (picture_shows 9 8 fun _ _ => (7 : ℝ)) (by decide) (by decide) 3 5
  (by decide) (by decide) 1 2 .constant 7 (fun _ => rfl) (by unfold CanPad; decide) (by decide) (by decide) (by decide)

theorem extend_linear (b : Boundary) (v v' a : ℝ) (w h : Nat) (f f' : Nat → Nat → ℝ) (X Y : Int) :
    extend b (a * v + v') w h (fun x y => a * f x y + f' x y) X Y =
      a * extend b v w h f X Y + extend b v' w h f' X Y := by
  cases b <;> unfold extend <;> dsimp only
  split <;> rfl

/-- Filtering is linear in the picture (and its padding value). -/
theorem C106_linear (a : ℝ) (im im' im'' : Image ℝ) (w h : Nat) (f f' : Nat → Nat → ℝ)
    (s : im.Shows w h f) (s' : im'.Shows w h f') (s'' : im''.Shows w h (fun x y => a * f x y + f' x y))
    (hw : 0 < w) (hh : 0 < h) (n1 n2 : Nat) (hn1 : 0 < n1) (hn2 : 0 < n2) (sd1 sd2 : ℝ)
    (b : Boundary) (v v' : ℝ) (hc : CanPad b w h n1 n2)
    (hx : 2 * (w + 3 * n1 + 1) < 2 ^ 64) (hy : 2 * (h + 3 * n2 + 1) < 2 ^ 64)
    (hf : (w + 3 * n1 + 1) * (h + 3 * n2 + 1) < 2 ^ 64) :
    ∃ o o' o'' g g', imgaussfilt im sd1 sd2 n1 n2 b v = .ok o ∧ imgaussfilt im' sd1 sd2 n1 n2 b v' = .ok o' ∧
      imgaussfilt im'' sd1 sd2 n1 n2 b (a * v + v') = .ok o'' ∧ o.Shows w h g ∧ o'.Shows w h g' ∧
      o''.Shows w h (fun x y => a * g x y + g' x y) := by
  obtain ⟨o, e, so⟩ := C105_filter_partial im w h f s hw hh n1 n2 hn1 hn2 sd1 sd2 b v hc hx hy hf
  obtain ⟨o', e', so'⟩ := C105_filter_partial im' w h f' s' hw hh n1 n2 hn1 hn2 sd1 sd2 b v' hc hx hy hf
  obtain ⟨o'', e'', so''⟩ := C105_filter_partial im'' w h _ s'' hw hh n1 n2 hn1 hn2 sd1 sd2 b (a * v + v')
    hc hx hy hf
  refine ⟨o, o', o'', _, _, e, e', e'', so, so', so''.congr fun x y _ _ => ?_⟩
  unfold blur
  rw [Finset.mul_sum, ← Finset.sum_add_distrib]
  refine Finset.sum_congr rfl fun j _ => ?_
  rw [Finset.mul_sum, ← Finset.sum_add_distrib]
  refine Finset.sum_congr rfl fun i _ => ?_
  rw [extend_linear]; ring

example := C106_linear 3 _ _ _ 9 8 _ _ (picture_shows 9 8 fun x _ => (x : ℝ)) (picture_shows 9 8 fun _ y => (y : ℝ))
  (picture_shows 9 8 fun x y => 3 * (x : ℝ) + y) (by decide) (by decide) 3 5
  (by decide) (by decide) 1 2 .mirror 0 0 (by unfold CanPad; decide) (by decide) (by decide) (by decide)

/-- Rejected inputs: images that are not two-dimensional, an empty window, and (for mirroring, the
default) a window not smaller than the image. -/
theorem C106_rejected (im : Image ℝ) (sd1 sd2 : ℝ) (b : Boundary) (v : ℝ) :
    (∀ n1 n2, im.dim ≠ 2 → imgaussfilt im sd1 sd2 n1 n2 b v = .throw .runtime) ∧
    (∀ w h f n2, im.Shows w h f → CanPad b w h 0 n2 → h + 2 * n2 < 2 ^ 64 →
      w * (h + 2 * n2) < 2 ^ 64 → imgaussfilt im sd1 sd2 0 n2 b v = .throw .runtime) ∧
    (∀ w h f n1 n2, im.Shows w h f → w ≤ n1 ∨ h ≤ n2 → w + 2 * n1 < 2 ^ 64 → h + 2 * n2 < 2 ^ 64 →
      (w + 2 * n1) * (h + 2 * n2) < 2 ^ 64 →
      imgaussfilt im sd1 sd2 n1 n2 .mirror v = .throw .runtime) := by
  refine ⟨fun n1 n2 hd => by rw [imgaussfilt, if_pos hd], ?_, ?_⟩
  · intro w h f n2 s hc hy hf
    have := s.w_lt
    obtain ⟨P, eP, _⟩ := paddedImage_extend s (n1 := 0) (n2 := n2) v hc (by omega) (by omega) (by simpa using hf)
    rw [imgaussfilt, if_neg (by simp [s.dim]), eP]
    simp [gaussianFigure1D, forUp, loop, dividesScalar, ofSizes, prodW, Image.ofData,
      show wmul (wmul (1 % W) 0) 1 = 0 by decide]
  · intro w h f n1 n2 s hbig hx hy hf
    have := mirrorPadding_throws 0 s hbig hx hy hf v
    rw [imgaussfilt, if_neg (by simp [s.dim])]
    show (mirrorPadding 0 im n1 n2 v >>= _) = _
    rw [this]; rfl

/-! ## C107 automatic window size and differences of Gaussians -/

/-- The automatic window length is odd and reaches two standard deviations to each side:
`4 sigma + 1 ≤ n < 4 sigma + 3`. -/
theorem C107_size (sigma : ℝ) :
    filterSizeFromSigma sigma % 2 = 1 ∧ 4 * sigma + 1 ≤ (filterSizeFromSigma sigma : ℝ) ∧
      (filterSizeFromSigma sigma : ℝ) < 4 * sigma + 3 := by
  unfold filterSizeFromSigma
  refine ⟨by omega, ?_, ?_⟩
  · have := Int.le_ceil (2 * sigma); push_cast; linarith
  · have := Int.ceil_lt_add_one (2 * sigma); push_cast; linarith

/-- With one sigma: a positive window length is used on both axes, zero means the automatic length. -/
theorem C107_one_sigma (im : Image ℝ) (sigma : ℝ) (b : Boundary) (v : ℝ) :
    imgaussfilt1 im sigma 0 b v = imgaussfilt1 im sigma (filterSizeFromSigma sigma) b v ∧
    ∀ n : Nat, 0 < n → n < 2 ^ 31 → imgaussfilt1 im sigma n b v = imgaussfilt im sigma sigma n n b v := by
  have hodd := (C107_size sigma).1
  constructor
  · unfold imgaussfilt1
    rw [if_pos rfl, if_neg (by omega : ¬ filterSizeFromSigma sigma = 0)]
  · intro n h0 hn
    unfold imgaussfilt1
    by_cases hd : im.dim ≠ 2
    · rw [if_pos hd, imgaussfilt, if_pos hd]
    · rw [if_neg hd]
      dsimp only
      rw [if_neg (by omega), if_neg (by omega)]
      have : ((n : Int) % (W : Int)).toNat = n := by
        rw [Int.emod_eq_of_lt (by omega) (by rw [W_eq]; omega)]; simp
      rw [this]

theorem autoSize_eq {sigma : ℝ} (h : 0 ≤ sigma) : filterSizeFromSigma sigma = (autoSize sigma : Int) := by
  have : 0 ≤ ⌈2 * sigma⌉ := Int.ceil_nonneg (by linarith)
  unfold filterSizeFromSigma autoSize
  push_cast
  rw [Int.toNat_of_nonneg this]

theorem dog_unfold (im : Image ℝ) {s1 s2 : ℝ} (h1 : 0 ≤ s1) (h2 : 0 ≤ s2) (b1 : autoSize s1 < 2 ^ 31)
    (b2 : autoSize s2 < 2 ^ 31) :
    differenceOfGaussian im s1 s2 = (do
      let a ← imgaussfilt im s1 s1 (autoSize s1) (autoSize s1) .mirror 0
      let b ← imgaussfilt im s2 s2 (autoSize s2) (autoSize s2) .mirror 0
      subtract (· - ·) a b) := by
  unfold differenceOfGaussian
  simp only [autoSize_eq h1, autoSize_eq h2]
  rw [if_neg (by omega), if_neg (by omega)]
  simp only [Res.ok_bind]
  rw [(C107_one_sigma im s1 .mirror 0).2 _ (by unfold autoSize; omega) b1,
    (C107_one_sigma im s2 .mirror 0).2 _ (by unfold autoSize; omega) b2]

theorem subtract_shows {a b : Image ℝ} {w h : Nat} {f g : Nat → Nat → ℝ} (sa : a.Shows w h f)
    (sb : b.Shows w h g) (h0 : 0 < w * h) :
    ∃ out, subtract (· - ·) a b = .ok out ∧ out.Shows w h (fun x y => f x y - g x y) := by
  have hs : a.size = b.size := by rw [sa.size, sb.size]
  have hp : 0 < a.size.prod := by rw [sa.size]; simpa using h0
  refine ⟨⟨a.size, List.zipWith (· - ·) a.data b.data⟩, ?_, ?_⟩
  · rw [subtract, checkSizeSame, if_neg (by simp [hs]), Res.ok_bind]
    exact pixelwiseTransform2_ok _ sa.wf sb.wf hs hp
  · refine Image.Shows.of_data sa.w_lt sa.h_lt sa.fits sa.size (by simp [sa.len, sb.len]) ?_
    intro x y hx hy
    rw [List.getElem?_zipWith, sa.data? hx hy, sb.data? hx hy]

/-- `difference_of_gaussian` is the pixelwise difference of the two filtered pictures, each with its
automatic window and mirrored borders. Missing: the displacement described under C105. -/
theorem C107_dog_partial (im : Image ℝ) (w h : Nat) (f : Nat → Nat → ℝ) (s : im.Shows w h f) (s1 s2 : ℝ)
    (h1 : 0 ≤ s1) (h2 : 0 ≤ s2) (hb1 : autoSize s1 < w ∧ autoSize s1 < h)
    (hb2 : autoSize s2 < w ∧ autoSize s2 < h) (hw : w < 2 ^ 31) (hh : h < 2 ^ 31)
    (hf : (4 * w + 1) * (4 * h + 1) < 2 ^ 64) :
    ∃ a b out fa fb, imgaussfilt im s1 s1 (autoSize s1) (autoSize s1) .mirror 0 = .ok a ∧
      imgaussfilt im s2 s2 (autoSize s2) (autoSize s2) .mirror 0 = .ok b ∧
      differenceOfGaussian im s1 s2 = .ok out ∧ a.Shows w h fa ∧ b.Shows w h fb ∧
      out.Shows w h (fun x y => fa x y - fb x y) := by
  have hlt : ∀ n : Nat, n < w → n < h → (w + 3 * n + 1) * (h + 3 * n + 1) < 2 ^ 64 := fun n hnw hnh =>
    lt_of_le_of_lt (Nat.mul_le_mul (by omega) (by omega)) hf
  obtain ⟨a, ea, sa⟩ := imgaussfilt_shows s (by omega) (by omega) (n1 := autoSize s1) (n2 := autoSize s1)
    (by unfold autoSize; omega) (by unfold autoSize; omega) s1 s1 (b := .mirror) 0 hb1 (by omega) (by omega)
    (hlt _ hb1.1 hb1.2)
  obtain ⟨b, eb, sb⟩ := imgaussfilt_shows s (by omega) (by omega) (n1 := autoSize s2) (n2 := autoSize s2)
    (by unfold autoSize; omega) (by unfold autoSize; omega) s2 s2 (b := .mirror) 0 hb2 (by omega) (by omega)
    (hlt _ hb2.1 hb2.2)
  obtain ⟨out, eo, so⟩ := subtract_shows sa sb (Nat.mul_pos (by omega) (by omega))
  refine ⟨a, b, out, _, _, ea, eb, ?_, sa, sb, so⟩
  rw [dog_unfold im h1 h2 (by omega) (by omega), ea, eb]
  exact eo

/-- Swapping the sigmas negates the difference, and equal sigmas give zero everywhere. -/
theorem C107_antisymmetric (im : Image ℝ) (w h : Nat) (f : Nat → Nat → ℝ) (s : im.Shows w h f) (s1 s2 : ℝ)
    (h1 : 0 ≤ s1) (h2 : 0 ≤ s2) (hb1 : autoSize s1 < w ∧ autoSize s1 < h)
    (hb2 : autoSize s2 < w ∧ autoSize s2 < h) (hw : w < 2 ^ 31) (hh : h < 2 ^ 31)
    (hf : (4 * w + 1) * (4 * h + 1) < 2 ^ 64) :
    ∃ out out' g, differenceOfGaussian im s1 s2 = .ok out ∧ differenceOfGaussian im s2 s1 = .ok out' ∧
      out.Shows w h g ∧ out'.Shows w h (fun x y => -g x y) ∧
      (s1 = s2 → ∀ x y, x < w → y < h → g x y = 0) := by
  obtain ⟨a, b, out, fa, fb, ea, eb, eo, sa, sb, so⟩ :=
    C107_dog_partial im w h f s s1 s2 h1 h2 hb1 hb2 hw hh hf
  obtain ⟨out', eo', so'⟩ := subtract_shows sb sa (Nat.mul_pos (by omega) (by omega))
  refine ⟨out, out', _, eo, ?_, so, so'.congr fun x y _ _ => (neg_sub _ _).symm, ?_⟩
  · rw [dog_unfold im h2 h1 (by omega) (by omega), ea, eb]
    exact eo'
  · intro e x y hx hy
    subst e
    have hab : a = b := by
      rw [ea] at eb; exact Res.ok.inj eb
    subst hab
    have := (sa.px x y hx hy).symm.trans (sb.px x y hx hy)
    injection this with this
    exact sub_eq_zero.mpr this

/-- On a picture of one colour the difference of Gaussians is zero. -/
theorem C107_constant (im : Image ℝ) (w h : Nat) (c : ℝ) (s : im.Shows w h (fun _ _ => c)) (s1 s2 : ℝ)
    (h1 : 0 ≤ s1) (h2 : 0 ≤ s2) (hb1 : autoSize s1 < w ∧ autoSize s1 < h)
    (hb2 : autoSize s2 < w ∧ autoSize s2 < h) (hw : w < 2 ^ 31) (hh : h < 2 ^ 31)
    (hf : (4 * w + 1) * (4 * h + 1) < 2 ^ 64) :
    ∃ out, differenceOfGaussian im s1 s2 = .ok out ∧ out.Shows w h (fun _ _ => 0) := by
  obtain ⟨a, b, out, fa, fb, ea, eb, eo, sa, sb, so⟩ :=
    C107_dog_partial im w h _ s s1 s2 h1 h2 hb1 hb2 hw hh hf
  have hlt : ∀ n : Nat, n < w → n < h → (w + 3 * n + 1) * (h + 3 * n + 1) < 2 ^ 64 := fun n hnw hnh =>
    lt_of_le_of_lt (Nat.mul_le_mul (by omega) (by omega)) hf
  have ca := C106_constant im w h c s (by omega) (by omega) (autoSize s1) (autoSize s1)
    (by unfold autoSize; omega) (by unfold autoSize; omega) s1 s1 .mirror 0 (by simp) hb1 (by omega) (by omega)
    (hlt _ hb1.1 hb1.2)
  have cb := C106_constant im w h c s (by omega) (by omega) (autoSize s2) (autoSize s2)
    (by unfold autoSize; omega) (by unfold autoSize; omega) s2 s2 .mirror 0 (by simp) hb2 (by omega) (by omega)
    (hlt _ hb2.1 hb2.2)
  rw [ea] at ca
  rw [eb] at cb
  have ca := Res.ok.inj ca
  have cb := Res.ok.inj cb
  subst ca
  subst cb
  refine ⟨out, eo, so.congr fun x y hx hy => ?_⟩
  have h3 := (sa.px x y hx hy).symm.trans (sb.px x y hx hy)
  injection h3 with h3
  rw [h3, sub_self]

/-- An image not larger than one of the two windows is rejected. -/
theorem C107_small_image (im : Image ℝ) (w h : Nat) (f : Nat → Nat → ℝ) (s : im.Shows w h f) (s1 s2 : ℝ)
    (h1 : 0 ≤ s1) (h2 : 0 ≤ s2) (b1 : autoSize s1 < 2 ^ 31) (b2 : autoSize s2 < 2 ^ 31)
    (hsmall : w ≤ autoSize s1 ∨ h ≤ autoSize s1)
    (hx : w + 2 * autoSize s1 < 2 ^ 64) (hy : h + 2 * autoSize s1 < 2 ^ 64)
    (hf : (w + 2 * autoSize s1) * (h + 2 * autoSize s1) < 2 ^ 64) :
    differenceOfGaussian im s1 s2 = .throw .runtime := by
  rw [dog_unfold im h1 h2 b1 b2, (C106_rejected im s1 s1 .mirror 0).2.2 w h f _ _ s hsmall hx hy hf]
  rfl

/-- The hypotheses are met for sigmas 1 and 2 (windows of 5 and 9 pixels) on a 12 × 10 image. -/
example : autoSize 1 = 5 ∧ autoSize 2 = 9 ∧ (4 * 12 + 1) * (4 * 10 + 1) < 2 ^ 64 ∧
    ∃ im : Image ℝ, im.Shows 12 10 (fun _ _ => 3) := by
  refine ⟨?_, ?_, by decide, ofSizes 3 [12, 10], ofSizes_shows 3 (by decide) (by decide) (by decide)⟩
  · unfold autoSize
    rw [show (2 * 1 : ℝ) = ((2 : ℤ) : ℝ) by norm_num, Int.ceil_intCast]; rfl
  · unfold autoSize
    rw [show (2 * 2 : ℝ) = ((4 : ℤ) : ℝ) by norm_num, Int.ceil_intCast]; rfl

/-- Windows for the standard deviations 1 and 2 fit in a 12 × 10 picture. -/
theorem autoSize_one : autoSize 1 = 5 := by
  unfold autoSize
  rw [show (2 * 1 : ℝ) = ((2 : ℤ) : ℝ) by norm_num, Int.ceil_intCast]; rfl

theorem autoSize_two : autoSize 2 = 9 := by
  unfold autoSize
  rw [show (2 * 2 : ℝ) = ((4 : ℤ) : ℝ) by norm_num, Int.ceil_intCast]; rfl

example := C107_dog_partial _ 12 10 _ (picture_shows 12 10 fun x y => ((x * y : Nat) : ℝ)) 1 2 (by norm_num) (by norm_num)
  (by rw [autoSize_one]; decide) (by rw [autoSize_two]; decide) (by decide) (by decide) (by decide)

example := C107_antisymmetric _ 12 10 _ (picture_shows 12 10 fun x y => ((x * y : Nat) : ℝ)) 1 2 (by norm_num)
  (by norm_num) (by rw [autoSize_one]; decide) (by rw [autoSize_two]; decide) (by decide) (by decide) (by decide)

example := C107_constant _ 12 10 3 (picture_shows 12 10 fun _ _ => (3 : ℝ)) 1 2 (by norm_num) (by norm_num)
  (by rw [autoSize_one]; decide) (by rw [autoSize_two]; decide) (by decide) (by decide) (by decide)

end TinyDIP.Filter
