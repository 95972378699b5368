import Verif.Lemmas.Samples
import Verif.Lemmas.Color
import Verif.Props.Pixelwise

/-!
# Properties C101–C104: colour conversions
-/

namespace TinyDIP.Props

open TinyDIP Color

/-! ## C101 RGB to HSV and back

Full statement: converting a pixel to hue, saturation and value and back returns the pixel. The two
directions use different definitions of the hue, so the middle channel is not preserved
(`C101_roundtrip_violation`). -/

/-- The converted pixel is in range: the hue at least 0 and below 360, the saturation between 0 and
1, the value the brightest channel; the saturation says how far the darkest channel is below it. -/
theorem C101_hsv_range (p : RGB) :
    0 ≤ (rgb2hsv p).c0 ∧ (rgb2hsv p).c0 < 360 ∧ 0 ≤ (rgb2hsv p).c1 ∧ (rgb2hsv p).c1 ≤ 1 ∧
      (rgb2hsv p).c2 = brightest p ∧ (rgb2hsv p).c2 * (1 - (rgb2hsv p).c1) = darkest p := by
  obtain ⟨h0, h6⟩ := hue_range p
  obtain ⟨s1, s2, s3⟩ := sat_spec p
  refine ⟨?_, ?_, s2, s3, rfl, s1⟩
  · rw [le_div_iff₀ (by norm_num)] at h0
    linarith
  · rw [div_lt_iff₀ (by norm_num)] at h6
    linarith

/-- Every pixel comes back with its brightest and darkest channels unchanged and the other between
them. Missing: the other channel unchanged. -/
theorem C101_roundtrip_partial (p : RGB) :
    ∃ q, hsv2rgb (rgb2hsv p) = .ok q ∧ KeepsExtremes id p q := by
  have hb : (1 : ℝ) * brightest p < 256 := by
    rw [one_mul]; exact_mod_cast brightest_lt p
  obtain ⟨q, hq, hk⟩ := scaled p 1 zero_le_one hb
  refine ⟨q, ?_, ?_⟩
  · rw [← hq, one_mul]
  · intro i
    have := hk i
    simpa using this

/-- A pixel two of whose channels are equal (greys included) comes back unchanged. -/
theorem C101_exact (p : RGB) (h : p.c0 = p.c1 ∨ p.c1 = p.c2 ∨ p.c0 = p.c2) :
    hsv2rgb (rgb2hsv p) = .ok p := by
  obtain ⟨q, hq, hk⟩ := C101_roundtrip_partial p
  rw [hq]
  have hext : ∀ i, chan p i = brightest p ∨ chan p i = darkest p := by
    have e : chan p 0 = chan p 1 ∨ chan p 1 = chan p 2 ∨ chan p 0 = chan p 2 := by
      rcases h with h | h | h
      · exact Or.inl (congrArg BitVec.toNat h)
      · exact Or.inr (Or.inl (congrArg BitVec.toNat h))
      · exact Or.inr (Or.inr (congrArg BitVec.toNat h))
    have hf : ∀ i, i = 0 ∨ i = 1 ∨ i = (2 : Fin 3) := by decide
    intro i
    unfold brightest darkest
    rcases hf i with rfl | rfl | rfl <;> omega
  have hch : ∀ i, chan q i = chan p i := by
    intro i
    rcases hext i with e | e
    · rw [(hk i).1 e, e]; rfl
    · rw [(hk i).2.1 e, e]; rfl
  have h0 := BitVec.eq_of_toNat_eq (hch 0)
  have h1 := BitVec.eq_of_toNat_eq (hch 1)
  have h2 := BitVec.eq_of_toNat_eq (hch 2)
  obtain ⟨q0, q1, q2⟩ := q
  obtain ⟨p0, p1, p2⟩ := p
  simp only at h0 h1 h2
  rw [h0, h1, h2]

example := C101_exact ⟨200, 200, 17⟩ (Or.inl rfl)

/-- Whole images, pixel by pixel. -/
theorem C101_image_partial (im : Image RGB) (wf : im.WF) (h0 : 0 < im.size.prod) :
    ∃ hsv out, rgb2hsvImage im = .ok hsv ∧ hsv2rgbImage hsv = .ok out ∧
      out.WF ∧ out.size = im.size ∧
      ∀ idx p, im.at' idx = .ok p → ∃ q, out.at' idx = .ok q ∧ KeepsExtremes id p q := by
  have e1 : rgb2hsvImage im = .ok ⟨im.size, im.data.map rgb2hsv⟩ :=
    convertAll_ok rgb2hsv wf h0 fun v _ => rfl
  have wf' := wf.map rgb2hsv
  obtain ⟨out, e2, w2, s2, p2⟩ := convertAll_pixelwise (op := hsv2rgb) wf' h0 (by
    intro v hv
    obtain ⟨p, -, rfl⟩ := List.mem_map.1 hv
    obtain ⟨q, hq, -⟩ := C101_roundtrip_partial p
    exact ⟨q, hq⟩)
  refine ⟨_, out, e1, e2, w2, s2, fun idx p hp => ?_⟩
  obtain ⟨q, hq, hk⟩ := C101_roundtrip_partial p
  exact ⟨q, by rw [p2 idx _ (wf.map_at rgb2hsv hp), hq], hk⟩

example := C101_image_partial (picture 3 2 fun x y => ⟨BitVec.ofNat 8 (90 * x), BitVec.ofNat 8 (200 * y), 200⟩) (picture_wf ..)
  (by decide)

/-- Violation: the orange pixel `(252, 63, 0)` does not come back unchanged. -/
theorem C101_roundtrip_violation : hsv2rgb (rgb2hsv ⟨252, 63, 0⟩) ≠ .ok ⟨252, 63, 0⟩ := by
  have hbd : brightest ⟨252, 63, 0⟩ = 252 ∧ darkest ⟨252, 63, 0⟩ = 0 := by decide
  have hH := hue_div ⟨252, 63, 0⟩ (by rw [hbd.1, hbd.2]; decide)
  rw [if_pos (by decide)] at hH
  have hθ := theta_orange
  have h0 := theta_nonneg (hueCos 252 63 0)
  have e0 : ((chan ⟨252, 63, 0⟩ 0 : Nat) : ℝ) = 252 := by
    rw [show chan ⟨252, 63, 0⟩ 0 = 252 by decide]; norm_num
  have e1 : ((chan ⟨252, 63, 0⟩ 1 : Nat) : ℝ) = 63 := by
    rw [show chan ⟨252, 63, 0⟩ 1 = 63 by decide]; norm_num
  have e2 : ((chan ⟨252, 63, 0⟩ 2 : Nat) : ℝ) = 0 := by
    rw [show chan ⟨252, 63, 0⟩ 2 = 0 by decide]; norm_num
  rw [e0, e1, e2] at hH
  obtain ⟨θ, ht⟩ : ∃ θ, theta (hueCos 252 63 0) = θ := ⟨_, rfl⟩
  rw [ht] at hH hθ h0
  have hS : (rgb2hsv ⟨252, 63, 0⟩).c1 = 1 := by
    rw [rgb2hsv_sat, hbd.1, hbd.2]; norm_num
  have hV : (rgb2hsv ⟨252, 63, 0⟩).c2 = 252 := by
    rw [rgb2hsv_val, hbd.1]; norm_num
  have key := hsv2rgb_lt (k := 0) (e := θ) (S := (rgb2hsv ⟨252, 63, 0⟩).c1)
    (V := (rgb2hsv ⟨252, 63, 0⟩).c2) (H := (rgb2hsv ⟨252, 63, 0⟩).c0) (by omega) h0 (by linarith)
    (by rw [hH]; push_cast; ring)
  have key' : hsv2rgb (rgb2hsv ⟨252, 63, 0⟩) = sextant 0 θ 1 252 := by
    rw [← hS, ← hV]; exact key
  rw [key']
  obtain ⟨q, hq, -, q1, -⟩ := pack_ok (a := 252) (b := 252 * (1 - (1 - θ) * 1)) (c := 252 * (1 - 1))
    (by norm_num) (by norm_num) (by linarith) (by linarith) (by norm_num) (by norm_num)
  rw [show sextant 0 θ 1 252 = .ok q from hq]
  intro h
  injection h with h
  rw [h] at q1
  have h63 : chan ⟨252, 63, 0⟩ 1 = 63 := by decide
  rw [h63] at q1
  have : (63 : ℝ) ≤ 252 * (1 - (1 - θ) * 1) := by
    have := Nat.floor_le (a := 252 * (1 - (1 - θ) * 1)) (by linarith)
    rw [← q1] at this
    exact_mod_cast this
  linarith

example : (⟨200, 30, 30⟩ : RGB).c1 = (⟨200, 30, 30⟩ : RGB).c2 := rfl

/-! ## C102 brightening

Full statement: for every factor at least 0, brightening keeps hue and saturation and clips at the
largest channel value. Nothing is clipped: see the violations. -/

theorem increaseIntensity_eq (im : Image RGB) (wf : im.WF) (h0 : 0 < im.size.prod) (t : ℝ) :
    increaseIntensity im t = hsv2rgbImage ⟨im.size, im.data.map fun p =>
      (⟨(rgb2hsv p).c0, (rgb2hsv p).c1, (rgb2hsv p).c2 * t⟩ : Px3 ℝ)⟩ := by
  have e1 : rgb2hsvImage im = .ok ⟨im.size, im.data.map rgb2hsv⟩ :=
    convertAll_ok rgb2hsv wf h0 fun v _ => rfl
  have wf' := wf.map rgb2hsv
  have hr : (List.range (⟨im.size, im.data.map rgb2hsv⟩ : Image (Px3 ℝ)).count).Perm
      (List.range (im.data.map rgb2hsv).length) := by rw [wf'.count]
  have p0 := getPlaneOrd_ok (0 : ℝ) _ wf' h0 0 Px3.c0 (fun _ => rfl) _ hr
  have p1 := getPlaneOrd_ok (0 : ℝ) _ wf' h0 1 Px3.c1 (fun _ => rfl) _ hr
  have p2 := getPlaneOrd_ok (0 : ℝ) _ wf' h0 2 Px3.c2 (fun _ => rfl) _ hr
  have wv := wf'.map Px3.c2
  have m := C09_multiplies_scalar (· * ·) (0 : ℝ) t _ wv h0
  rw [pixelwiseTransform_ok _ wv h0] at m
  have c := constructPx3Ord_ok (0 : ℝ) im.size (im.data.map fun p =>
    (⟨(rgb2hsv p).c0, (rgb2hsv p).c1, (rgb2hsv p).c2 * t⟩ : Px3 ℝ)) (by simpa using wf.len)
    wf.fits h0 (List.range im.data.length) (by simp)
  simp only [List.map_map] at c m
  unfold increaseIntensity
  rw [e1, Res.ok_bind, getPlane, p0, Res.ok_bind, getPlane, p1, Res.ok_bind, getPlane, p2, Res.ok_bind]
  simp only [List.map_map]
  rw [m, Res.ok_bind, constructPx3, Image.count, prodW_of_lt wf.fits, ← wf.len]
  erw [c]
  rfl

/-- As long as no channel exceeds the channel range, brightening multiplies the brightest and the
darkest channels of every pixel by the factor, rounding down, and leaves the other between them.
Missing: clipping. -/
theorem C102_intensity_partial (im : Image RGB) (wf : im.WF) (h0 : 0 < im.size.prod) (t : ℝ)
    (ht : 0 ≤ t) (hfit : ∀ p ∈ im.data, t * brightest p < 256) :
    ∃ out, increaseIntensity im t = .ok out ∧ out.WF ∧ out.size = im.size ∧
      ∀ idx p, im.at' idx = .ok p →
        ∃ q, out.at' idx = .ok q ∧ KeepsExtremes (fun n => ⌊t * n⌋₊) p q := by
  rw [increaseIntensity_eq im wf h0 t]
  have wf' := wf.map fun p => (⟨(rgb2hsv p).c0, (rgb2hsv p).c1, (rgb2hsv p).c2 * t⟩ : Px3 ℝ)
  obtain ⟨out, e2, w2, s2, p2⟩ := convertAll_pixelwise (op := hsv2rgb) wf' h0 (by
    intro v hv
    obtain ⟨p, hp, rfl⟩ := List.mem_map.1 hv
    obtain ⟨q, hq, -⟩ := scaled p t ht (hfit p hp)
    exact ⟨q, by rw [← hq, mul_comm]⟩)
  refine ⟨out, e2, w2, s2, fun idx p hp => ?_⟩
  obtain ⟨q, hq, hk⟩ := scaled p t ht (hfit p (mem_of_at wf hp))
  exact ⟨q, by rw [p2 idx _ (wf.map_at _ hp), ← hq, mul_comm t], hk⟩

example := C102_intensity_partial ⟨[2, 1], [⟨100, 50, 20⟩, ⟨0, 3, 120⟩]⟩ ⟨rfl, by decide, by decide⟩ (by decide) 2
  (by norm_num) (by
    have a : brightest ⟨100, 50, 20⟩ = 100 := by decide
    have b : brightest ⟨0, 3, 120⟩ = 120 := by decide
    intro p hp
    simp only [List.mem_cons, List.not_mem_nil, or_false] at hp
    rcases hp with rfl | rfl
    · rw [a]; norm_num
    · rw [b]; norm_num)

/-- Violation: whenever the brightest channel of some pixel times the factor reaches 256 the
behaviour is undefined, instead of the value being clipped to 255. -/
theorem C102_overflow_violation (im : Image RGB) (wf : im.WF) (t : ℝ)
    (hbad : ∃ p ∈ im.data, 256 ≤ t * brightest p) : increaseIntensity im t = .ub := by
  have h0 : 0 < im.size.prod := by
    obtain ⟨p, hp, -⟩ := hbad
    rw [← wf.len]
    exact List.length_pos_of_mem hp
  rw [increaseIntensity_eq im wf h0 t, hsv2rgbImage, convertAll, mapM_ub, Res.ub_bind]
  · exact fun v _ => hsv2rgb_cases v
  · obtain ⟨p, hp, h⟩ := hbad
    refine ⟨_, List.mem_map.2 ⟨p, hp, rfl⟩, ?_⟩
    obtain ⟨a, b⟩ := hue_range p
    refine hsv2rgb_large a b ?_
    rw [rgb2hsv_val, mul_comm]
    exact h

/-- Violation: a hue of a full turn (red, by convention) is converted to black. -/
theorem C102_full_turn_violation (S V : ℝ) : hsv2rgb ⟨360, S, V⟩ = .ok ⟨0, 0, 0⟩ := by
  have e : (⌊(360 : ℝ) / 60.0⌋ : ℝ) = ((6 : Nat) : ℝ) := by
    rw [show (360 : ℝ) / 60.0 = ((6 : Int) : ℝ) by norm_num, Int.floor_intCast]
    norm_num
  simp only [hsv2rgb, e, toU8_nat (show 6 < 256 by norm_num), Res.ok_bind]
  rfl

example : (∀ p ∈ ([⟨100, 50, 20⟩, ⟨0, 3, 120⟩] : List RGB), (2 : ℝ) * brightest p < 256) ∧
    ∃ p ∈ ([⟨100, 50, 20⟩, ⟨0, 3, 120⟩] : List RGB), (256 : ℝ) ≤ 3 * brightest p := by
  have a : brightest ⟨100, 50, 20⟩ = 100 := by decide
  have b : brightest ⟨0, 3, 120⟩ = 120 := by decide
  constructor
  · intro p hp
    simp only [List.mem_cons, List.not_mem_nil, or_false] at hp
    rcases hp with rfl | rfl
    · rw [a]; norm_num
    · rw [b]; norm_num
  · exact ⟨⟨100, 50, 20⟩, by simp, by rw [a]; norm_num⟩

/-! ## C103 `im2double` and `im2uint8` -/

/-- An 8-bit colour or grey image with pixels survives conversion to floating point and back.
Missing: images without pixels (`C103_empty_violation`). -/
theorem C103_roundtrip_partial (im : Image RGB) (wf : im.WF) (h0 : 0 < im.size.prod) :
    (im2double im >>= im2uint8) = .ok im := by
  have e1 : im2double im = .ok ⟨im.size, im.data.map fun p => ⟨real8 p.c0, real8 p.c1, real8 p.c2⟩⟩ :=
    convertAll_ok (fun p : RGB => (⟨real8 p.c0, real8 p.c1, real8 p.c2⟩ : Px3 ℝ)) wf h0 fun v _ => rfl
  rw [e1, Res.ok_bind]
  have hm : (im.data.map fun p => (⟨real8 p.c0, real8 p.c1, real8 p.c2⟩ : Px3 ℝ)).mapM
      (fun p => pack p.c0 p.c1 p.c2) = .ok im.data := by
    generalize im.data = l
    induction l with
    | nil => rfl
    | cons a l ih =>
      rw [List.map_cons, List.mapM_cons, ih]
      simp only [pack, toU8_real8, Res.ok_bind]
      rfl
  rw [im2uint8, convertAll, hm, Res.ok_bind]
  exact ofData_ok wf.len wf.fits h0

example := C103_roundtrip_partial (picture 3 2 fun x y => ⟨BitVec.ofNat 8 x, BitVec.ofNat 8 y, 200⟩) (picture_wf ..)
  (by decide)

theorem C103_roundtrip_gray (im : Image (BitVec 8)) (wf : im.WF) (h0 : 0 < im.size.prod) :
    (im2doubleGray im >>= im2uint8Gray) = .ok im := by
  have e1 : im2doubleGray im = .ok ⟨im.size, im.data.map real8⟩ :=
    ofData_ok (by simpa using wf.len) wf.fits h0
  rw [e1, Res.ok_bind]
  have hm : (im.data.map real8).mapM toU8 = .ok im.data := by
    generalize im.data = l
    induction l with
    | nil => rfl
    | cons a l ih =>
      rw [List.map_cons, List.mapM_cons, ih, toU8_real8]
      rfl
  rw [im2uint8Gray, convertAll, hm, Res.ok_bind]
  exact ofData_ok wf.len wf.fits h0

example := C103_roundtrip_gray (picture 3 2 fun x y => BitVec.ofNat 8 (100 * x + y)) (picture_wf ..) (by decide)

/-- What the code converts: more than -1 and less than 256. -/
theorem toU8_in {a : ℝ} (h0 : -1 < a) (h1 : a < 256) :
    toU8 a = .ok (BitVec.ofNat 8 ⌊a⌋₊) ∧ (BitVec.ofNat 8 ⌊a⌋₊).toNat = ⌊a⌋₊ := by
  refine ⟨if_pos ⟨h0, h1⟩, ?_⟩
  rw [BitVec.toNat_ofNat, Nat.mod_eq_of_lt]
  rcases le_or_gt 0 a with h | h
  · exact (Nat.floor_lt h).2 (by exact_mod_cast h1)
  · rw [Nat.floor_of_nonpos h.le]; norm_num

theorem toU8_out {a : ℝ} (h : a ≤ -1 ∨ 256 ≤ a) : toU8 a = .ub :=
  if_neg fun hh => by rcases h with h | h <;> linarith [hh.1, hh.2]

/-- The other way each channel is cut off after the whole number (towards zero), when all are more than -1 and less
than 256. Missing: other channel values, see `C103_range_violation`. -/
theorem C103_truncate_partial (im : Image (Px3 ℝ)) (wf : im.WF) (h0 : 0 < im.size.prod)
    (hr : ∀ p ∈ im.data, (-1 < p.c0 ∧ p.c0 < 256) ∧ (-1 < p.c1 ∧ p.c1 < 256) ∧ -1 < p.c2 ∧ p.c2 < 256) :
    ∃ out, im2uint8 im = .ok out ∧ out.WF ∧ out.size = im.size ∧
      ∀ idx p, im.at' idx = .ok p → ∃ q, out.at' idx = .ok q ∧
        chan q 0 = ⌊p.c0⌋₊ ∧ chan q 1 = ⌊p.c1⌋₊ ∧ chan q 2 = ⌊p.c2⌋₊ := by
  have hp : ∀ p ∈ im.data, ∃ q, pack p.c0 p.c1 p.c2 = .ok q ∧
      chan q 0 = ⌊p.c0⌋₊ ∧ chan q 1 = ⌊p.c1⌋₊ ∧ chan q 2 = ⌊p.c2⌋₊ := fun p hm => by
    obtain ⟨a, b, c⟩ := hr p hm
    obtain ⟨e1, f1⟩ := toU8_in a.1 a.2
    obtain ⟨e2, f2⟩ := toU8_in b.1 b.2
    obtain ⟨e3, f3⟩ := toU8_in c.1 c.2
    exact ⟨⟨_, _, _⟩, by rw [pack, e1, e2, e3]; rfl, f1, f2, f3⟩
  obtain ⟨out, e2, w2, s2, p2⟩ := convertAll_pixelwise (op := fun p => pack p.c0 p.c1 p.c2) wf h0
    (fun p hm => (hp p hm).imp fun q h => h.1)
  refine ⟨out, e2, w2, s2, fun idx p h => ?_⟩
  obtain ⟨q, hq, hc⟩ := hp p (mem_of_at wf h)
  exact ⟨q, (p2 idx _ h).trans hq, hc⟩

example := C103_truncate_partial ⟨[2, 1], [⟨1 / 2, 255.5, -0.5⟩, ⟨7, 0, 3⟩]⟩ ⟨rfl, by decide, by decide⟩ (by decide)
  (by intro p hp; simp at hp; rcases hp with rfl | rfl <;> norm_num)

/-- The same for grey images of floating-point numbers. Missing: other values, see `C103_range_gray_violation`. -/
theorem C103_truncate_gray_partial (im : Image ℝ) (wf : im.WF) (h0 : 0 < im.size.prod)
    (hr : ∀ v ∈ im.data, -1 < v ∧ v < 256) :
    ∃ out, im2uint8Gray im = .ok out ∧ out.WF ∧ out.size = im.size ∧
      ∀ idx v, im.at' idx = .ok v → ∃ q, out.at' idx = .ok q ∧ q.toNat = ⌊v⌋₊ := by
  obtain ⟨out, e2, w2, s2, p2⟩ := convertAll_pixelwise (op := toU8) wf h0
    (fun p hm => ⟨_, (toU8_in (hr p hm).1 (hr p hm).2).1⟩)
  refine ⟨out, e2, w2, s2, fun idx v h => ?_⟩
  obtain ⟨hq, hc⟩ := toU8_in (hr v (mem_of_at wf h)).1 (hr v (mem_of_at wf h)).2
  exact ⟨_, (p2 idx _ h).trans hq, hc⟩

example := C103_truncate_gray_partial ⟨[3, 1], [1 / 2, 255.5, -0.5]⟩ ⟨rfl, by decide, by decide⟩ (by decide)
  (by intro p hp; simp at hp; rcases hp with rfl | rfl | rfl <;> norm_num)

/-- Violation: a channel of -1 or less, or of 256 or more, makes the behaviour undefined. -/
theorem C103_range_violation (im : Image (Px3 ℝ))
    (hbad : ∃ p ∈ im.data, (p.c0 ≤ -1 ∨ 256 ≤ p.c0) ∨ (p.c1 ≤ -1 ∨ 256 ≤ p.c1) ∨ (p.c2 ≤ -1 ∨ 256 ≤ p.c2)) :
    im2uint8 im = .ub := by
  rw [im2uint8, convertAll, mapM_ub, Res.ub_bind]
  · exact fun v _ => pack_cases _ _ _
  · obtain ⟨p, hp, h⟩ := hbad
    refine ⟨p, hp, ?_⟩
    rcases h with h | h | h
    · simp only [pack, toU8_out h, Res.ub_bind]
    · rcases toU8_cases p.c0 with ⟨x, hx⟩ | hx <;> simp [pack, hx, toU8_out h]
    · rcases toU8_cases p.c0 with ⟨x, hx⟩ | hx <;> rcases toU8_cases p.c1 with ⟨y, hy⟩ | hy <;>
        simp [pack, hx, hy, toU8_out h]

/-- The same for grey images of floating-point numbers. -/
theorem C103_range_gray_violation (im : Image ℝ) (hbad : ∃ v ∈ im.data, v ≤ -1 ∨ 256 ≤ v) :
    im2uint8Gray im = .ub := by
  rw [im2uint8Gray, convertAll, mapM_ub, Res.ub_bind]
  · exact fun v _ => toU8_cases _
  · obtain ⟨p, hp, h⟩ := hbad
    exact ⟨p, hp, toU8_out h⟩

/-- Violation: images without pixels are refused. -/
theorem C103_empty_violation (sz : List Nat) : im2double ⟨sz, []⟩ = .throw .runtime ∧
    im2uint8 ⟨sz, []⟩ = .throw .runtime :=
  ⟨rfl, rfl⟩

example : ∀ p ∈ ([⟨1.5, -0.5, 255.9⟩] : List (Px3 ℝ)),
    (-1 < p.c0 ∧ p.c0 < 256) ∧ (-1 < p.c1 ∧ p.c1 < 256) ∧ -1 < p.c2 ∧ p.c2 < 256 := by
  intro p hp
  simp only [List.mem_cons, List.not_mem_nil, or_false] at hp
  subst hp
  norm_num

/-! ## C104 `Grayscale2RGB` -/

/-- Every grey level gets a fully saturated colour of full brightness. -/
theorem C104_vivid (g : BitVec 8) :
    ∃ q, grayscale2RGB g = .ok q ∧ brightest q = 255 ∧ darkest q = 0 := by
  refine ⟨_, grayscale2RGB_eq g, ?_⟩
  have : ∀ n, n < 256 → brightest (grayColour n) = 255 ∧ darkest (grayColour n) = 0 := by
    decide +kernel
  exact this _ g.isLt

/-- Different grey levels get different colours. -/
theorem C104_injective (g g' : BitVec 8) (h : grayscale2RGB g = grayscale2RGB g') : g = g' := by
  rw [grayscale2RGB_eq, grayscale2RGB_eq] at h
  injection h with h
  have : ∀ n, n < 256 → ∀ m, m < 256 → grayColour n = grayColour m → n = m := by decide +kernel
  exact BitVec.eq_of_toNat_eq (this _ g.isLt _ g'.isLt h)

example := C104_injective 7 7 rfl

/-- Whole images, pixel by pixel. -/
theorem C104_image (im : Image (BitVec 8)) (wf : im.WF) (h0 : 0 < im.size.prod) :
    ∃ out, grayscale2RGBImage im = .ok out ∧ out.WF ∧ out.size = im.size ∧
      ∀ idx g, im.at' idx = .ok g → out.at' idx = grayscale2RGB g := by
  obtain ⟨out, e2, w2, s2, p2⟩ := convertAll_pixelwise (op := grayscale2RGB) wf h0
    fun g _ => ⟨_, grayscale2RGB_eq g⟩
  exact ⟨out, e2, w2, s2, p2⟩

example := C104_image (picture 3 2 fun x y => BitVec.ofNat 8 (100 * x + y)) (picture_wf ..) (by decide)

end TinyDIP.Props
