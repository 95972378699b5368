import Verif.Lemmas.Samples
import Verif.Lemmas.Samples
import Verif.Lemmas.SiftOri

/-!
# Orientation histograms and descriptors: C86, C87
-/

namespace TinyDIP.Props

open TinyDIP Image Sift

/-! ## C86 get_orientation_histogram -/

/-- Every image and every point at least `block` away from the left and top borders: the histogram has
37 bins, every pixel of the image in the window of `2 * block + 1` pixels a side has a bin, and each
bin holds the sum of the gradient lengths of the pixels whose direction, divided by ten degrees,
falls in it. Missing: points nearer to the left or top border. -/
theorem C86_histogram_partial {im : Image ℝ} {W H : Nat} {f : Nat → Nat → ℝ} (s : im.Shows W H f)
    (hW : W < 2 ^ 64 - 2) (hH : H < 2 ^ 64 - 2) {px py block : Nat} (hx : block ≤ px) (hy : block ≤ py)
    (hx' : px + block < 2 ^ 64) (hy' : py + block < 2 ^ 64) :
    (∀ x y, ⌊direction f W H x y / 10⌋₊ < 37) ∧
    ∃ hist, orientationHistogram im px py block = .ok hist ∧ hist.length = 37 ∧
      ∀ b < 37, hist.getD b 0 = ∑ y ∈ Finset.Icc (py - block) (py + block),
        ∑ x ∈ Finset.Icc (px - block) (px + block), share f W H (fun d => ⌊d / 10⌋₊) b x y :=
  ⟨fun x y => bin10 f W H x y, orientationHistogram_ok s hW hH hx hy hx' hy'⟩

example := C86_histogram_partial (picture_shows 5 4 (fun x y => ((x * x + 3 * y : ℕ) : ℝ))) (by norm_num) (by norm_num)
  (px := 2) (py := 2) (block := 1) (by norm_num) (by norm_num) (by norm_num) (by norm_num)

/-- The property fails for every point nearer than `block` to the left or the top border, whatever the
image: the start of a loop wraps around, no pixel is visited and the histogram is empty. -/
theorem C86_border_violation {im : Image ℝ} (hd : im.dim = 2) {px py block : Nat}
    (hxy : px < block ∨ py < block) (hb : block < 2 ^ 63) :
    orientationHistogram im px py block = .ok (List.replicate 37 0) :=
  orientationHistogram_border hd hxy hb

/-- An image with a gradient of length 1 at the point (1, 1): a pixel to the right of it. -/
noncomputable def edgeAt (x y : Nat) : ℝ := if x = 2 ∧ y = 1 then 1 else 0

/-- The missed pixels matter: around the point (1, 1) of a 20 x 20 image with a bright pixel at (2, 1),
the share of (1, 1) itself in bin 18 is 1, and with `block = 2` the histogram says 0. -/
theorem C86_border_matters {im : Image ℝ} (s : im.Shows 20 20 edgeAt) :
    share edgeAt 20 20 (fun d => ⌊d / 10⌋₊) 18 1 1 = 1 ∧
    orientationHistogram im 1 1 2 = .ok (List.replicate 37 0) := by
  refine ⟨?_, C86_border_violation s.dim (Or.inl (by omega)) (by omega)⟩
  have hx : diffX edgeAt 20 1 1 = 1 := by simp [diffX, edgeAt]
  have hy : diffY edgeAt 20 1 1 = 0 := by simp [diffY, edgeAt]
  have hd : direction edgeAt 20 20 1 1 = 180 := by
    unfold direction
    rw [hx, hy]
    have : (⟨1, 0⟩ : ℂ) = 1 := rfl
    rw [this]
    simp
  have hm : magnitude edgeAt 20 20 1 1 = 1 := by
    unfold magnitude
    rw [hx, hy]
    simp
  unfold share
  rw [hd, hm, if_pos]
  refine ⟨by omega, by omega, ?_⟩
  norm_num

/-- The hypotheses are met. -/
example : (Image.ofSizes (0 : ℝ) [20, 20]).Shows 20 20 (fun _ _ => 0) ∧ 3 ≤ 5 :=
  ⟨ofSizes_shows 0 (by omega) (by omega) (by omega), by omega⟩

/-! ## C87 get_keypoint_descriptor -/

/-- Every image and every key point at least `block` (8 by default) away from the left and top borders:
the descriptor has 128 entries; entry `b` of subregion `(sx, sy)` is the sum of the gradient lengths of
the pixels of that 4 x 4 subregion of the neighbourhood whose direction is in the `b`-th 45 degree
sector. Missing: key points nearer to the left or top border. -/
theorem C87_descriptor_partial {im : Image ℝ} {W H : Nat} {f : Nat → Nat → ℝ} (s : im.Shows W H f)
    (hW : W < 2 ^ 64 - 2) (hH : H < 2 ^ 64 - 2) {cx cy block : Nat} (h8 : 8 ≤ block) (hx : block ≤ cx)
    (hy : block ≤ cy) (hx' : cx + block + block < 2 ^ 64) (hy' : cy + block + block < 2 ^ 64)
    (hb : 2 * block * (2 * block) < 2 ^ 64) :
    ∃ d, keypointDescriptor im cx cy block = .ok d ∧ d.length = 128 ∧
      ∀ sx sy b, sx < 4 → sy < 4 → b < 8 → d.getD ((sx + 4 * sy) * 8 + b) 0 =
        ∑ j ∈ Finset.range 4, ∑ i ∈ Finset.range 4,
          share f W H (fun d => min 7 ⌊d / 45⌋₊) b (cx - block + (sx * 4 + i)) (cy - block + (sy * 4 + j)) := by
  obtain ⟨ori, e, so⟩ := neighbourhood_ok s hW hH hx hy hx' hy' hb
  exact descriptor_of_ori e so (by omega)

example := C87_descriptor_partial (picture_shows 20 20 (fun x y => ((x * x + 3 * y : ℕ) : ℝ))) (by norm_num) (by norm_num)
  (cx := 9) (cy := 10) (block := 8) (by norm_num) (by norm_num) (by norm_num) (by norm_num) (by norm_num) (by norm_num)

/-- No entry is negative. -/
theorem C87_nonneg {im : Image ℝ} {W H : Nat} {f : Nat → Nat → ℝ} (s : im.Shows W H f)
    (hW : W < 2 ^ 64 - 2) (hH : H < 2 ^ 64 - 2) {cx cy block : Nat} (h8 : 8 ≤ block) (hx : block ≤ cx)
    (hy : block ≤ cy) (hx' : cx + block + block < 2 ^ 64) (hy' : cy + block + block < 2 ^ 64)
    (hb : 2 * block * (2 * block) < 2 ^ 64) :
    ∃ d, keypointDescriptor im cx cy block = .ok d ∧ ∀ k < 128, 0 ≤ d.getD k 0 := by
  obtain ⟨d, e, _, v⟩ := C87_descriptor_partial s hW hH h8 hx hy hx' hy' hb
  refine ⟨d, e, fun k hk => ?_⟩
  have : k = (k / 8 % 4 + 4 * (k / 8 / 4)) * 8 + k % 8 := by omega
  rw [this, v _ _ _ (by omega) (by omega) (by omega)]
  refine Finset.sum_nonneg fun j _ => Finset.sum_nonneg fun i _ => ?_
  unfold share
  split
  · exact magnitude_nonneg _ _ _ _ _
  · exact le_refl _

example := C87_nonneg (picture_shows 20 20 (fun x y => ((x * x + 3 * y : ℕ) : ℝ))) (by norm_num) (by norm_num)
  (cx := 9) (cy := 10) (block := 8) (by norm_num) (by norm_num) (by norm_num) (by norm_num) (by norm_num) (by norm_num)

/-- The property fails for every key point nearer than `block` to the left or top border: its
descriptor is zero, whatever the image, so all such key points match each other. -/
theorem C87_border_violation (im : Image ℝ) {cx cy block : Nat} (h8 : 8 ≤ block)
    (hxy : cx < block ∨ cy < block) (hb : 2 * block * (2 * block) < 2 ^ 64) :
    ∃ d, keypointDescriptor im cx cy block = .ok d ∧ d.length = 128 ∧ ∀ k < 128, d.getD k 0 = 0 := by
  have hb' : block < 2 ^ 32 := by
    by_contra h
    have : 2 ^ 32 ≤ block := by omega
    have := Nat.mul_le_mul (Nat.mul_le_mul_left 2 this) (Nat.mul_le_mul_left 2 this)
    omega
  have empty : ∀ p, p < block → upToExcl (wsub p block) (wadd p block) = [] := by
    intro p hp
    unfold upToExcl
    rw [wsub_of_gt hp (by omega), wadd_of_lt (by omega), show p + block - (p + 2 ^ 64 - block) = 0 by omega]
    rfl
  have e : neighbourhoodOrientations im cx cy block =
      .ok (Image.ofSizes (0, 0) [2 * block, 2 * block]) := by
    unfold neighbourhoodOrientations
    rw [wmul_of_lt (by omega), Nat.mul_comm block 2]
    rcases hxy with h | h
    · rw [empty cx h]
      exact loop_id _ _ (fun _ _ _ => rfl) _
    · rw [empty cy h]
      rfl
  have so : (Image.ofSizes ((0 : ℝ), (0 : ℝ)) [2 * block, 2 * block]).Shows (2 * block) (2 * block)
      (oriAt (fun _ _ => 0) 0 0 0 0) :=
    (ofSizes_shows (0, 0) (by omega) (by omega) hb).congr fun i j _ _ => by simp [oriAt]
  obtain ⟨d, e', n, v⟩ := descriptor_of_ori e so (by omega)
  refine ⟨d, e', n, fun k hk => ?_⟩
  have : k = (k / 8 % 4 + 4 * (k / 8 / 4)) * 8 + k % 8 := by omega
  rw [this, v _ _ _ (by omega) (by omega) (by omega)]
  refine Finset.sum_eq_zero fun j _ => Finset.sum_eq_zero fun i _ => ?_
  simp [share]

/-- The hypotheses are met with the default block size, inside and near the border. -/
example : (Image.ofSizes (0 : ℝ) [40, 40]).Shows 40 40 (fun _ _ => 0) ∧ 8 ≤ 20 ∧ 3 < 8 ∧
    2 * 8 * (2 * 8) < 2 ^ 64 :=
  ⟨ofSizes_shows 0 (by omega) (by omega) (by omega), by omega, by omega, by omega⟩

end TinyDIP.Props
