import Verif.Lemmas.Samples
import Verif.Lemmas.StitchCanvas
import Mathlib.Data.Rat.Floor

/-!
# C55, C56, C89, C90, C91: warping and stitching
-/

namespace TinyDIP.Stitch

open TinyDIP Mat

section
variable {K : Type} [Field K] [LinearOrder K] [IsStrictOrderedRing K] {α : Type}

/-! ## C55 -/

/-- Warping with an execution policy and homography `M` gives the image that warping without one gives for the inverse
of `M`: pixel `(x, y)` shows the source at the point `N (x, y)`, with `N` the inverse. No pixel may have a denominator
of exactly `eps`. The property (the same image for the same homography) holds when `M` is its own inverse; it fails in
general, see below. Missing: the same result for the same homography, see `C55_warp_violation`. -/
theorem C55_warp_partial (zero : α) {δ eps : K} (hδ : 0 < δ) {interp : K → K → Res α} {g : K → K → α}
    (hi : ∀ x y, interp x y = .ok (g x y)) {H : Mat K} {M : Matrix (Fin 3) (Fin 3) K} (hH : H.Is M)
    (hdet : δ ≤ |M.det|) {w h : Nat} (hw : w < 2 ^ 64) (hh : h < 2 ^ 64) (hwh : w * h < 2 ^ 64)
    {order : List (Nat × Nat)} (ho : order.Perm (iterYX w h)) {orderP : List Nat}
    (hp : orderP.Perm (List.range (w * h))) :
    ∃ (R : Mat K) (N : Matrix (Fin 3) (Fin 3) K), R.Is N ∧ N * M = 1 ∧ M * N = 1 ∧
      ((∀ x y, x < w → y < h → |homog N (x : K) (y : K) 2| ≠ eps) →
        ∃ out, warpPolicy zero (fun d => decide (|d| < δ)) eps interp H w h orderP = .ok out ∧
          warpSeq zero eps interp R w h order = .ok out ∧
          (M * M = 1 → warpSeq zero eps interp H w h order = .ok out) ∧
          out.Shows w h (fun x y => if |homog N (x : K) (y : K) 2| < eps then zero
            else g (project N (x : K) (y : K)).1 (project N (x : K) (y : K)).2)) := by
  obtain ⟨R, N, eR, hR, h1, h2⟩ := (C29_inverse δ hδ hH).2 hdet
  refine ⟨R, N, hR, h1, h2, fun hne => ?_⟩
  obtain ⟨out, e, so⟩ := warpPolicy_shows zero eps hi hH eR hR hw hh hwh hp
  obtain ⟨out', e', so'⟩ := warpSeq_shows zero eps hi hR hw hh hwh ho
  have : out = out' := so.ext so' fun x y hx hy => by
    have hne := hne x y hx hy
    by_cases hc : |homog N (x : K) (y : K) 2| < eps
    · rw [if_pos hc, if_pos hc.le]
    · rw [if_neg hc, if_neg]
      intro hle
      exact hne (le_antisymm hle (not_lt.1 hc))
  subst this
  refine ⟨out, e, e', fun hMM => ?_, so'⟩
  have hN : N = M := by
    calc N = N * (M * M) := by rw [hMM, mul_one]
      _ = M := by rw [← Matrix.mul_assoc, h1, one_mul]
  rw [hH.unique (hN ▸ hR)]
  exact e'

/-- A nearly singular homography: with an execution policy the result is blank. -/
theorem C55_singular (zero : α) {δ eps : K} (hδ : 0 < δ) (interp : K → K → Res α) {H : Mat K}
    {M : Matrix (Fin 3) (Fin 3) K} (hH : H.Is M) (hdet : |M.det| < δ) (w h : Nat) (orderP : List Nat) :
    warpPolicy zero (fun d => decide (|d| < δ)) eps interp H w h orderP = .ok (Image.ofSizes zero [w, h]) := by
  obtain ⟨E, e, hE⟩ := (C29_inverse δ hδ hH).1 hdet
  unfold warpPolicy
  rw [isEmpty_false hH]
  simp only [Bool.false_eq_true, if_false, e, Res.ok_bind, hE, if_true]

example := C55_singular (α := ℚ) 0 (δ := 1 / 1000) (eps := 1 / 1000) (by norm_num) (fun x _ => .ok x)
  (H := (⟨3, 3, [0, 0, 0, 0, 0, 0, 0, 0, 0]⟩ : Mat ℚ)) (M := 0)
  ⟨rfl, rfl, rfl, by norm_num, fun i j => by fin_cases i <;> fin_cases j <;> rfl⟩ (by rw [Matrix.det_zero]; norm_num)
  4 3 [0]

end

/-- The homography "one pixel to the right". -/
def moveRight : Mat ℚ := ⟨3, 3, [1, 0, 1, 0, 1, 0, 0, 0, 1]⟩
/-- The mirror image of a picture two pixels wide: its own inverse. -/
def mirrorX : Mat ℚ := ⟨3, 3, [-1, 0, 1, 0, 1, 0, 0, 0, 1]⟩

/-- The same homography, two different images: the version with an execution policy moves the picture
the other way. Here the pixel values are the x coordinates that are looked up. -/
theorem C55_warp_violation :
    warpSeq (0 : ℚ) (1 / 1000) (fun x _ => .ok x) moveRight 2 1 [(0, 0), (1, 0)] = .ok ⟨[2, 1], [1, 2]⟩ ∧
    warpPolicy (0 : ℚ) (fun d => decide (|d| < 1 / 1000)) (1 / 1000) (fun x _ => .ok x) moveRight 2 1 [0, 1] =
      .ok ⟨[2, 1], [-1, 0]⟩ := by decide +kernel

example : warpSeq (0 : ℚ) (1 / 1000) (fun x _ => .ok x) mirrorX 2 1 [(0, 0), (1, 0)] = .ok ⟨[2, 1], [1, 0]⟩ ∧
    warpPolicy (0 : ℚ) (fun d => decide (|d| < 1 / 1000)) (1 / 1000) (fun x _ => .ok x) mirrorX 2 1 [0, 1] =
      .ok ⟨[2, 1], [1, 0]⟩ := by decide +kernel
theorem moveRight_is : moveRight.Is !![1, 0, 1; 0, 1, 0; 0, 0, 1] := by
  refine ⟨rfl, rfl, rfl, by norm_num, ?_⟩
  intro i j
  fin_cases i <;> fin_cases j <;> decide +kernel
example : (1 / 1000 : ℚ) ≤ |(!![1, 0, 1; 0, 1, 0; 0, 0, 1] : Matrix (Fin 3) (Fin 3) ℚ).det| := by
  rw [Matrix.det_fin_three]; simp; norm_num

/-! ## Stitching: the common hypotheses -/

section
variable {K : Type} [Field K] [LinearOrder K] [IsStrictOrderedRing K] [FloorRing K]

/-- The inputs of `create_stitched_image`: image 1 of size `w1` × `h1` with pixels `f1`, image 2 of size `w2` × `h2`,
the interpolated values `g` of image 2, and an invertible homography `M` from image 1 to image 2 with
inverse `N`. The corners of image 2 are sent to finite points; `Bx`, `By` bound the canvas. Image 2 sticks out
of image 1 by less than one pixel at the left and at the top (see `C56_offset_violation` for the other
case). -/
structure Scene (δ : K) (interp : Image Rgb → K → K → Res Rgb) (img1 img2 : Image Rgb) (Hin : Mat K)
    (w1 h1 w2 h2 Bx By : Nat) (f1 : Nat → Nat → Rgb) (g : K → K → Rgb) (M N : Matrix (Fin 3) (Fin 3) K) : Prop where
  pos : 0 < δ
  image1 : img1.Shows w1 h1 f1
  image2 : ∃ f2, img2.Shows w2 h2 f2
  width2 : 1 ≤ w2
  height2 : 1 ≤ h2
  bytes1 : ∀ x y, x < w1 → y < h1 → Byte3 (f1 x y)
  values : ∀ x y, interp img2 x y = .ok (g x y)
  bytes2 : ∀ x y, Byte3 (g x y)
  hom : Hin.Is M
  inverse : N * M = 1
  det : δ ≤ |M.det|
  detN : δ ≤ |N.det|
  finite : ∀ c ∈ corners w2 h2, homog N (c.1 : K) (c.2 : K) 2 ≠ 0
  fits : (Bx + 1) * (By + 1) < 2 ^ 64
  inX : w1 ≤ Bx
  inY : h1 ≤ By
  inside : ∀ c ∈ corners w2 h2, -1 < (project N (c.1 : K) (c.2 : K)).1 ∧ (project N (c.1 : K) (c.2 : K)).1 ≤ Bx ∧
    -1 < (project N (c.1 : K) (c.2 : K)).2 ∧ (project N (c.1 : K) (c.2 : K)).2 ≤ By

/-- The orders in which parallel loops visit their iterations. -/
structure Orders (orderW orderB orderB' : Nat → Nat → List (Nat × Nat)) (orderP : Nat → List Nat) : Prop where
  w : ∀ a b, (orderW a b).Perm (iterYX a b)
  b : ∀ a b, (orderB a b).Perm (iterYX a b)
  b' : ∀ a b, (orderB' a b).Perm (iterYX a b)
  p : ∀ n, (orderP n).Perm (List.range n)

variable {δ eps : K} {interp : Image Rgb → K → K → Res Rgb} {img1 img2 : Image Rgb} {Hin : Mat K}
  {w1 h1 w2 h2 Bx By : Nat} {f1 : Nat → Nat → Rgb} {g : K → K → Rgb} {M N : Matrix (Fin 3) (Fin 3) K}
  {orderW orderB orderB' : Nat → Nat → List (Nat × Nat)} {orderP : Nat → List Nat}

/-- The stitched image is the same with and without an execution policy, and for every order of the parallel loops,
when image 2 does not stick out at the left or at the top (and no denominator is exactly `eps`). See below for the
other case. Missing: scenes in which image 2 sticks out there, see `C55_stitch_violation`. -/
theorem C55_stitch_partial (sc : Scene δ interp img1 img2 Hin w1 h1 w2 h2 Bx By f1 g M N)
    (os : Orders orderW orderB orderB' orderP)
    (hnn : ∀ c ∈ corners w2 h2, 0 ≤ (project N (c.1 : K) (c.2 : K)).1 ∧ 0 ≤ (project N (c.1 : K) (c.2 : K)).2)
    (hne : ∀ x y, x ≤ Bx → y ≤ By → |homog M (x : K) (y : K) 2| ≠ eps) :
    ∃ out, createStitched (fun d => decide (|d| < δ)) eps interp orderW orderB img1 img2 Hin = .ok out ∧
      createStitchedPolicy (fun d => decide (|d| < δ)) eps interp orderP orderB' img1 img2 Hin = .ok out := by
  obtain ⟨f2, s2⟩ := sc.image2
  obtain ⟨s, ow, oh, out, out', hs, -, -, -, -, uow, uoh, -, -, e, so, e', so'⟩ := stitched_ok (eps := eps) sc.pos
    sc.image1 s2 sc.width2 sc.height2 sc.bytes1 sc.values sc.bytes2 sc.hom sc.inverse sc.det sc.detN sc.finite
    sc.fits sc.inX sc.inY sc.inside os.w os.b os.b' os.p
  have x0 : s.1 = 0 := by
    rcases hs.ax with h | ⟨c, hc, h⟩
    · exact h
    · exact le_antisymm hs.x0 (h ▸ (hnn c hc).1)
  have y0 : s.2.2.1 = 0 := by
    rcases hs.ay with h | ⟨c, hc, h⟩
    · exact h
    · exact le_antisymm hs.y0 (h ▸ (hnn c hc).2)
  rw [x0, y0] at so so'
  have : out = out' := so.ext so' fun x y hx hy => by
    have hw : warpedSeq eps M g (-0) (-0) x y = warpedPolicy eps M g (-0) (-0) x y := by
      have hshift : shift (-0 : K) (-0) = 1 := by
        ext i j
        fin_cases i <;> fin_cases j <;> simp [shift]
      have hne := hne x y (by omega) (by omega)
      unfold warpedSeq warpedPolicy
      rw [hshift, one_mul]
      simp only [neg_zero, sub_zero]
      by_cases hc : |homog M (x : K) (y : K) 2| < eps
      · rw [if_pos hc, if_pos hc.le]
      · rw [if_neg hc, if_neg]
        intro hle
        exact hne (le_antisymm hle (not_lt.1 hc))
    unfold canvasPixel
    rw [hw]
  subst this
  exact ⟨out, e, e'⟩

/-! ## C56 -/

/-- Every sample of `p` lies between those of `a` and `b`. -/
def Between (p a b : Rgb) : Prop :=
  (min a.1 b.1 ≤ p.1 ∧ p.1 ≤ max a.1 b.1) ∧ (min a.2.1 b.2.1 ≤ p.2.1 ∧ p.2.1 ≤ max a.2.1 b.2.1) ∧
    (min a.2.2 b.2.2 ≤ p.2.2 ∧ p.2.2 ≤ max a.2.2 b.2.2)

/-- Some sample is larger than 5. -/
def Lit (p : Rgb) : Prop := 5 < p.1 ∨ 5 < p.2.1 ∨ 5 < p.2.2

theorem hasContent_iff (p : Rgb) : hasContent p = true ↔ Lit p := by
  unfold hasContent Lit
  simp [or_assoc]

/-- A canvas moved by less than one pixel: where image 1 covers the canvas, the result is a pixel of
image 1 less than a pixel away, or lies between it and the warped image 2 when that is lit; elsewhere it is
the warped image 2 when that is lit, and black otherwise. Nothing outside the images is read. Missing
from the property: pixels of image 2 that are not lit, and larger offsets. -/
theorem C56_blend_partial {warped : Image Rgb} {ow oh : Nat} {fw : Nat → Nat → Rgb} (s1 : img1.Shows w1 h1 f1)
    (sw : warped.Shows ow oh fw) (b1 : ∀ x y, x < w1 → y < h1 → Byte3 (f1 x y))
    (bw : ∀ x y, x < ow → y < oh → Byte3 (fw x y)) {tx ty : K} (htx : 0 ≤ tx) (hty : 0 ≤ ty) (hx1 : tx < 1)
    (hy1 : ty < 1) (hbx : tx + w1 < 2 ^ 64) (hby : ty + h1 < 2 ^ 64) {order : List (Nat × Nat)}
    (ho : order.Perm (iterYX ow oh)) :
    ∃ out fo, blend img1 warped tx ty ow oh order = .ok out ∧ out.Shows ow oh fo ∧
      ∀ x y, x < ow → y < oh →
        (x < w1 ∧ y < h1 → ∃ x' y', x' < w1 ∧ y' < h1 ∧ |(x' : K) - (x - tx)| < 1 ∧ |(y' : K) - (y - ty)| < 1 ∧
          (tx = 0 → x' = x) ∧ (ty = 0 → y' = y) ∧
          (Lit (fw x y) → Between (fo x y) (f1 x' y') (fw x y)) ∧ (¬ Lit (fw x y) → fo x y = f1 x' y')) ∧
        (¬ (x < w1 ∧ y < h1) → (Lit (fw x y) → fo x y = fw x y) ∧ (¬ Lit (fw x y) → fo x y = (0, 0, 0))) := by
  obtain ⟨out, e, so⟩ := blend_shows s1 sw b1 bw htx hty hx1 hy1 hbx hby ho
  refine ⟨out, _, e, so, ?_⟩
  have hcov : ∀ (t : K) (n x : Nat), 0 ≤ t → t < 1 → (covers t n x = true ↔ x < n) := by
    intro t n x h0 h1
    have : ⌊t⌋ = 0 := Int.floor_eq_zero_iff.2 ⟨h0, h1⟩
    unfold covers
    simp [this]
  have hnear : ∀ (t : K) (x : Nat), 0 ≤ t → t < 1 → |(back t x : K) - (x - t)| < 1 ∧ (t = 0 → back t x = x) := by
    intro t x h0 h1
    constructor
    · unfold back
      by_cases hn : 0 ≤ (x : K) - t
      · have e : ((⌊(x : K) - t⌋.toNat : Nat) : K) = (⌊(x : K) - t⌋ : K) := by
          have : ((⌊(x : K) - t⌋.toNat : Int) : K) = (⌊(x : K) - t⌋ : K) := by
            rw [Int.toNat_of_nonneg (Int.floor_nonneg.2 hn)]
          exact_mod_cast this
        rw [e, abs_lt]
        have l1 := Int.floor_le ((x : K) - t)
        have l2 := Int.lt_floor_add_one ((x : K) - t)
        constructor <;> linarith
      · have hneg : ⌊(x : K) - t⌋ < 0 := by
          rw [Int.floor_lt]; push_cast; exact not_le.1 hn
        have e : ⌊(x : K) - t⌋.toNat = 0 := by omega
        rw [e, abs_lt]
        have : (0 : K) ≤ x := Nat.cast_nonneg _
        have hn' := not_le.1 hn
        push_cast
        constructor <;> linarith
    · intro ht
      unfold back
      rw [ht, sub_zero, Int.floor_natCast, Int.toNat_natCast]
  intro x y hx hy
  constructor
  · rintro ⟨hxw, hyh⟩
    have c1 := (hcov tx w1 x htx hx1).2 hxw
    have c2 := (hcov ty h1 y hty hy1).2 hyh
    have l1 := back_lt htx c1
    have l2 := back_lt hty c2
    refine ⟨back tx x, back ty y, l1, l2, (hnear tx x htx hx1).1, (hnear ty y hty hy1).1, (hnear tx x htx hx1).2,
      (hnear ty y hty hy1).2, ?_, ?_⟩
    · intro hl
      have hl' := (hasContent_iff _).2 hl
      unfold canvasPixel
      rw [c1, c2, hl']
      simp only [Bool.and_true, if_true]
      have w1pos : (0 : K) < w1 := by exact_mod_cast (by omega : 0 < w1)
      have a0 : (0 : K) ≤ ((back tx x : Nat) : K) / (w1 : K) := by positivity
      have a1 : ((back tx x : Nat) : K) / (w1 : K) ≤ 1 := by
        rw [div_le_one w1pos]; exact_mod_cast l1.le
      exact ⟨blend_between a0 a1, blend_between a0 a1, blend_between a0 a1⟩
    · intro hl
      have hl' : hasContent (fw x y) = false := by
        rw [← Bool.not_eq_true]; exact fun h => hl ((hasContent_iff _).1 h)
      unfold canvasPixel
      rw [c1, c2, hl']
      simp
  · intro hn
    have hc : (covers tx w1 x && covers ty h1 y) = false := by
      rw [← Bool.not_eq_true, Bool.and_eq_true]
      rintro ⟨a, b⟩
      exact hn ⟨(hcov tx w1 x htx hx1).1 a, (hcov ty h1 y hty hy1).1 b⟩
    constructor
    · intro hl
      have hl' := (hasContent_iff _).2 hl
      unfold canvasPixel
      rw [hc, hl']
      simp
    · intro hl
      have hl' : hasContent (fw x y) = false := by
        rw [← Bool.not_eq_true]; exact fun h => hl ((hasContent_iff _).1 h)
      unfold canvasPixel
      rw [hc, hl']
      simp

/-- A canvas moved by one pixel or more (image 2 sticks out at the left or at the top by that much), of
any size but empty, any contents, any order of the loop: undefined behaviour, the conversion of a
negative coordinate to an unsigned integer. -/
theorem C56_offset_violation {warped : Image Rgb} {ow oh : Nat} {fw : Nat → Nat → Rgb} (s1 : img1.Shows w1 h1 f1)
    (sw : warped.Shows ow oh fw) (b1 : ∀ x y, x < w1 → y < h1 → Byte3 (f1 x y))
    (bw : ∀ x y, x < ow → y < oh → Byte3 (fw x y)) {tx ty : K} (htx : 0 ≤ tx) (hty : 0 ≤ ty)
    (hge : 1 ≤ tx ∨ 1 ≤ ty) (hbx : tx + w1 < 2 ^ 64) (hby : ty + h1 < 2 ^ 64) (hw0 : 0 < ow) (hh0 : 0 < oh)
    {order : List (Nat × Nat)} (ho : order.Perm (iterYX ow oh)) :
    blend img1 warped tx ty ow oh order = .ub :=
  blend_ub s1 sw b1 bw htx hty hge hbx hby hw0 hh0 ho

/-! ## C89: the canvas -/

/-- Both versions return a canvas of the same size, on which the whole of image 1 and the four projected corners of
image 2 lie when moved by `(tx, ty)`; no smaller size would do. Missing: scenes in which image 2 sticks out by a pixel
or more at the left or at the top, which are undefined, see `C56_offset_violation`. -/
theorem C89_canvas_partial (sc : Scene δ interp img1 img2 Hin w1 h1 w2 h2 Bx By f1 g M N)
    (os : Orders orderW orderB orderB' orderP) :
    ∃ (ow oh : Nat) (tx ty : K) (out out' : Image Rgb) (fo fo' : Nat → Nat → Rgb),
      createStitched (fun d => decide (|d| < δ)) eps interp orderW orderB img1 img2 Hin = .ok out ∧
      out.Shows ow oh fo ∧
      createStitchedPolicy (fun d => decide (|d| < δ)) eps interp orderP orderB' img1 img2 Hin = .ok out' ∧
      out'.Shows ow oh fo' ∧
      0 ≤ tx ∧ tx < 1 ∧ 0 ≤ ty ∧ ty < 1 ∧ (w1 : K) + tx ≤ ow ∧ (h1 : K) + ty ≤ oh ∧
      (∀ c ∈ corners w2 h2, 0 ≤ (project N (c.1 : K) (c.2 : K)).1 + tx ∧
        (project N (c.1 : K) (c.2 : K)).1 + tx ≤ ow ∧ 0 ≤ (project N (c.1 : K) (c.2 : K)).2 + ty ∧
        (project N (c.1 : K) (c.2 : K)).2 + ty ≤ oh) ∧
      (tx = 0 ∨ ∃ c ∈ corners w2 h2, (project N (c.1 : K) (c.2 : K)).1 + tx = 0) ∧
      (ty = 0 ∨ ∃ c ∈ corners w2 h2, (project N (c.1 : K) (c.2 : K)).2 + ty = 0) ∧
      ((ow : K) < w1 + tx + 1 ∨ ∃ c ∈ corners w2 h2, (ow : K) < (project N (c.1 : K) (c.2 : K)).1 + tx + 1) ∧
      ((oh : K) < h1 + ty + 1 ∨ ∃ c ∈ corners w2 h2, (oh : K) < (project N (c.1 : K) (c.2 : K)).2 + ty + 1) := by
  obtain ⟨f2, s2⟩ := sc.image2
  obtain ⟨s, ow, oh, out, out', hs, mx, my, low, loh, -, -, vow, voh, e, so, e', so'⟩ := stitched_ok (eps := eps) sc.pos
    sc.image1 s2 sc.width2 sc.height2 sc.bytes1 sc.values sc.bytes2 sc.hom sc.inverse sc.det sc.detN sc.finite
    sc.fits sc.inX sc.inY sc.inside os.w os.b os.b' os.p
  have x0 := hs.x0
  have x1 := hs.x1
  have y0 := hs.y0
  have y1 := hs.y1
  refine ⟨ow, oh, -s.1, -s.2.2.1, out, out', _, _, e, so, e', so', by linarith, by linarith, by linarith, by linarith,
    by linarith, by linarith, ?_, ?_, ?_, ?_, ?_⟩
  · intro c hc
    obtain ⟨a, b⟩ := hs.xs c hc
    obtain ⟨a', b'⟩ := hs.ys c hc
    exact ⟨by linarith, by linarith, by linarith, by linarith⟩
  · rcases hs.ax with h | ⟨c, hc, h⟩
    · left; rw [h, neg_zero]
    · right; exact ⟨c, hc, by rw [← h]; ring⟩
  · rcases hs.ay with h | ⟨c, hc, h⟩
    · left; rw [h, neg_zero]
    · right; exact ⟨c, hc, by rw [← h]; ring⟩
  · rcases hs.bx with h | ⟨c, hc, h⟩
    · left; rw [← h]; linarith
    · right; exact ⟨c, hc, by rw [← h]; linarith⟩
  · rcases hs.by' with h | ⟨c, hc, h⟩
    · left; rw [← h]; linarith
    · right; exact ⟨c, hc, by rw [← h]; linarith⟩

/-! ## C90: where image 2 is shown -/

/-- With an execution policy: a canvas pixel that image 1 does not cover shows image 2 at the point to which
the homography sends the canvas position in the coordinates of image 1 (or black: when that value is
dark or the denominator nearly zero). Without one this is so when the canvas is not moved
(`C55_stitch_partial`), and not otherwise (`C90_registration_violation`). -/
theorem C90_registration_partial (sc : Scene δ interp img1 img2 Hin w1 h1 w2 h2 Bx By f1 g M N)
    (os : Orders orderW orderB orderB' orderP) :
    ∃ (ow oh : Nat) (tx ty : K) (out : Image Rgb) (fo : Nat → Nat → Rgb),
      createStitchedPolicy (fun d => decide (|d| < δ)) eps interp orderP orderB' img1 img2 Hin = .ok out ∧
      out.Shows ow oh fo ∧ 0 ≤ tx ∧ tx < 1 ∧ 0 ≤ ty ∧ ty < 1 ∧
      (tx = 0 ∨ ∃ c ∈ corners w2 h2, (project N (c.1 : K) (c.2 : K)).1 + tx = 0) ∧
      (ty = 0 ∨ ∃ c ∈ corners w2 h2, (project N (c.1 : K) (c.2 : K)).2 + ty = 0) ∧
      ∀ x y, x < ow → y < oh → ¬ (x < w1 ∧ y < h1) →
        eps < |homog M ((x : K) - tx) ((y : K) - ty) 2| →
        Lit (g (project M ((x : K) - tx) ((y : K) - ty)).1 (project M ((x : K) - tx) ((y : K) - ty)).2) →
        fo x y = g (project M ((x : K) - tx) ((y : K) - ty)).1 (project M ((x : K) - tx) ((y : K) - ty)).2 := by
  obtain ⟨f2, s2⟩ := sc.image2
  obtain ⟨s, ow, oh, out, out', hs, mx, my, low, loh, -, -, vow, voh, e, so, e', so'⟩ := stitched_ok (eps := eps) sc.pos
    sc.image1 s2 sc.width2 sc.height2 sc.bytes1 sc.values sc.bytes2 sc.hom sc.inverse sc.det sc.detN sc.finite
    sc.fits sc.inX sc.inY sc.inside os.w os.b os.b' os.p
  have x0 := hs.x0
  have y0 := hs.y0
  refine ⟨ow, oh, -s.1, -s.2.2.1, out', _, e', so', by linarith, by linarith, by linarith, by linarith, ?_, ?_, ?_⟩
  · rcases hs.ax with h | ⟨c, hc, h⟩
    · left; rw [h, neg_zero]
    · right; exact ⟨c, hc, by rw [← h]; ring⟩
  · rcases hs.ay with h | ⟨c, hc, h⟩
    · left; rw [h, neg_zero]
    · right; exact ⟨c, hc, by rw [← h]; ring⟩
  · intro x y hx hy hn hw hl
    have hwp : warpedPolicy eps M g (-s.1) (-s.2.2.1) x y =
        g (project M ((x : K) - -s.1) ((y : K) - -s.2.2.1)).1 (project M ((x : K) - -s.1) ((y : K) - -s.2.2.1)).2 := by
      unfold warpedPolicy
      rw [if_neg (not_le.2 hw)]
    have hcov : ∀ (t : K) (n x : Nat), 0 ≤ t → t < 1 → (covers t n x = true ↔ x < n) := by
      intro t n x h0 h1
      have : ⌊t⌋ = 0 := Int.floor_eq_zero_iff.2 ⟨h0, h1⟩
      unfold covers
      simp [this]
    have hc : (covers (-s.1) w1 x && covers (-s.2.2.1) h1 y) = false := by
      rw [← Bool.not_eq_true, Bool.and_eq_true]
      rintro ⟨a, b⟩
      exact hn ⟨(hcov _ w1 x (by linarith) (by linarith)).1 a, (hcov _ h1 y (by linarith) (by linarith)).1 b⟩
    have hl' := (hasContent_iff _).2 hl
    unfold canvasPixel
    rw [hc, hwp, hl']
    simp

end

/-! ## Concrete cases -/

/-- A picture one pixel wide and high, and one three pixels wide. -/
def redDot : Image Rgb := ⟨[1, 1], [(200, 0, 0)]⟩
def strip : Image Rgb := ⟨[3, 1], [(50, 0, 0), (60, 0, 0), (70, 0, 0)]⟩
/-- Lookup of `strip` at the whole number below, black outside. -/
def stripAt (x : ℚ) : Rgb :=
  if 0 ≤ x ∧ x < 1 then (50, 0, 0) else if 1 ≤ x ∧ x < 2 then (60, 0, 0) else if 2 ≤ x ∧ x < 3 then (70, 0, 0)
  else (0, 0, 0)
def stripInterp (_ : Image Rgb) (x _ : ℚ) : Res Rgb := .ok (stripAt x)
/-- The homographies "by half a pixel to the right" and "two pixels to the right". -/
def moveHalf : Mat ℚ := ⟨3, 3, [1, 0, 1 / 2, 0, 1, 0, 0, 0, 1]⟩
def moveTwo : Mat ℚ := ⟨3, 3, [1, 0, 2, 0, 1, 0, 0, 0, 1]⟩

/-- The stitched image depends on whether an execution policy is given: here image 1 is one pixel wide, and
image 2 sticks out by half a pixel at the left. -/
theorem C55_stitch_violation :
    createStitched (fun d => decide (|d| < 1 / 1000)) (1 / 1000) stripInterp iterYX iterYX redDot strip moveHalf =
      .ok ⟨[2, 1], [(200, 0, 0), (70, 0, 0)]⟩ ∧
    createStitchedPolicy (fun d => decide (|d| < 1 / 1000)) (1 / 1000) stripInterp List.range iterYX redDot strip
      moveHalf = .ok ⟨[2, 1], [(200, 0, 0), (60, 0, 0)]⟩ := by decide +kernel

/-- The version without execution policy shows the wrong part of image 2 when the canvas is moved: the
canvas pixel 1 lies at `1 - 1/2` of image 1, which the homography sends to 1, where image 2 is 60. -/
theorem C90_registration_violation :
    createStitched (fun d => decide (|d| < 1 / 1000)) (1 / 1000) stripInterp iterYX iterYX redDot strip moveHalf =
      .ok ⟨[2, 1], [(200, 0, 0), (70, 0, 0)]⟩ ∧
    project (!![1, 0, 1 / 2; 0, 1, 0; 0, 0, 1] : Matrix (Fin 3) (Fin 3) ℚ) (1 - 1 / 2) 0 = (1, 0) ∧
    stripAt 1 = (60, 0, 0) := by
  refine ⟨by decide +kernel, ?_, by decide +kernel⟩
  unfold project
  simp only [homog_eq]
  simp

/-- Stitching an image that lies two pixels further left: undefined behaviour. -/
theorem C56_stitch_violation :
    createStitched (fun d => decide (|d| < 1 / 1000)) (1 / 1000) stripInterp iterYX iterYX redDot strip moveTwo = .ub ∧
    createStitchedPolicy (fun d => decide (|d| < 1 / 1000)) (1 / 1000) stripInterp List.range iterYX redDot strip
      moveTwo = .ub := by decide +kernel

/-- A dark pixel of image 2, where image 1 does not cover the canvas, is not shown. -/
theorem C56_dark_violation :
    blend redDot ⟨[2, 1], [(5, 5, 5), (5, 5, 5)]⟩ (0 : ℚ) 0 2 1 (iterYX 2 1) =
      .ok ⟨[2, 1], [(200, 0, 0), (0, 0, 0)]⟩ := by decide +kernel

example : blend redDot ⟨[2, 1], [(50, 5, 5), (70, 5, 5)]⟩ (0 : ℚ) 0 2 1 (iterYX 2 1) =
    .ok ⟨[2, 1], [(200, 0, 0), (70, 5, 5)]⟩ := by decide +kernel

theorem moveHalf_is : moveHalf.Is !![1, 0, 1 / 2; 0, 1, 0; 0, 0, 1] := by
  refine ⟨rfl, rfl, rfl, by norm_num, ?_⟩
  intro i j
  fin_cases i <;> fin_cases j <;> decide +kernel

/-- A scene meeting the hypotheses. -/
theorem exampleScene : Scene (1 / 1000 : ℚ) stripInterp redDot strip moveHalf 1 1 3 1 5 5 (fun _ _ => (200, 0, 0))
    (fun x _ => stripAt x) !![1, 0, 1 / 2; 0, 1, 0; 0, 0, 1] !![1, 0, -(1 / 2); 0, 1, 0; 0, 0, 1] where
  pos := by norm_num
  image1 := Image.Shows.of_data (by norm_num) (by norm_num) (by norm_num) rfl rfl (by
    intro x y hx hy
    obtain rfl : x = 0 := by omega
    obtain rfl : y = 0 := by omega
    rfl)
  image2 := ⟨fun x _ => stripAt x, Image.Shows.of_data (by norm_num) (by norm_num) (by norm_num) rfl rfl (by
    intro x y hx hy
    obtain rfl : y = 0 := by omega
    interval_cases x <;> decide +kernel)⟩
  width2 := by norm_num
  height2 := by norm_num
  bytes1 := by intro x y _ _; simp [Byte3]
  values := fun x y => rfl
  bytes2 := by
    intro x y
    unfold stripAt
    split
    · simp [Byte3]
    · split
      · simp [Byte3]
      · split <;> simp [Byte3]
  hom := moveHalf_is
  inverse := by
    ext i j
    fin_cases i <;> fin_cases j <;> simp [Matrix.mul_apply, Fin.sum_univ_three]
  det := by rw [Matrix.det_fin_three]; simp; norm_num
  detN := by rw [Matrix.det_fin_three]; simp; norm_num
  finite := by
    intro c _
    simp [homog_eq]
  fits := by norm_num
  inX := by norm_num
  inY := by norm_num
  inside := by
    intro c hc
    simp only [corners, List.mem_cons, List.not_mem_nil, or_false] at hc
    rcases hc with rfl | rfl | rfl | rfl <;> simp [project, homog_eq] <;> norm_num

example : Orders iterYX iterYX iterYX List.range :=
  ⟨fun _ _ => .refl _, fun _ _ => .refl _, fun _ _ => .refl _, fun _ => .refl _⟩

/-! ## C91: stitching a sequence

The full property: images are stitched in order until a step fails, and then the panorama of the images
before it is returned. It fails when the second phase reports failure with an image without sizes. -/

section

variable {K : Type} (find : Image Rgb → Image Rgb → Res (Mat K))
  (stitch : Image Rgb → Image Rgb → Mat K → Res (Image Rgb))

theorem go_iff (first : Image Rgb) (rest : List (Image Rgb)) (out : Image Rgb) :
    stitchSequential.go find stitch first rest = .ok out ↔
      ∃ used left, rest = used ++ left ∧ Panorama find stitch first used out ∧
        ∀ next post, left = next :: post → CannotExtend find stitch out next := by
  induction rest generalizing first with
  | nil =>
    constructor
    · intro h
      rw [stitchSequential.go] at h
      injection h with h
      exact ⟨[], [], rfl, h.symm, fun _ _ h => by simp at h⟩
    · rintro ⟨used, left, e, h, -⟩
      obtain ⟨rfl, rfl⟩ := List.append_eq_nil_iff.1 e.symm
      rw [stitchSequential.go, show out = first from h]
  | cons n rest ih =>
    rw [stitchSequential.go]
    constructor
    · intro h
      cases hf : find first n with
      | throw e => rw [hf] at h; simp at h
      | ub => rw [hf] at h; simp at h
      | ok H =>
        rw [hf, Res.ok_bind] at h
        by_cases hE : H.isEmpty = true
        · rw [if_pos hE] at h
          injection h with h
          subst h
          refine ⟨[], n :: rest, rfl, rfl, fun next post e => ?_⟩
          obtain ⟨rfl, -⟩ := List.cons.inj e
          exact ⟨H, hf, Or.inl (by simpa [Mat.isEmpty] using hE)⟩
        · rw [if_neg hE] at h
          cases hs : stitch first n H with
          | throw e => rw [hs] at h; simp at h
          | ub => rw [hs] at h; simp at h
          | ok np =>
            rw [hs, Res.ok_bind] at h
            cases hz : np.size with
            | nil => simp [widthOf, hz] at h
            | cons w s =>
              simp only [widthOf, hz, Res.ok_bind] at h
              by_cases hw : w = 0
              · rw [if_pos hw] at h
                injection h with h
                subst h
                refine ⟨[], n :: rest, rfl, rfl, fun next post e => ?_⟩
                obtain ⟨rfl, -⟩ := List.cons.inj e
                exact ⟨H, hf, Or.inr ⟨np, s, hs, by rw [hz, hw]⟩⟩
              · rw [if_neg hw] at h
                obtain ⟨used, left, e, h1, h2⟩ := (ih np).1 h
                exact ⟨n :: used, left, by rw [e]; rfl,
                  ⟨np, ⟨H, hf, by simpa [Mat.isEmpty] using hE, hs, w, s, hz, hw⟩, h1⟩, h2⟩
    · rintro ⟨used, left, e, h1, h2⟩
      cases used with
      | nil =>
        rw [List.nil_append] at e
        obtain rfl : out = first := h1
        obtain ⟨H, hf, h⟩ := h2 n rest e.symm
        rw [hf, Res.ok_bind]
        by_cases hE : H.isEmpty = true
        · rw [if_pos hE]
        · rw [if_neg hE]
          rcases h with h | ⟨np, s, hs, hz⟩
          · exact absurd (by simpa [Mat.isEmpty] using h) hE
          · rw [hs, Res.ok_bind]
            simp [widthOf, hz]
      | cons m used =>
        obtain ⟨rfl, rfl⟩ := List.cons.inj e
        obtain ⟨np, ⟨H, hf, hE, hs, w, s, hz, hw⟩, h3⟩ := h1
        rw [hf, Res.ok_bind, if_neg (by simpa [Mat.isEmpty] using hE), hs, Res.ok_bind]
        simp only [widthOf, hz, Res.ok_bind, if_neg hw]
        exact (ih np).2 ⟨used, left, rfl, h3, h2⟩

/-- Every behaviour of the two phases and every sequence of images: an image is returned exactly when it is
the panorama of the first image and some of those that follow it, up to the end or to the first one by
which it cannot be extended. No image gives the empty image, one image is returned as it is. Missing: a
stitching phase that reports failure with an image without sizes, see the violation below. -/
theorem C91_sequential_partial (first : Image Rgb) (rest : List (Image Rgb)) (out : Image Rgb) :
    stitchSequential find stitch [] = .ok ⟨[], []⟩ ∧ stitchSequential find stitch [first] = .ok first ∧
    (stitchSequential find stitch (first :: rest) = .ok out ↔
      ∃ used left, rest = used ++ left ∧ Panorama find stitch first used out ∧
        ∀ next post, left = next :: post → CannotExtend find stitch out next) :=
  ⟨rfl, rfl, go_iff find stitch first rest out⟩

/-- It returns an image whenever every step either extends the panorama or cannot. -/
theorem C91_returns (first : Image Rgb) (rest : List (Image Rgb))
    (h : ∀ pan, ∀ next ∈ rest, (∃ np, Extends find stitch pan next np) ∨ CannotExtend find stitch pan next) :
    ∃ out, stitchSequential find stitch (first :: rest) = .ok out := by
  suffices ∀ rest : List (Image Rgb), ∀ first : Image Rgb, (∀ pan, ∀ next ∈ rest,
      (∃ np, Extends find stitch pan next np) ∨ CannotExtend find stitch pan next) →
      ∃ out used left, rest = used ++ left ∧ Panorama find stitch first used out ∧
        ∀ next post, left = next :: post → CannotExtend find stitch out next by
    obtain ⟨out, h'⟩ := this rest first h
    exact ⟨out, (go_iff find stitch first rest out).2 h'⟩
  intro rest
  induction rest with
  | nil => exact fun first _ => ⟨first, [], [], rfl, rfl, fun _ _ h => by simp at h⟩
  | cons n rest ih =>
    intro first h
    rcases h first n (by simp) with ⟨np, hnp⟩ | hc
    · obtain ⟨out, used, left, e, h1, h2⟩ := ih np fun pan next hn => h pan next (by simp [hn])
      exact ⟨out, n :: used, left, by rw [e]; rfl, ⟨np, hnp, h1⟩, h2⟩
    · refine ⟨first, [], n :: rest, rfl, rfl, fun next post e => ?_⟩
      obtain ⟨rfl, -⟩ := List.cons.inj e
      exact hc

end

/-- The property fails when a homography is found that has no inverse, such as the zero matrix that the robust
estimator returns when it finds no model: for every sequence, instead of the panorama so far, undefined
behaviour, because the image that reports the failure has no width to compare with zero. -/
theorem C91_singular_violation {K : Type} [Field K] [LinearOrder K] [IsStrictOrderedRing K] [FloorRing K] (δ eps : K) (hδ : 0 < δ)
    (interp : Image Rgb → K → K → Res Rgb) (orderW orderB : Nat → Nat → List (Nat × Nat))
    (find : Image Rgb → Image Rgb → Res (Mat K)) (first next : Image Rgb) (rest : List (Image Rgb)) {h : Mat K}
    {M : Matrix (Fin 3) (Fin 3) K} (hM : h.Is M) (hdet : |M.det| < δ) (hf : find first next = .ok h) :
    stitchSequential find (createStitched (fun d => decide (|d| < δ)) eps interp orderW orderB)
      (first :: next :: rest) = .ub := by
  have hE : h.isEmpty = false := by simp [Mat.isEmpty, hM.rows, hM.cols]
  rw [stitchSequential, stitchSequential.go, hf, Res.ok_bind, if_neg (by simp [hE])]
  unfold createStitched
  obtain ⟨R, eR, hR⟩ := (C29_inverse δ hδ hM).1 hdet
  rw [if_neg (by simp [hE]), eR, Res.ok_bind, if_pos hR]
  rfl

/-- The zero matrix is such a homography. -/
example : (mk' 0 3 3 : Mat ℚ).Is (0 : Matrix (Fin 3) (Fin 3) ℚ) ∧ |(0 : Matrix (Fin 3) (Fin 3) ℚ).det| < 1 / 1000 := by
  refine ⟨⟨rfl, rfl, rfl, by norm_num, ?_⟩, by rw [Matrix.det_zero]; norm_num⟩
  intro i j
  fin_cases i <;> fin_cases j <;> rfl

/-- One-pixel images for which stitching adds the reds; no homography is found for red 5. -/
example : stitchSequential (fun _ b => if b.data = [(5, 0, 0)] then .ok ⟨0, 0, []⟩ else .ok (mk' (0 : ℚ) 3 3))
      (fun a b _ => .ok ⟨[1, 1], List.zipWith (fun p q => (p.1 + q.1, 0, 0)) a.data b.data⟩)
      [⟨[1, 1], [(1, 0, 0)]⟩, ⟨[1, 1], [(2, 0, 0)]⟩, ⟨[1, 1], [(3, 0, 0)]⟩, ⟨[1, 1], [(5, 0, 0)]⟩, ⟨[1, 1], [(7, 0, 0)]⟩] =
    .ok ⟨[1, 1], [(6, 0, 0)]⟩ := by
  decide +kernel

example := C55_warp_partial (0 : ℚ) (δ := 1 / 1000) (eps := 1 / 1000) (by norm_num) (interp := fun x y => .ok (x + y))
  (g := fun x y => x + y) (fun _ _ => rfl) moveRight_is (by rw [Matrix.det_fin_three]; simp; norm_num) (w := 3) (h := 2)
  (by decide) (by decide) (by decide) (List.reverse_perm _) (List.reverse_perm _)

example := C89_canvas_partial (eps := 1 / 1000) exampleScene (orderW := iterYX) (orderB := iterYX) (orderB' := iterYX)
  (orderP := List.range) ⟨fun _ _ => .refl _, fun _ _ => .refl _, fun _ _ => .refl _, fun _ => .refl _⟩

theorem identity_is : (⟨3, 3, [1, 0, 0, 0, 1, 0, 0, 0, 1]⟩ : Mat ℚ).Is (1 : Matrix (Fin 3) (Fin 3) ℚ) := by
  refine ⟨rfl, rfl, rfl, by norm_num, ?_⟩
  intro i j
  fin_cases i <;> fin_cases j <;> decide +kernel

/-- The same images, laid on top of each other: nothing sticks out at the left or at the top. -/
theorem flushScene : Scene (1 / 1000 : ℚ) stripInterp redDot strip ⟨3, 3, [1, 0, 0, 0, 1, 0, 0, 0, 1]⟩ 1 1 3 1 5 5
    (fun _ _ => (200, 0, 0)) (fun x _ => stripAt x) 1 1 :=
  { exampleScene with
    hom := identity_is
    inverse := by simp
    det := by simp; norm_num
    detN := by simp; norm_num
    finite := by intro c _; simp [homog_eq]
    inside := by
      intro c hc
      simp only [corners, List.mem_cons, List.not_mem_nil, or_false] at hc
      rcases hc with rfl | rfl | rfl | rfl <;> simp [project, homog_eq] <;> norm_num }

example := C55_stitch_partial (eps := 1 / 1000) flushScene (orderW := iterYX) (orderB := iterYX) (orderB' := iterYX)
  (orderP := List.range) ⟨fun _ _ => .refl _, fun _ _ => .refl _, fun _ _ => .refl _, fun _ => .refl _⟩
  (by intro c _; simp [project, homog_eq]) (by intro x y _ _; simp [homog_eq])

example := C56_blend_partial (K := ℚ) exampleScene.image1 (warped := ⟨[2, 1], [(50, 5, 5), (70, 5, 5)]⟩)
  (fw := fun x _ => if x = 0 then (50, 5, 5) else (70, 5, 5))
  (Image.Shows.of_data (w := 2) (h := 1) (by norm_num) (by norm_num) (by norm_num) rfl rfl (by
    intro x y hx hy
    obtain rfl : y = 0 := by omega
    interval_cases x <;> rfl))
  exampleScene.bytes1 (fun x y _ _ => by split <;> simp [Byte3]) (tx := 1 / 2) (ty := 0) (by norm_num) (by norm_num)
  (by norm_num) (by norm_num) (by norm_num) (by norm_num) (List.reverse_perm _)

example := C90_registration_partial (eps := 1 / 1000) exampleScene (orderW := iterYX) (orderB := iterYX) (orderB' := iterYX)
  (orderP := List.range) ⟨fun _ _ => .refl _, fun _ _ => .refl _, fun _ _ => .refl _, fun _ => .refl _⟩

end TinyDIP.Stitch
