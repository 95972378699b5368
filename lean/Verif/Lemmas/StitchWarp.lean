import Verif.Lemmas.Stitch
import Verif.Lemmas.SiftOct
import Verif.Lemmas.SiftOri
import Verif.Props.LinAlg

/-!
# Lemmas about warping and blending
-/

namespace TinyDIP.Stitch

open TinyDIP Mat

/-- A loop that writes some of its pixels. -/
theorem loop_someWrite {α β : Type} {w h : Nat} (t : β → Nat × Nat) (c : Nat × Nat → Bool) (g : Nat → Nat → α)
    (body : Image α → β → Res (Image α)) (l : List β)
    (hb : ∀ b ∈ l, (t b).1 < w ∧ (t b).2 < h)
    (hyes : ∀ b ∈ l, c (t b) = true → ∀ im, body im b = im.set2 (t b).1 (t b).2 (g (t b).1 (t b).2))
    (hno : ∀ b ∈ l, c (t b) = false → ∀ im, body im b = .ok im)
    (hcov : ∀ x y, x < w → y < h → ∃ b ∈ l, t b = (x, y))
    {im : Image α} {f : Nat → Nat → α} (s : im.Shows w h f) :
    ∃ out, loop body l im = .ok out ∧ out.Shows w h (fun x y => if c (x, y) then g x y else f x y) := by
  rw [Sift.loop_filter (fun b => c (t b)) body l hno]
  obtain ⟨out, e, so⟩ := loop_write t g body (l.filter fun b => c (t b)) (w := w) (h := h) (by
    intro b hbm im f s
    obtain ⟨h1, h2⟩ := List.mem_filter.1 hbm
    rw [hyes b h1 h2]
    obtain ⟨hx, hy⟩ := hb b h1
    exact s.set2 hx hy _) im f s
  refine ⟨out, e, so.congr fun x y hx hy => ?_⟩
  obtain ⟨b, hbm, hbt⟩ := hcov x y hx hy
  by_cases hc : c (x, y) = true
  · rw [if_pos hc, if_pos ⟨b, List.mem_filter.2 ⟨hbm, by simpa [hbt] using hc⟩, hbt⟩]
  · rw [if_neg hc, if_neg]
    rintro ⟨b', hb', ht⟩
    have := (List.mem_filter.1 hb').2
    simp only [ht] at this
    exact hc this

section
variable {K : Type} [Field K] [LinearOrder K] {α : Type}

theorem isEmpty_false {H : Mat K} {M : Matrix (Fin 3) (Fin 3) K} (hH : H.Is M) : H.isEmpty = false := by
  unfold Mat.isEmpty
  simp [hH.rows, hH.cols]

theorem warpSeq_shows (zero : α) (eps : K) {interp : K → K → Res α} {g : K → K → α}
    (hi : ∀ x y, interp x y = .ok (g x y)) {H : Mat K} {M : Matrix (Fin 3) (Fin 3) K} (hH : H.Is M) {w h : Nat}
    (hw : w < 2 ^ 64) (hh : h < 2 ^ 64) (hwh : w * h < 2 ^ 64) {order : List (Nat × Nat)}
    (ho : order.Perm (iterYX w h)) :
    ∃ out, warpSeq zero eps interp H w h order = .ok out ∧ out.Shows w h (fun x y =>
      if |homog M (x : K) (y : K) 2| < eps then zero
      else g (project M (x : K) (y : K)).1 (project M (x : K) (y : K)).2) := by
  unfold warpSeq
  rw [isEmpty_false hH]
  simp only [Bool.false_eq_true, if_false, readHom_ok hH, Res.ok_bind, homOf_w, homOf_px, homOf_py, hi]
  obtain ⟨out, e, so⟩ := loop_someWrite (w := w) (h := h) (fun p : Nat × Nat => p)
    (fun p => !decide (|homog M (p.1 : K) (p.2 : K) 2| < eps))
    (fun x y => g (project M (x : K) (y : K)).1 (project M (x : K) (y : K)).2)
    (fun out p => if |homog M (p.1 : K) (p.2 : K) 2| < eps then .ok out
      else out.set2 p.1 p.2 (g (project M (p.1 : K) (p.2 : K)).1 (project M (p.1 : K) (p.2 : K)).2)) order
    (by intro p hp; exact mem_iterYX.1 (ho.mem_iff.1 hp))
    (by intro p _ hc im; rw [if_neg (by simpa using hc)])
    (by intro p _ hc im; rw [if_pos (by simpa using hc)])
    (by intro x y hx hy; exact ⟨(x, y), ho.mem_iff.2 (mem_iterYX.2 ⟨hx, hy⟩), rfl⟩)
    (ofSizes_shows zero hw hh hwh)
  refine ⟨out, e, so.congr fun x y _ _ => ?_⟩
  by_cases hc : |homog M (x : K) (y : K) 2| < eps <;> simp [hc]

theorem warpPolicy_shows (zero : α) {small : K → Bool} (eps : K) {interp : K → K → Res α} {g : K → K → α}
    (hi : ∀ x y, interp x y = .ok (g x y)) {H R : Mat K} {M N : Matrix (Fin 3) (Fin 3) K} (hH : H.Is M)
    (hR : invert small H = .ok R) (hN : R.Is N) {w h : Nat}
    (hw : w < 2 ^ 64) (hh : h < 2 ^ 64) (hwh : w * h < 2 ^ 64) {order : List Nat}
    (ho : order.Perm (List.range (w * h))) :
    ∃ out, warpPolicy zero small eps interp H w h order = .ok out ∧ out.Shows w h (fun x y =>
      if |homog N (x : K) (y : K) 2| ≤ eps then zero
      else g (project N (x : K) (y : K)).1 (project N (x : K) (y : K)).2) := by
  unfold warpPolicy
  rw [isEmpty_false hH]
  simp only [Bool.false_eq_true, if_false, hR, isEmpty_false hN, readHom_ok hN, Res.ok_bind, homOf_w, homOf_px,
    homOf_py, hi]
  have hpos : ∀ i ∈ order, 0 < w ∧ i < w * h := by
    intro i hi
    have : i < w * h := List.mem_range.1 (ho.mem_iff.1 hi)
    rcases Nat.eq_zero_or_pos w with h0 | h0
    · subst h0; simp at this
    · exact ⟨h0, this⟩
  have hbody : ∀ i ∈ order, ∀ out : Image α, (do
        let y ← udiv i w
        let x ← umod i w
        if |homog N (x : K) (y : K) 2| > eps then
          out.set2 x y (g (project N (x : K) (y : K)).1 (project N (x : K) (y : K)).2)
        else .ok out) =
      if |homog N ((i % w : Nat) : K) ((i / w : Nat) : K) 2| > eps then
        out.set2 (i % w) (i / w) (g (project N ((i % w : Nat) : K) ((i / w : Nat) : K)).1
          (project N ((i % w : Nat) : K) ((i / w : Nat) : K)).2)
      else .ok out := by
    intro i hi out
    have hw0 : w ≠ 0 := by have := (hpos i hi).1; omega
    simp only [udiv, umod, hw0, if_false, Res.ok_bind]
  obtain ⟨out, e, so⟩ := loop_someWrite (w := w) (h := h) (fun i : Nat => (i % w, i / w))
    (fun p => decide (|homog N (p.1 : K) (p.2 : K) 2| > eps))
    (fun x y => g (project N (x : K) (y : K)).1 (project N (x : K) (y : K)).2)
    (fun out i => do
        let y ← udiv i w
        let x ← umod i w
        if |homog N (x : K) (y : K) 2| > eps then
          out.set2 x y (g (project N (x : K) (y : K)).1 (project N (x : K) (y : K)).2)
        else .ok out) order
    (by
      intro i hi
      obtain ⟨h0, h1⟩ := hpos i hi
      exact ⟨Nat.mod_lt _ h0, Nat.div_lt_of_lt_mul h1⟩)
    (by intro p hp hc im; rw [hbody p hp, if_pos (by simpa using hc)])
    (by intro p hp hc im; rw [hbody p hp, if_neg (by simpa using hc)])
    (by
      intro x y hx hy
      have hlt : y * w + x < w * h := by
        calc y * w + x < y * w + w := by omega
          _ = w * (y + 1) := by ring
          _ ≤ w * h := Nat.mul_le_mul_left _ hy
      refine ⟨y * w + x, ho.mem_iff.2 (List.mem_range.2 hlt), ?_⟩
      have h0 : 0 < w := by omega
      simp only [Prod.mk.injEq]
      constructor
      · rw [Nat.mul_comm, Nat.mul_add_mod, Nat.mod_eq_of_lt hx]
      · rw [Nat.mul_comm, Nat.mul_add_div h0, Nat.div_eq_of_lt hx, Nat.add_zero])
    (ofSizes_shows zero hw hh hwh)
  refine ⟨out, e, so.congr fun x y _ _ => ?_⟩
  by_cases hc : |homog N (x : K) (y : K) 2| ≤ eps
  · simp [hc]
  · simp [hc, not_le.1 hc]

end

/-! ### Blending -/

section
variable {K : Type} [Field K] [LinearOrder K] [IsStrictOrderedRing K] [FloorRing K]

omit [IsStrictOrderedRing K] in
theorem toSize_nn {v : K} (h0 : -1 < v) (h1 : v < 2 ^ 64) : Sift.toSize v = .ok ⌊v⌋.toNat := by
  unfold Sift.toSize
  rw [if_pos ⟨h0, h1⟩]

/-- The samples of a pixel are bytes. -/
def Byte3 (p : Rgb) : Prop := p.1 ≤ 255 ∧ p.2.1 ≤ 255 ∧ p.2.2 ≤ 255

theorem mix_bounds {a b : Nat} {t : K} (ht0 : 0 ≤ t) (ht1 : t ≤ 1) :
    ((min a b : Nat) : K) ≤ (a : K) * (1 - t) + (b : K) * t ∧
      (a : K) * (1 - t) + (b : K) * t ≤ ((max a b : Nat) : K) := by
  have h1 : ((min a b : Nat) : K) ≤ a := by exact_mod_cast Nat.min_le_left a b
  have h2 : ((min a b : Nat) : K) ≤ b := by exact_mod_cast Nat.min_le_right a b
  have h3 : (a : K) ≤ ((max a b : Nat) : K) := by exact_mod_cast Nat.le_max_left a b
  have h4 : (b : K) ≤ ((max a b : Nat) : K) := by exact_mod_cast Nat.le_max_right a b
  constructor <;> nlinarith

theorem blendChannel_ok {a b : Nat} {t : K} (ht0 : 0 ≤ t) (ht1 : t ≤ 1) (ha : a ≤ 255) (hb : b ≤ 255) :
    blendChannel a b t = .ok ⌊(a : K) * (1 - t) + (b : K) * t⌋.toNat := by
  unfold blendChannel toByte
  obtain ⟨h1, h2⟩ := mix_bounds (a := a) (b := b) ht0 ht1
  have h3 : (0 : K) ≤ ((min a b : Nat) : K) := Nat.cast_nonneg _
  have h4 : ((max a b : Nat) : K) ≤ 255 := by exact_mod_cast (max_le ha hb)
  rw [if_pos ⟨by linarith, by linarith⟩]

theorem blend_between {a b : Nat} {t : K} (ht0 : 0 ≤ t) (ht1 : t ≤ 1) :
    min a b ≤ ⌊(a : K) * (1 - t) + (b : K) * t⌋.toNat ∧ ⌊(a : K) * (1 - t) + (b : K) * t⌋.toNat ≤ max a b := by
  obtain ⟨h1, h2⟩ := mix_bounds (a := a) (b := b) ht0 ht1
  constructor
  · have : ((min a b : Nat) : Int) ≤ ⌊(a : K) * (1 - t) + (b : K) * t⌋ := by
      rw [Int.le_floor]; exact_mod_cast h1
    omega
  · have : ⌊(a : K) * (1 - t) + (b : K) * t⌋ ≤ ((max a b : Nat) : Int) := by
      have h5 : (⌊(a : K) * (1 - t) + (b : K) * t⌋ : K) ≤ ((max a b : Nat) : K) := (Int.floor_le _).trans h2
      exact_mod_cast h5
    omega

/-- Canvas coordinates to coordinates of image 1. -/
def back (t : K) (x : Nat) : Nat := ⌊(x : K) - t⌋.toNat

/-- The pixel of image 1 is on the canvas at `x`. -/
def covers (t : K) (n x : Nat) : Bool := decide (⌊t⌋.toNat ≤ x ∧ x < ⌊t⌋.toNat + n)

theorem back_lt {t : K} (ht : 0 ≤ t) {n x : Nat} (hc : covers t n x = true) : back t x < n := by
  unfold covers at hc
  simp only [decide_eq_true_eq] at hc
  unfold back
  have h1 : (x : K) < t + n := by
    have e : (x : K) + 1 ≤ (⌊t⌋.toNat : K) + n := by exact_mod_cast hc.2
    have e2 : (⌊t⌋.toNat : K) ≤ t := by
      have : ((⌊t⌋.toNat : Int) : K) = (⌊t⌋ : K) := by rw [Int.toNat_of_nonneg (Int.floor_nonneg.2 ht)]
      have h := Int.floor_le t
      rw [← this] at h
      exact_mod_cast h
    linarith
  have h2 : ⌊(x : K) - t⌋ < (n : Int) := by
    rw [Int.floor_lt]
    push_cast
    linarith
  omega

/-- The blended pixel. -/
def mixPixel (w1 px : Nat) (a b : Rgb) : Rgb :=
  let t : K := (px : K) / (w1 : K)
  (⌊(a.1 : K) * (1 - t) + (b.1 : K) * t⌋.toNat, ⌊(a.2.1 : K) * (1 - t) + (b.2.1 : K) * t⌋.toNat,
    ⌊(a.2.2 : K) * (1 - t) + (b.2.2 : K) * t⌋.toNat)

theorem blendPixel_ok {img1 warped : Image Rgb} {w1 h1 ow oh : Nat} {f1 fw : Nat → Nat → Rgb}
    (s1 : img1.Shows w1 h1 f1) (sw : warped.Shows ow oh fw) (b1 : ∀ x y, x < w1 → y < h1 → Byte3 (f1 x y))
    (bw : ∀ x y, x < ow → y < oh → Byte3 (fw x y)) {tx ty : K} (htx : 0 ≤ tx) (hty : 0 ≤ ty)
    (hbx : tx + w1 < 2 ^ 64) (hby : ty + h1 < 2 ^ 64) {x y : Nat} (hx : x < ow) (hy : y < oh)
    (hgx : -1 < (x : K) - tx) (hgy : -1 < (y : K) - ty) (out : Image Rgb) :
    blendPixel img1 warped tx ty out x y =
      if covers tx w1 x && covers ty h1 y then
        (if hasContent (fw x y) then
          out.set2 x y (mixPixel (K := K) w1 (back tx x) (f1 (back tx x) (back ty y)) (fw x y))
        else out.set2 x y (f1 (back tx x) (back ty y)))
      else if hasContent (fw x y) then out.set2 x y (fw x y)
      else .ok out := by
  have hw1 : (0 : K) ≤ w1 := Nat.cast_nonneg _
  have hh1 : (0 : K) ≤ h1 := Nat.cast_nonneg _
  have hxl : (x : K) - tx < 2 ^ 64 := by
    have : (x : K) < 2 ^ 64 := by exact_mod_cast lt_trans hx sw.w_lt
    linarith
  have hyl : (y : K) - ty < 2 ^ 64 := by
    have : (y : K) < 2 ^ 64 := by exact_mod_cast lt_trans hy sw.h_lt
    linarith
  unfold blendPixel
  rw [s1.width, s1.height, toSize_nn (by linarith) (by linarith : tx < 2 ^ 64),
    toSize_nn (by linarith) hbx, sw.px x y hx hy, toSize_nn hgx hxl, toSize_nn hgy hyl,
    toSize_nn (by linarith) (by linarith : ty < 2 ^ 64), toSize_nn (by linarith) hby]
  simp only [Res.ok_bind]
  have ex : ⌊tx + (w1 : K)⌋.toNat = ⌊tx⌋.toNat + w1 := by
    rw [Int.floor_add_natCast]
    have := Int.floor_nonneg.2 htx
    omega
  have ey : ⌊ty + (h1 : K)⌋.toNat = ⌊ty⌋.toNat + h1 := by
    rw [Int.floor_add_natCast]
    have := Int.floor_nonneg.2 hty
    omega
  rw [ex, ey]
  have hdec : (decide (x ≥ ⌊tx⌋.toNat ∧ x < ⌊tx⌋.toNat + w1 ∧ y ≥ ⌊ty⌋.toNat ∧ y < ⌊ty⌋.toNat + h1)) =
      (covers tx w1 x && covers ty h1 y) := by
    unfold covers
    rw [← Bool.decide_and]
    apply decide_eq_decide.2
    tauto
  rw [hdec]
  by_cases hc : (covers tx w1 x && covers ty h1 y) = true
  · simp only [Bool.and_eq_true] at hc
    have l1 := back_lt htx hc.1
    have l2 := back_lt hty hc.2
    have hat : img1.at2 ⌊(x : K) - tx⌋.toNat ⌊(y : K) - ty⌋.toNat = .ok (f1 (back tx x) (back ty y)) :=
      s1.px _ _ l1 l2
    have w1pos : (0 : K) < w1 := by exact_mod_cast (by omega : 0 < w1)
    have a0 : (0 : K) ≤ ((back tx x : Nat) : K) / (w1 : K) := by positivity
    have a1 : ((back tx x : Nat) : K) / (w1 : K) ≤ 1 := by
      rw [div_le_one w1pos]; exact_mod_cast l1.le
    rw [hc.1, hc.2]
    simp only [Bool.and_true, Bool.true_and, if_true]
    by_cases hh : hasContent (fw x y) = true
    · rw [if_pos hh, if_pos hh, hat]
      obtain ⟨c1, c2, c3⟩ := b1 _ _ l1 l2
      obtain ⟨d1, d2, d3⟩ := bw x y hx hy
      have hb : ((⌊(x : K) - tx⌋.toNat : Nat) : K) = ((back tx x : Nat) : K) := rfl
      simp only [Res.ok_bind, hb]
      rw [blendChannel_ok a0 a1 c1 d1, blendChannel_ok a0 a1 c2 d2, blendChannel_ok a0 a1 c3 d3]
      rfl
    · rw [if_neg hh, if_neg hh, hat]
      rfl
  · have hcf : (covers tx w1 x && covers ty h1 y) = false := by simpa using hc
    rw [hcf]
    simp

/-- The canvas pixel. -/
def canvasPixel (tx ty : K) (w1 h1 : Nat) (f1 fw : Nat → Nat → Rgb) (x y : Nat) : Rgb :=
  if covers tx w1 x && covers ty h1 y then
    (if hasContent (fw x y) then mixPixel (K := K) w1 (back tx x) (f1 (back tx x) (back ty y)) (fw x y)
    else f1 (back tx x) (back ty y))
  else if hasContent (fw x y) then fw x y
  else (0, 0, 0)

theorem blend_shows {img1 warped : Image Rgb} {w1 h1 ow oh : Nat} {f1 fw : Nat → Nat → Rgb}
    (s1 : img1.Shows w1 h1 f1) (sw : warped.Shows ow oh fw) (b1 : ∀ x y, x < w1 → y < h1 → Byte3 (f1 x y))
    (bw : ∀ x y, x < ow → y < oh → Byte3 (fw x y)) {tx ty : K} (htx : 0 ≤ tx) (hty : 0 ≤ ty)
    (hx1 : tx < 1) (hy1 : ty < 1)
    (hbx : tx + w1 < 2 ^ 64) (hby : ty + h1 < 2 ^ 64) {order : List (Nat × Nat)}
    (ho : order.Perm (iterYX ow oh)) :
    ∃ out, blend img1 warped tx ty ow oh order = .ok out ∧
      out.Shows ow oh (canvasPixel tx ty w1 h1 f1 fw) := by
  unfold blend
  have hmem : ∀ p ∈ order, p.1 < ow ∧ p.2 < oh := fun p hp => mem_iterYX.1 (ho.mem_iff.1 hp)
  have hpix : ∀ p ∈ order, ∀ out, blendPixel img1 warped tx ty out p.1 p.2 = _ := fun p hp out =>
    blendPixel_ok s1 sw b1 bw htx hty hbx hby (hmem p hp).1 (hmem p hp).2
      (by have : (0 : K) ≤ (p.1 : K) := Nat.cast_nonneg _; linarith)
      (by have : (0 : K) ≤ (p.2 : K) := Nat.cast_nonneg _; linarith) out
  obtain ⟨out, e, so⟩ := loop_someWrite (w := ow) (h := oh) (fun p : Nat × Nat => p)
    (fun p => (covers tx w1 p.1 && covers ty h1 p.2) || hasContent (fw p.1 p.2))
    (canvasPixel tx ty w1 h1 f1 fw)
    (fun out p => blendPixel img1 warped tx ty out p.1 p.2) order hmem
    (by
      intro p hp hc im
      rw [hpix p hp]
      unfold canvasPixel
      by_cases c1 : (covers tx w1 p.1 && covers ty h1 p.2) = true
      · by_cases c2 : hasContent (fw p.1 p.2) = true <;> simp [c1, c2]
      · have c2 : hasContent (fw p.1 p.2) = true := by
          have c1' : (covers tx w1 p.1 && covers ty h1 p.2) = false := by simpa using c1
          simpa [c1'] using hc
        simp [c1, c2])
    (by
      intro p hp hc im
      rw [hpix p hp]
      obtain ⟨c1, c2⟩ : (covers tx w1 p.1 && covers ty h1 p.2) = false ∧ hasContent (fw p.1 p.2) = false := by
        simpa only [Bool.or_eq_false_iff] using hc
      rw [c1, c2]
      simp)
    (by intro x y hx hy; exact ⟨(x, y), ho.mem_iff.2 (mem_iterYX.2 ⟨hx, hy⟩), rfl⟩)
    (ofSizes_shows (0, 0, 0) sw.w_lt sw.h_lt sw.fits)
  refine ⟨out, e, so.congr fun x y _ _ => ?_⟩
  simp only []
  by_cases c1 : (covers tx w1 x && covers ty h1 y) = true
  · simp [c1]
  · by_cases c2 : hasContent (fw x y) = true
    · simp [c2]
    · have c1' : (covers tx w1 x && covers ty h1 y) = false := by simpa using c1
      have c2' : hasContent (fw x y) = false := by simpa using c2
      simp [canvasPixel, c1', c2']

theorem loop_ub_inv {σ β : Type} {body : σ → β → Res σ} (P : σ → Prop) {l : List β}
    (h1 : ∀ b ∈ l, ∀ s, P s → (∃ s', body s b = .ok s' ∧ P s') ∨ body s b = .ub)
    (h2 : ∃ b ∈ l, ∀ s, P s → body s b = .ub) (s : σ) (hs : P s) : loop body l s = .ub := by
  induction l generalizing s with
  | nil => obtain ⟨b, hb, _⟩ := h2; simp at hb
  | cons b l ih =>
    rw [loop]
    rcases h1 b (by simp) s hs with ⟨s', e, hs'⟩ | e
    · rw [e]
      refine ih (fun b hb => h1 b (by simp [hb])) ?_ s' hs'
      obtain ⟨c, hc, hu⟩ := h2
      rcases List.mem_cons.1 hc with rfl | hc
      · rw [hu s hs] at e; exact absurd e (by simp)
      · exact ⟨c, hc, hu⟩
    · rw [e]

theorem blendPixel_ub {img1 warped : Image Rgb} {ow oh : Nat} {fw : Nat → Nat → Rgb}
    (sw : warped.Shows ow oh fw) {tx ty : K} (htx : 0 ≤ tx) (hbx : tx + img1.width < 2 ^ 64) {x y : Nat}
    (hx : x < ow) (hy : y < oh)
    (hg : (x : K) - tx ≤ -1 ∨ (y : K) - ty ≤ -1) (out : Image Rgb) :
    blendPixel img1 warped tx ty out x y = .ub := by
  have hw1 : (0 : K) ≤ img1.width := Nat.cast_nonneg _
  unfold blendPixel
  rw [toSize_nn (by linarith) (by linarith : tx < 2 ^ 64), toSize_nn (by linarith) hbx, sw.px x y hx hy]
  simp only [Res.ok_bind]
  by_cases h : (x : K) - tx ≤ -1
  · have : Sift.toSize ((x : K) - tx) = .ub := by
      unfold Sift.toSize
      rw [if_neg]
      rintro ⟨h', -⟩
      exact absurd h' (not_lt.2 h)
    rw [this]
    rfl
  · have hxl : (x : K) - tx < 2 ^ 64 := by
      have : (x : K) < 2 ^ 64 := by exact_mod_cast lt_trans hx sw.w_lt
      linarith
    rw [toSize_nn (not_le.1 h) hxl]
    have : Sift.toSize ((y : K) - ty) = .ub := by
      unfold Sift.toSize
      rw [if_neg]
      rintro ⟨h', -⟩
      rcases hg with hg | hg
      · exact h hg
      · exact absurd h' (not_lt.2 hg)
    simp only [Res.ok_bind, this]
    rfl

/-- A canvas moved by at least one pixel: the conversion of a negative coordinate is undefined. -/
theorem blend_ub {img1 warped : Image Rgb} {w1 h1 ow oh : Nat} {f1 fw : Nat → Nat → Rgb}
    (s1 : img1.Shows w1 h1 f1) (sw : warped.Shows ow oh fw) (b1 : ∀ x y, x < w1 → y < h1 → Byte3 (f1 x y))
    (bw : ∀ x y, x < ow → y < oh → Byte3 (fw x y)) {tx ty : K} (htx : 0 ≤ tx) (hty : 0 ≤ ty)
    (hge : 1 ≤ tx ∨ 1 ≤ ty) (hbx : tx + w1 < 2 ^ 64) (hby : ty + h1 < 2 ^ 64) (hw0 : 0 < ow) (hh0 : 0 < oh)
    {order : List (Nat × Nat)} (ho : order.Perm (iterYX ow oh)) :
    blend img1 warped tx ty ow oh order = .ub := by
  unfold blend
  have hmem : ∀ p ∈ order, p.1 < ow ∧ p.2 < oh := fun p hp => mem_iterYX.1 (ho.mem_iff.1 hp)
  have hbx' : tx + (img1.width : K) < 2 ^ 64 := by rw [s1.width]; exact hbx
  refine loop_ub_inv (fun im => ∃ f, im.Shows ow oh f) ?_ ?_ _ ⟨_, ofSizes_shows (0, 0, 0) sw.w_lt sw.h_lt sw.fits⟩
  · rintro p hp im ⟨f, sf⟩
    obtain ⟨hx, hy⟩ := hmem p hp
    by_cases hg : (p.1 : K) - tx ≤ -1 ∨ (p.2 : K) - ty ≤ -1
    · exact Or.inr (blendPixel_ub sw htx hbx' hx hy hg im)
    · left
      have hg1 : -1 < (p.1 : K) - tx := not_le.1 fun h => hg (Or.inl h)
      have hg2 : -1 < (p.2 : K) - ty := not_le.1 fun h => hg (Or.inr h)
      rw [blendPixel_ok s1 sw b1 bw htx hty hbx hby hx hy hg1 hg2]
      have hset : ∀ v : Rgb, ∃ im', im.set2 p.1 p.2 v = .ok im' ∧ ∃ f, im'.Shows ow oh f := fun v => by
        obtain ⟨im', e, s'⟩ := sf.set2 hx hy v
        exact ⟨im', e, _, s'⟩
      split
      · split
        · exact hset _
        · exact hset _
      · split
        · exact hset _
        · exact ⟨im, rfl, f, sf⟩
  · refine ⟨(0, 0), ho.mem_iff.2 (mem_iterYX.2 ⟨hw0, hh0⟩), fun im _ => ?_⟩
    refine blendPixel_ub sw htx hbx' hw0 hh0 ?_ im
    rcases hge with h | h
    · left; push_cast; linarith
    · right; push_cast; linarith

end

end TinyDIP.Stitch
