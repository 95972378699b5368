import Verif.Lemmas.Samples
import Verif.Model.Wrappers
import Verif.Spec.Wrappers
import Verif.Props.CliTransform
import Verif.Props.Rotate
import Verif.Props.Conv
import Verif.Props.Geometry
import Verif.Props.Bilateral
import Verif.Lemmas.Text
import Verif.Lemmas.HistClass
import Mathlib.Analysis.SpecialFunctions.Exp

/-!
# Properties C165 to C171: colour forms, patches, the centre pixel, degrees, differences, LaTeX, conversions
-/

namespace TinyDIP.Props

open TinyDIP Image Wrap Filter Resample

variable {α : Type}

/-! ## C165 colour forms -/

/-- Convolving a colour picture with a one-channel kernel convolves each channel. -/
theorem C165_conv2 [CommRing α] (x : Image (Px3 α)) (y : Image α) (w1 h1 w2 h2 : Nat)
    (fx : Nat → Nat → Px3 α) (fy : Nat → Nat → α) (sx : x.Shows w1 h1 fx) (sy : y.Shows w2 h2 fy)
    (hw1 : 0 < w1) (hh1 : 0 < h1) (hw2 : 0 < w2) (hh2 : 0 < h2) (hf : (w1 + w2) * (h1 + h2) < 2 ^ 64) :
    ∃ out, conv2Colour x y false = .ok out ∧ out.Shows (w1 + w2 - 1) (h1 + h2 - 1) fun i j =>
      ⟨convAt w1 h1 (fun a b => (fx a b).c0) w2 h2 fy i j, convAt w1 h1 (fun a b => (fx a b).c1) w2 h2 fy i j,
        convAt w1 h1 (fun a b => (fx a b).c2) w2 h2 fy i j⟩ := by
  obtain ⟨a, ea, sa⟩ := C23_conv2_sequential _ y _ _ _ _ _ _ (map_shows sx Px3.c0) sy hw1 hh1 hw2 hh2 hf
  obtain ⟨b, eb, sb⟩ := C23_conv2_sequential _ y _ _ _ _ _ _ (map_shows sx Px3.c1) sy hw1 hh1 hw2 hh2 hf
  obtain ⟨c, ec, sc⟩ := C23_conv2_sequential _ y _ _ _ _ _ _ (map_shows sx Px3.c2) sy hw1 hh1 hw2 hh2 hf
  obtain ⟨out, e, so, -⟩ := applyEach_planes 0 0 (fun plane => conv2 plane y false) sx hw1 hh1
    (by omega) (by omega) ea eb ec sa sb sc
  exact ⟨out, e, so⟩


example := C165_conv2 (picture 3 2 fun x y => (⟨x, y, 7⟩ : Px3 Int)) (picture 2 2 fun x y => (x : Int) - y) 3 2 2 2 _ _
  (picture_shows ..) (picture_shows ..) (by decide) (by decide) (by decide) (by decide) (by decide)

/-- A colour picture through the fisheye lens: every channel is what the one-channel lens makes of it. -/
theorem C165_fisheye (zero : α) (D0 : ℝ) (root : ℝ → ℝ → ℝ) {im : Image (Px3 α)} {w h : Nat}
    {f : Nat → Nat → Px3 α} (s : im.Shows w h f) (hw : 0 < w) (hh : 0 < h)
    (hsrc : ∀ x y, x < w → y < h → 0 ≤ (fisheyeSource w h D0 root x y).1 ∧
      (fisheyeSource w h D0 root x y).1 < 2 ^ 64 ∧ 0 ≤ (fisheyeSource w h D0 root x y).2 ∧
      (fisheyeSource w h D0 root x y).2 < 2 ^ 64)
    (order : List (Nat × Nat)) (hp : order.Perm (iterYX w h)) :
    ∃ out, fisheyeColour zero order im D0 root = .ok out ∧ out.Shows w h fun x y =>
      ⟨fisheyePx w h D0 root zero (fun a b => (f a b).c0) x y, fisheyePx w h D0 root zero (fun a b => (f a b).c1) x y,
        fisheyePx w h D0 root zero (fun a b => (f a b).c2) x y⟩ := by
  obtain ⟨a, ea, sa⟩ := C77_fisheye_partial zero D0 root (map_shows s Px3.c0) hsrc order hp
  obtain ⟨b, eb, sb⟩ := C77_fisheye_partial zero D0 root (map_shows s Px3.c1) hsrc order hp
  obtain ⟨c, ec, sc⟩ := C77_fisheye_partial zero D0 root (map_shows s Px3.c2) hsrc order hp
  obtain ⟨out, e, so, -⟩ := applyEach_planes zero zero (fun p => gaussianFisheyeOrd zero order p D0 root) s hw hh
    hw hh ea eb ec sa sb sc
  exact ⟨out, by rw [fisheyeColour, if_neg (by simp [s.dim]), e], so⟩

example := C165_fisheye (0 : Nat) 1 (fun r _ => r) (picture_shows 3 2 fun x y => (⟨x, y, x + y⟩ : Px3 Nat))
  (by decide) (by decide) (fisheye_id_sources 3 2 1 (by decide) (by decide)) _ (List.reverse_perm _)

/-- An integer strength means the real number of that value. -/
theorem C165_fisheye_int (zero : α) (D0 : Int) (root : ℝ → ℝ → ℝ) {im : Image α} {w h : Nat}
    {f : Nat → Nat → α} (s : im.Shows w h f)
    (hsrc : ∀ x y, x < w → y < h → 0 ≤ (fisheyeSource w h (D0 : ℝ) root x y).1 ∧
      (fisheyeSource w h (D0 : ℝ) root x y).1 < 2 ^ 64 ∧ 0 ≤ (fisheyeSource w h (D0 : ℝ) root x y).2 ∧
      (fisheyeSource w h (D0 : ℝ) root x y).2 < 2 ^ 64)
    (order : List (Nat × Nat)) (hp : order.Perm (iterYX w h)) :
    ∃ out, fisheyeInt zero order im D0 root = .ok out ∧ out.Shows w h (fisheyePx w h (D0 : ℝ) root zero f) := by
  rw [fisheyeInt, if_neg (by simp [s.dim])]
  exact C77_fisheye_partial zero D0 root s hsrc order hp

example := C165_fisheye_int (0 : Nat) 7 (fun r _ => r) sample2_shows
  (fisheye_id_sources 3 2 ((7 : Int) : ℝ) (by decide) (by decide)) _ (List.reverse_perm _)

/-- Filtering a colour picture bilaterally filters each channel on its own, and each channel stays within its
own range of values. -/
theorem C165_bilateral (R K : ℝ → ℝ) (hR : ∀ t, 0 ≤ R t) (hR0 : 0 < R 0) (hK : ∀ t, 0 ≤ K t) (hK0 : 0 < K 0)
    (im : Image (Px3 ℝ)) (w h : Nat) (f : Nat → Nat → Px3 ℝ) (s : im.Shows w h f) (hw0 : 0 < w) (hh0 : 0 < h)
    (ww wh : Nat) (hww : 0 < ww) (hwh : 0 < wh) (b : Boundary) (hc : CanPad b w h ww wh)
    (hx : 2 * (w + 2 * ww) < 2 ^ 64) (hy : 2 * (h + 2 * wh) < 2 ^ 64) (hf : (w + 2 * ww) * (h + 2 * wh) < 2 ^ 64)
    (order : List Nat) (ho : order.Perm (List.range (w * h))) (lo hi : Px3 ℝ)
    (hr : ∀ x y, x < w → y < h → (lo.c0 ≤ (f x y).c0 ∧ (f x y).c0 ≤ hi.c0) ∧
      (lo.c1 ≤ (f x y).c1 ∧ (f x y).c1 ≤ hi.c1) ∧ (lo.c2 ≤ (f x y).c2 ∧ (f x y).c2 ≤ hi.c2))
    (hv : b = .constant → (lo.c0 ≤ 0 ∧ 0 ≤ hi.c0) ∧ (lo.c1 ≤ 0 ∧ 0 ≤ hi.c1) ∧ (lo.c2 ≤ 0 ∧ 0 ≤ hi.c2)) :
    ∃ out g, bilateralColour order im [ww, wh] R K b = .ok out ∧ out.Shows w h g ∧
      (∀ p : Image ℝ, p.Shows w h (fun x y => (f x y).c0) →
        ∃ o, bilateralFilterOrd order p [ww, wh] R K b 0 = .ok o ∧ o.Shows w h fun x y => (g x y).c0) ∧
      (∀ p : Image ℝ, p.Shows w h (fun x y => (f x y).c1) →
        ∃ o, bilateralFilterOrd order p [ww, wh] R K b 0 = .ok o ∧ o.Shows w h fun x y => (g x y).c1) ∧
      (∀ p : Image ℝ, p.Shows w h (fun x y => (f x y).c2) →
        ∃ o, bilateralFilterOrd order p [ww, wh] R K b 0 = .ok o ∧ o.Shows w h fun x y => (g x y).c2) ∧
      ∀ x y, x < w → y < h → (lo.c0 ≤ (g x y).c0 ∧ (g x y).c0 ≤ hi.c0) ∧
        (lo.c1 ≤ (g x y).c1 ∧ (g x y).c1 ≤ hi.c1) ∧ (lo.c2 ≤ (g x y).c2 ∧ (g x y).c2 ≤ hi.c2) := by
  have s0 := map_shows s Px3.c0
  have s1 := map_shows s Px3.c1
  have s2 := map_shows s Px3.c2
  obtain ⟨oa, ga, ea, sa, ra⟩ := C109_range R K hR hR0 hK hK0 _ w h _ s0 hw0 hh0 ww wh hww hwh b 0
    hc hx hy hf order ho lo.c0 hi.c0 (fun x y hx hy => (hr x y hx hy).1) (fun e => (hv e).1)
  obtain ⟨ob, gb, eb, sb, rb⟩ := C109_range R K hR hR0 hK hK0 _ w h _ s1 hw0 hh0 ww wh hww hwh b 0
    hc hx hy hf order ho lo.c1 hi.c1 (fun x y hx hy => (hr x y hx hy).2.1) (fun e => (hv e).2.1)
  obtain ⟨oc, gc, ec, sc, rc⟩ := C109_range R K hR hR0 hK hK0 _ w h _ s2 hw0 hh0 ww wh hww hwh b 0
    hc hx hy hf order ho lo.c2 hi.c2 (fun x y hx hy => (hr x y hx hy).2.2) (fun e => (hv e).2.2)
  obtain ⟨out, e, so, -⟩ := applyEach_planes 0 0 (fun p => bilateralFilterOrd order p [ww, wh] R K b 0) s hw0 hh0
    hw0 hh0 ea eb ec sa sb sc
  refine ⟨out, _, e, so, fun p sp => ⟨oa, ?_, sa⟩, fun p sp => ⟨ob, ?_, sb⟩, fun p sp => ⟨oc, ?_, sc⟩,
    fun x y hx hy => ⟨ra x y hx hy, rb x y hx hy, rc x y hx hy⟩⟩
  · rw [sp.ext s0 fun _ _ _ _ => rfl, ea]
  · rw [sp.ext s1 fun _ _ _ _ => rfl, eb]
  · rw [sp.ext s2 fun _ _ _ _ => rfl, ec]

example := C165_bilateral (bell 2) (bell 3) (fun t => (bell_pos 2 t).le) (bell_pos 2 0) (fun t => (bell_pos 3 t).le)
  (bell_pos 3 0) (picture 7 6 fun _ _ => ⟨5, 6, 7⟩) 7 6 _ (picture_shows ..) (by decide) (by decide) 3 3 (by decide)
  (by decide) .mirror (by unfold CanPad; decide) (by decide) (by decide) (by decide) _ (List.reverse_perm _) ⟨1, 2, 3⟩
  ⟨8, 9, 10⟩ (fun _ _ _ _ => by norm_num) (fun h => by cases h)

theorem bilinear_total (zero : α) (cv : Conv α) (hcv : cv.Lawful) {im : Image α} {w h : Nat} {f : Nat → Nat → α}
    (s : im.Shows w h f) (x y : ℝ) : ∃ v, bilinear cv zero im x y = .ok v := by
  by_cases ho : x < 0 ∨ x > (w : ℝ) - 1 ∨ y < 0 ∨ y > (h : ℝ) - 1
  · exact ⟨zero, C41_zero_outside cv zero s x y ho⟩
  · push Not at ho
    obtain ⟨v, e, -⟩ := C41_between_neighbours cv hcv zero s x y ho.1 ho.2.1 ho.2.2.1 ho.2.2.2
    exact ⟨v, e⟩

/-- Sampling a colour picture samples each channel, at every position. -/
theorem C165_bilinear (zero : α) (cv : Conv α) (hcv : cv.Lawful) {im : Image (Px3 α)} {w h : Nat}
    {f : Nat → Nat → Px3 α} (s : im.Shows w h f) (hw : 0 < w) (hh : 0 < h) (x y : ℝ) :
    ∃ v : Px3 α, bilinearColour zero (bilinear cv zero) im x y = .ok v ∧
      (∀ p : Image α, p.Shows w h (fun x y => (f x y).c0) → bilinear cv zero p x y = .ok v.c0) ∧
      (∀ p : Image α, p.Shows w h (fun x y => (f x y).c1) → bilinear cv zero p x y = .ok v.c1) ∧
      (∀ p : Image α, p.Shows w h (fun x y => (f x y).c2) → bilinear cv zero p x y = .ok v.c2) := by
  have s0 := map_shows s Px3.c0
  have s1 := map_shows s Px3.c1
  have s2 := map_shows s Px3.c2
  obtain ⟨a, ea⟩ := bilinear_total zero cv hcv s0 x y
  obtain ⟨b, eb⟩ := bilinear_total zero cv hcv s1 x y
  obtain ⟨c, ec⟩ := bilinear_total zero cv hcv s2 x y
  have hr : (List.range im.count).Perm (List.range im.data.length) := by
    rw [s.count, s.len]
  have h0 := prod_of_shows s hw hh
  refine ⟨⟨a, b, c⟩, ?_, fun p sp => ?_, fun p sp => ?_, fun p sp => ?_⟩
  · rw [bilinearColour, getPlane, getPlane, getPlane,
      getPlaneOrd_ok zero im s.wf h0 0 Px3.c0 (fun _ => rfl) _ hr, Res.ok_bind, ea, Res.ok_bind,
      getPlaneOrd_ok zero im s.wf h0 1 Px3.c1 (fun _ => rfl) _ hr, Res.ok_bind, eb, Res.ok_bind,
      getPlaneOrd_ok zero im s.wf h0 2 Px3.c2 (fun _ => rfl) _ hr, Res.ok_bind, ec, Res.ok_bind]
  · rw [sp.ext s0 fun _ _ _ _ => rfl, ea]
  · rw [sp.ext s1 fun _ _ _ _ => rfl, eb]
  · rw [sp.ext s2 fun _ _ _ _ => rfl, ec]

example := C165_bilinear 0 Conv.u8 conv_u8_lawful (picture_shows 3 2 fun x y => ⟨BitVec.ofNat 8 (50 * x), 7, BitVec.ofNat 8 y⟩)
  (by decide) (by decide) (3 / 2) (1 / 3)

theorem bind_ok_inv {β γ : Type} {m : Res β} {k : β → Res γ} {r : γ} (h : (m >>= k) = .ok r) :
    ∃ a, m = .ok a ∧ k a = .ok r := by
  cases m with
  | ok a => exact ⟨a, rfl, h⟩
  | throw e => cases h
  | ub => cases h

theorem rotate_shows (zero : α) {im : Image α} {w h : Nat} {f : Nat → Nat → α} (s : im.Shows w h f) (θ : ℝ)
    {out : Image α} (e : rotate zero im θ = .ok out) : ∃ g, out.Shows w h g := by
  have hs := C21_size_kept zero s θ out e
  have hpi : 0 < Real.pi / 2 := by positivity
  have hr : fmod θ (Real.pi / 2) < Real.pi / 2 := by
    unfold fmod
    have hx : θ = Real.pi / 2 * (θ / (Real.pi / 2)) := by field_simp
    generalize hq : θ / (Real.pi / 2) = q at *
    split
    · have := Int.lt_floor_add_one q
      nlinarith
    · have := Int.le_ceil q
      nlinarith
  rw [rotate, if_neg (by simp [s.dim])] at e
  simp only at e
  have hn : ⌈(fmod θ (Real.pi / 2) - Real.pi / 2) / (Real.pi / 2)⌉₊ = 0 := by
    rw [Nat.ceil_eq_zero]
    exact div_nonpos_of_nonpos_of_nonneg (by linarith) hpi.le
  rw [hn] at e
  simp only [rotateLoop, Res.ok_bind, Nat.cast_zero, zero_mul, sub_zero] at e
  rw [rotateDetail, if_neg (by simp [s.dim])] at e
  split at e
  · injection e with e; rw [← e]; exact ⟨f, s⟩
  · rw [if_neg (by linarith)] at e
    simp only [s.width, s.height] at e
    refine loop_ok_inv (fun o : Image α => ∃ g, o.Shows w h g) ?_ ⟨_, ofSizes_shows zero s.w_lt s.h_lt s.fits⟩ e
    rintro ⟨x, y⟩ - o o' ⟨g, so⟩ hb
    simp only at hb
    obtain ⟨a, -, hb⟩ := bind_ok_inv hb
    obtain ⟨b, -, hb⟩ := bind_ok_inv hb
    obtain ⟨v, -, hb⟩ := bind_ok_inv hb
    by_cases hin : a < w ∧ b < h
    · obtain ⟨o2, e2, s2⟩ := so.set2 hin.1 hin.2 v
      rw [e2] at hb; injection hb with hb
      exact ⟨_, hb ▸ s2⟩
    · rw [set2_oob so.size v hin] at hb; cases hb

/-- Rotating a colour picture rotates each channel by the same angle, whenever the channels can be rotated. -/
theorem C165_rotate (zero : α) (θ : ℝ) {im : Image (Px3 α)} {w h : Nat} {f : Nat → Nat → Px3 α}
    (s : im.Shows w h f) (hw : 0 < w) (hh : 0 < h) {p0 p1 p2 a b c : Image α}
    (s0 : p0.Shows w h fun x y => (f x y).c0) (s1 : p1.Shows w h fun x y => (f x y).c1)
    (s2 : p2.Shows w h fun x y => (f x y).c2) (ea : rotate zero p0 θ = .ok a) (eb : rotate zero p1 θ = .ok b)
    (ec : rotate zero p2 θ = .ok c) :
    ∃ out g, rotateColour zero im θ = .ok out ∧ out.Shows w h g ∧
      a.Shows w h (fun x y => (g x y).c0) ∧ b.Shows w h (fun x y => (g x y).c1) ∧
      c.Shows w h (fun x y => (g x y).c2) := by
  obtain ⟨ga, sa⟩ := rotate_shows zero s0 θ ea
  obtain ⟨gb, sb⟩ := rotate_shows zero s1 θ eb
  obtain ⟨gc, sc⟩ := rotate_shows zero s2 θ ec
  rw [s0.ext (map_shows s Px3.c0) fun _ _ _ _ => rfl] at ea
  rw [s1.ext (map_shows s Px3.c1) fun _ _ _ _ => rfl] at eb
  rw [s2.ext (map_shows s Px3.c2) fun _ _ _ _ => rfl] at ec
  obtain ⟨out, e, so, -⟩ := applyEach_planes zero zero (fun p => rotate zero p θ) s hw hh hw hh ea eb ec sa sb sc
  exact ⟨out, _, by rw [rotateColour, if_neg (by simp [s.dim]), e], so, sa, sb, sc⟩

example : conv2Colour (⟨[2, 1], [⟨1, 2, 3⟩, ⟨4, 5, 6⟩]⟩ : Image (Px3 Int)) ⟨[2, 1], [10, 1]⟩ false =
    .ok ⟨[3, 1], [⟨10, 20, 30⟩, ⟨41, 52, 63⟩, ⟨4, 5, 6⟩]⟩ := by decide +kernel

/-- The hypotheses of `C165_bilateral` are met by a picture of one colour, those of `C165_rotate` by every
picture and every multiple of a quarter turn. -/
example : (∀ t, 0 ≤ bell 2 t) ∧ 0 < bell 2 0 ∧ CanPad .mirror 7 6 3 3 ∧ (7 + 2 * 3) * (6 + 2 * 3) < 2 ^ 64 ∧
    ∃ im : Image (Px3 ℝ), im.Shows 7 6 (fun _ _ => ⟨5, 6, 7⟩) :=
  ⟨fun t => (bell_pos 2 t).le, bell_pos 2 0, by unfold CanPad; decide, by decide, ofSizes (⟨5, 6, 7⟩ : Px3 ℝ) [7, 6],
    ofSizes_shows (⟨5, 6, 7⟩ : Px3 ℝ) (by decide) (by decide) (by decide)⟩

example (p : Image Int) (f : Nat → Nat → Int) (s : p.Shows 3 2 f) : rotate 0 p ((1 : ℤ) * (Real.pi / 2)) = .ok p :=
  C21_quarter_turns_dropped 0 s 1

/-! ## C166 patches -/

theorem sum_range_list (g : Nat → ℝ) (n : Nat) : ((List.range n).map g).sum = ∑ i ∈ Finset.range n, g i := by
  induction n with
  | zero => simp
  | succ n ih => simp [List.range_succ, Finset.sum_range_succ, ih]

theorem data_sum {im : Image ℝ} {w h : Nat} {f : Nat → Nat → ℝ} (s : im.Shows w h f) :
    im.data.sum = ∑ j ∈ Finset.range h, ∑ i ∈ Finset.range w, f i j := by
  rw [s.data_eq]
  unfold iterYX
  rw [List.map_flatMap, List.flatMap_def, List.sum_flatten, List.map_map, ← sum_range_list]
  congr 1
  apply List.map_congr_left
  intro y _
  simp only [Function.comp, List.map_map]
  rw [← sum_range_list]; rfl

/-- The default distance of two patches is the mean of their squared differences; pixels outside of the
picture count as 0. Every grouping of the sum gives this value. -/
theorem C166_distance {im : Image ℝ} {W H : Nat} {f : Nat → Nat → ℝ} (s : im.Shows W H f)
    (w h px py qx qy : Nat) (hw : 0 < w) (hh : 0 < h) (hwh : w * h < 2 ^ 64)
    (hpx : px + w < 2 ^ 64) (hpy : py + h < 2 ^ 64) (hqx : qx + w < 2 ^ 64) (hqy : qy + h < 2 ^ 64)
    (hW : W + w / 2 ≤ 2 ^ 64) (hH : H + h / 2 ≤ 2 ^ 64) (r : Res ℝ) :
    PatchDistance im [px, py] [qx, qy] [w, h] r ↔
      r = .ok (meanSquare w h (patchPx W H f w h px py) (patchPx W H f w h qx qy)) := by
  obtain ⟨p, ep, sp⟩ := C15_subimage2d 0 0 im W H f s w h px py hw hh hwh hpx hpy hW hH
  obtain ⟨q, eq, sq⟩ := C15_subimage2d 0 0 im W H f s w h qx qy hw hh hwh hqx hqy hW hH
  unfold subimage2d at ep eq
  have ed := pixelwiseTransform2_ok (fun a b : ℝ => (a - b) * (a - b)) sp.wf sq.wf (by rw [sp.size, sq.size])
    (prod_of_shows sp hw hh)
  have sd : (⟨p.size, List.zipWith (fun a b : ℝ => (a - b) * (a - b)) p.data q.data⟩ : Image ℝ).Shows w h
      (fun i j => (patchPx W H f w h px py i j - patchPx W H f w h qx qy i j) ^ 2) := by
    refine Image.Shows.of_data sp.w_lt sp.h_lt sp.fits sp.size (by simp [sp.len, sq.len]) fun x y hx hy => ?_
    rw [List.getElem?_zipWith, sp.data? hx hy, sq.data? hx hy]
    simp only [Option.some.injEq, patchPx]
    ring
  unfold PatchDistance
  rw [ep, Res.ok_bind, eq, Res.ok_bind, ed]
  have hsum : ∀ v, StdReduce (· + ·) (0 : ℝ) (List.zipWith (fun a b : ℝ => (a - b) * (a - b)) p.data q.data) v ↔
      v = ∑ j ∈ Finset.range h, ∑ i ∈ Finset.range w,
        (patchPx W H f w h px py i j - patchPx W H f w h qx qy i j) ^ 2 := by
    intro v
    rw [← data_sum sd]
    constructor
    · intro hv
      rw [stdReduce_eq _ add_assoc add_comm hv, List.sum_eq_foldl]
    · rintro rfl
      rw [List.sum_eq_foldl]
      exact stdReduce_exists _ _ _
  have hc : ((⟨p.size, List.zipWith (fun a b : ℝ => (a - b) * (a - b)) p.data q.data⟩ : Image ℝ)).count = w * h := sd.count
  simp only [MeanResult, SumResult, hsum, hc]
  constructor
  · rintro ⟨v, ⟨t, rfl, rfl⟩, rfl⟩; rfl
  · intro h; exact ⟨_, ⟨_, rfl, rfl⟩, h⟩

/-- The mean square of differences: symmetric, never negative, zero exactly for equal patches. -/
theorem C166_metric (w h : Nat) (hw : 0 < w) (hh : 0 < h) (P Q : Nat → Nat → ℝ) :
    meanSquare w h P Q = meanSquare w h Q P ∧ 0 ≤ meanSquare w h P Q ∧
      (meanSquare w h P Q = 0 ↔ ∀ i j, i < w → j < h → P i j = Q i j) := by
  have hpos : (0 : ℝ) < ((w * h : Nat) : ℝ) := by exact_mod_cast Nat.mul_pos hw hh
  refine ⟨?_, ?_, ?_⟩
  · unfold meanSquare
    congr 1
    exact Finset.sum_congr rfl fun j _ => Finset.sum_congr rfl fun i _ => by ring
  · exact div_nonneg (Finset.sum_nonneg fun j _ => Finset.sum_nonneg fun i _ => sq_nonneg _) hpos.le
  · unfold meanSquare
    rw [div_eq_zero_iff, or_iff_left hpos.ne', Finset.sum_eq_zero_iff_of_nonneg
      (fun j _ => Finset.sum_nonneg fun i _ => sq_nonneg _)]
    constructor
    · intro h0 i j hi hj
      have h1 := h0 j (Finset.mem_range.mpr hj)
      rw [Finset.sum_eq_zero_iff_of_nonneg fun i _ => sq_nonneg _] at h1
      exact sub_eq_zero.mp (pow_eq_zero_iff (two_ne_zero) |>.mp (h1 i (Finset.mem_range.mpr hi)))
    · intro h0 j hj
      refine Finset.sum_eq_zero fun i hi => ?_
      rw [h0 i j (Finset.mem_range.mp hi) (Finset.mem_range.mp hj)]; ring

example := C166_metric 3 2 (by decide) (by decide) (fun x y => (x : ℝ) - y) (fun _ y => (y : ℝ))

/-- The default weight of a distance: at most 1, 1 exactly for distance 0, and strictly smaller for a larger
distance, whatever the sign of the strength. -/
theorem C166_weight (h : ℝ) (hh : h ≠ 0) (d : ℝ) (hd : 0 ≤ d) :
    0 < defaultWeight h d ∧ defaultWeight h d ≤ 1 ∧ (defaultWeight h d = 1 ↔ d = 0) ∧
      (∀ d', d < d' → defaultWeight h d' < defaultWeight h d) ∧
      defaultWeight (-h) d = defaultWeight h d := by
  have h2 : 0 < h * h := mul_self_pos.mpr hh
  unfold defaultWeight
  refine ⟨Real.exp_pos _, ?_, ?_, ?_, by rw [neg_mul_neg]⟩
  · rw [Real.exp_le_one_iff]
    exact div_nonpos_of_nonpos_of_nonneg (by linarith) h2.le
  · rw [Real.exp_eq_one_iff, div_eq_zero_iff, or_iff_left h2.ne', neg_eq_zero]
  · intro d' hlt
    rw [Real.exp_lt_exp]
    exact (div_lt_div_iff_of_pos_right h2).mpr (by linarith)

/-- Two pixels of a 2 × 1 picture, at distance 9. -/
example : PatchDistance ⟨[2, 1], [1, 4]⟩ [0, 0] [1, 0] [1, 1] (.ok 9) := by
  have s : (⟨[2, 1], [1, 4]⟩ : Image ℝ).Shows 2 1 fun x _ => if x = 0 then 1 else 4 := by
    refine Image.Shows.of_data (by decide) (by decide) (by decide) rfl rfl fun x y hx hy => ?_
    obtain rfl : y = 0 := by omega
    obtain rfl | rfl : x = 0 ∨ x = 1 := by omega
    · simp
    · simp
  rw [C166_distance s 1 1 0 0 1 0 (by decide) (by decide) (by decide) (by decide) (by decide) (by decide) (by decide)
    (by decide) (by decide)]
  congr 1
  simp [meanSquare, patchPx]
  norm_num

/-! ## C167 the centre pixel -/

/-- The centre pixel of a picture is the one at half the width and half the height, rounded down. -/
theorem C167_planar {im : Image α} {w h : Nat} {f : Nat → Nat → α} (s : im.Shows w h f) (hw : 0 < w) (hh : 0 < h) :
    centerPixel im = .ok (f (w / 2) (h / 2)) := by
  have hb : InBounds im.size [w / 2, h / 2] := by rw [s.size, inBounds2]; omega
  rw [centerPixel, centerLocation, s.size]
  simp only [List.map_cons, List.map_nil]
  have := s.px (w / 2) (h / 2) (by omega) (by omega)
  rw [Image.at2, s.wf.at' hb] at this
  rw [← this]; simp [Image.atRangeUnchecked, s.wf.calculateIndex hb, vget_eq_ok (s.wf.rowMajor_lt hb)]

example : centerPixel sample2 = .ok 14 := C167_planar sample2_shows (by decide) (by decide)

/-- In any number of dimensions it is the pixel at half of every size. -/
theorem C167_any_dimension {im : Image α} (wf : im.WF) (hpos : ∀ n ∈ im.size, 0 < n) :
    centerPixel im = im.at' (im.size.map (· / 2)) ∧ ∃ v, centerPixel im = .ok v := by
  have hb : InBounds im.size (im.size.map (· / 2)) := by
    have : ∀ l : List Nat, (∀ n ∈ l, 0 < n) → InBounds l (l.map (· / 2)) := by
      intro l
      induction l with
      | nil => intro _; exact .nil
      | cons a l ih =>
        intro hl
        have h0 := hl a (by simp)
        exact .cons (Nat.div_lt_self h0 (by decide)) (ih fun n hn => hl n (by simp [hn]))
    exact this _ hpos
  have e : centerPixel im = im.at' (im.size.map (· / 2)) := by
    rw [wf.at' hb, centerPixel, centerLocation]
    simp [Image.atRangeUnchecked, wf.calculateIndex hb, vget_eq_ok (wf.rowMajor_lt hb)]
  exact ⟨e, by rw [e, wf.at' hb]; exact ⟨_, rfl⟩⟩

example := C167_any_dimension (im := Props.sample) Props.sample_wf (by decide)

/-- A picture without pixels has no centre pixel, and asking for it reads outside of the data. -/
theorem C167_empty_violation {im : Image α} {w h : Nat} {f : Nat → Nat → α} (s : im.Shows w h f) (h0 : w = 0 ∨ h = 0) :
    centerPixel im = .ub := by
  have hd : im.data = [] := by
    rw [← List.length_eq_zero_iff, s.len]; rcases h0 with rfl | rfl <;> simp
  rw [centerPixel, Image.atRangeUnchecked, calculateIndex_eq _ _ (by simp [centerLocation]), Res.ok_bind, hd]
  rfl

example : centerPixel (⟨[3, 2], [1, 2, 3, 4, 5, 6]⟩ : Image Int) = .ok 5 := by decide
example : centerPixel (⟨[2, 2, 2], [1, 2, 3, 4, 5, 6, 7, 8]⟩ : Image Int) = .ok 8 := by decide
example : centerPixel (⟨[0, 0], []⟩ : Image Int) = .ub := by decide

/-! ## C168 rotation in degrees -/

/-- Turning by a multiple of 90 degrees returns the picture unturned, whichever multiple. -/
theorem C168_degrees_violation (zero : α) {im : Image α} {w h : Nat} {f : Nat → Nat → α} (s : im.Shows w h f) (k : ℤ) :
    rotateDegree zero im (90 * k) = .ok im := by
  rw [rotateDegree, if_neg (by simp [s.dim]), ← C21_quarter_turns_dropped zero s k]
  congr 1
  ring

/-- The same for colour pictures. -/
theorem C168_colour_violation (zero : α) {im : Image (Px3 α)} {w h : Nat} {f : Nat → Nat → Px3 α} (s : im.Shows w h f)
    (hw : 0 < w) (hh : 0 < h) (k : ℤ) : rotateDegreeColour zero im (90 * k) = .ok im := by
  have ht : (90 * k : ℝ) * Real.pi / 180 = k * (Real.pi / 2) := by ring
  rw [rotateDegreeColour, if_neg (by simp [s.dim]), rotateColour, if_neg (by simp [s.dim]), ht]
  obtain ⟨out, e, so, -⟩ := applyEach_planes zero zero (fun p => rotate zero p (k * (Real.pi / 2))) s hw hh hw hh
    (C21_quarter_turns_dropped zero (map_shows s Px3.c0) k) (C21_quarter_turns_dropped zero (map_shows s Px3.c1) k)
    (C21_quarter_turns_dropped zero (map_shows s Px3.c2) k) (map_shows s Px3.c0) (map_shows s Px3.c1) (map_shows s Px3.c2)
  rw [e, so.ext s fun _ _ _ _ => rfl]

/-- The shear form in degrees does turn: `k` times 90 degrees are `k` quarter turns. -/
theorem C168_shear_degrees (zero : α) (interp : Image α → ℝ → ℝ → Res α) {im : Image α} {w h : Nat}
    {f : Nat → Nat → α} (s : im.Shows w h f)
    (hgrid : ∀ i j : Nat, i < w → j < h → interp im (i : ℝ) (j : ℝ) = .ok (f i j)) (k : ℤ) :
    ∃ out, shearDegree zero interp im (90 * k) = .ok out ∧
      out.Shows (turnSize (k % 4).toNat (w, h)).1 (turnSize (k % 4).toNat (w, h)).2 (turnPx w h f (k % 4).toNat) := by
  have ht : (90 * k : ℝ) * Real.pi / 180 = k * (Real.pi / 2) := by ring
  rw [shearDegree, if_neg (by simp [s.dim]), ht]
  exact C76_shear_quarter_turns zero interp s hgrid k

/-- 360 degrees more change nothing in the shear form. -/
theorem C168_shear_whole_turns (zero : α) (interp : Image α → ℝ → ℝ → Res α) (im : Image α) (d : ℝ) (k : ℤ) :
    shearDegree zero interp im (d + 360 * k) = shearDegree zero interp im d := by
  have ht : (d + 360 * k : ℝ) * Real.pi / 180 = d * Real.pi / 180 + k * (2 * Real.pi) := by ring
  rw [shearDegree, shearDegree, ht, C143_whole_turns]

/-- Whatever the integer, the picture keeps its size; 0 keeps the picture. Missing: where the pixels go. -/
theorem C168_integer_partial (zero : α) {im : Image α} {w h : Nat} {f : Nat → Nat → α} (s : im.Shows w h f) (r : Int) :
    (∀ out, rotateInt zero im r = .ok out → out.size = im.size) ∧ rotateInt zero im 0 = .ok im := by
  refine ⟨fun out e => ?_, ?_⟩
  · rw [rotateInt, if_neg (by simp [s.dim])] at e
    exact C21_size_kept zero s _ out e
  · have := C21_quarter_turns_dropped zero s 0
    rw [rotateInt, if_neg (by simp [s.dim])]
    simpa using this


/-- A quarter turn in degrees of a 3 × 2 picture: `rotate_degree` returns the picture, the shear form a 2 × 3
picture. -/
example : rotateDegree 0 sample2 (90 * (1 : ℤ)) = .ok sample2 ∧
    ∃ out g, shearDegree 0 (bilinear Conv.u8 0) (ofSizes (7 : BitVec 8) [3, 2]) (90 * (1 : ℤ)) = .ok out ∧ out.Shows 2 3 g := by
  refine ⟨C168_degrees_violation 0 sample2_shows 1, ?_⟩
  have s := ofSizes_shows (7 : BitVec 8) (w := 3) (h := 2) (by decide) (by decide) (by decide)
  obtain ⟨o, e, so⟩ := C168_shear_degrees 0 (bilinear Conv.u8 0) s
    (fun i j hi hj => C41_exact_on_grid Conv.u8 conv_u8_lawful 0 s i j hi hj) 1
  exact ⟨o, _, e, so⟩

/-! ## C169 differences of ranges -/

/-- The values of an integer type. -/
theorem diffElem_unsigned {bits : Nat} {a b : Int} (ha : 0 ≤ a) (hb : 0 ≤ b) (ha' : a < 2 ^ bits)
    (hb' : b < 2 ^ bits) : diffElem ⟨bits, false⟩ a b = .ok |a - b| := by
  unfold diffElem IntTy.conv
  simp only [Bool.false_eq_true, false_and, if_false]
  split
  · rw [Int.emod_eq_of_lt (by omega) (by omega), abs_of_nonneg (by omega)]
  · rw [Int.emod_eq_of_lt (by omega) (by omega), abs_sub_comm, abs_of_nonneg (by omega)]

theorem diffElem_signed {bits : Nat} (hbits : 0 < bits) {a b : Int} (h : |a - b| < 2 ^ (bits - 1)) :
    diffElem ⟨bits, true⟩ a b = .ok |a - b| := by
  have e : (if a > b then a - b else b - a) = |a - b| := by
    split
    · rw [abs_of_nonneg (by omega)]
    · rw [abs_sub_comm, abs_of_nonneg (by omega)]
  have h2 : (2 : Int) ^ bits = 2 * 2 ^ (bits - 1) := by
    rw [← pow_succ']; congr 1; omega
  have h0 := abs_nonneg (a - b)
  unfold diffElem IntTy.conv
  simp only [e, true_and, if_true, if_pos h]
  split
  · rfl
  · congr 1
    rw [h2, Int.emod_eq_of_lt (by omega) (by omega)]; omega

theorem differenceRange_map (t : IntTy) (l m : List Int) (hl : l.length = m.length) (g : Int × Int → Int)
    (hg : ∀ (k : Nat) (a b : Int), l[k]? = some a → m[k]? = some b → diffElem t a b = .ok (g (a, b))) (order : List Nat)
    (ho : order.Perm (List.range l.length)) :
    differenceRange t order l m = .ok ((l.zip m).map g) := by
  rw [differenceRange, if_neg (by simp [hl])]
  refine loop_listMap (l.zip m) (by simp [hl]) g _ order ?_ _ (by simp) ho
  intro i _ p hp d hd
  rw [List.getElem?_zip_eq_some] at hp
  obtain ⟨h1, h2⟩ := hp
  have hi : i < l.length := (List.getElem?_eq_some_iff.mp h1).1
  have e1 : vget l i = .ok p.1 := by
    rw [vget_eq_ok hi]; congr 1; exact (List.getElem?_eq_some_iff.mp h1).2
  have e2 : vget m i = .ok p.2 := by
    rw [vget_eq_ok (hl ▸ hi)]; congr 1; exact (List.getElem?_eq_some_iff.mp h2).2
  rw [e1, Res.ok_bind, e2, Res.ok_bind, hg i _ _ h1 h2, Res.ok_bind, vset_eq_ok _ (by omega)]

/-- Two ranges of unsigned elements of any width: the absolute differences, in every order of execution. -/
theorem C169_unsigned (bits : Nat) (l m : List Int) (hl : l.length = m.length)
    (hr : ∀ v ∈ l ++ m, 0 ≤ v ∧ v < 2 ^ bits) (order : List Nat) (ho : order.Perm (List.range l.length)) :
    differenceRange ⟨bits, false⟩ order l m = .ok ((l.zip m).map fun p => |p.1 - p.2|) := by
  refine differenceRange_map _ l m hl _ (fun k a b h1 h2 => ?_) order ho
  have ha := hr a (List.mem_append_left _ (List.mem_of_getElem? h1))
  have hb := hr b (List.mem_append_right _ (List.mem_of_getElem? h2))
  exact diffElem_unsigned ha.1 hb.1 ha.2 hb.2

/-- Signed elements: the absolute differences, as long as these fit the type. Missing: other differences, see
`C169_signed_violation`. -/
theorem C169_signed_partial (bits : Nat) (hb : 0 < bits) (l m : List Int) (hl : l.length = m.length)
    (hr : ∀ (k : Nat) (a b : Int), l[k]? = some a → m[k]? = some b → |a - b| < 2 ^ (bits - 1)) (order : List Nat)
    (ho : order.Perm (List.range l.length)) :
    differenceRange ⟨bits, true⟩ order l m = .ok ((l.zip m).map fun p => |p.1 - p.2|) :=
  differenceRange_map _ l m hl _ (fun k a b h1 h2 => diffElem_signed hb (hr k a b h1 h2)) order ho

example : differenceRange ⟨8, true⟩ [1, 0] [100, -3] [-20, 50] = .ok [120, 53] :=
  C169_signed_partial 8 (by decide) [100, -3] [-20, 50] rfl
    (by intro k a b ha hb
        match k, ha, hb with
        | 0, ha, hb => cases ha; cases hb; decide
        | 1, ha, hb => cases ha; cases hb; decide) [1, 0] (by decide)

/-- Signed elements whose difference does not fit: a wrapped, negative value for types narrower than `int`;
undefined behaviour for `int` and wider types. -/
theorem C169_signed_violation (bits : Nat) (hb : 0 < bits) (a b : Int) (ha : -(2 ^ (bits - 1)) ≤ a ∧ a < 2 ^ (bits - 1))
    (hb' : -(2 ^ (bits - 1)) ≤ b ∧ b < 2 ^ (bits - 1)) (h : 2 ^ (bits - 1) ≤ |a - b|) :
    (bits < 32 → differenceRange ⟨bits, true⟩ [0] [a] [b] = .ok [|a - b| - 2 ^ bits] ∧ |a - b| - 2 ^ bits < 0) ∧
    (32 ≤ bits → differenceRange ⟨bits, true⟩ [0] [a] [b] = .ub) := by
  have e : (if a > b then a - b else b - a) = |a - b| := by
    split
    · rw [abs_of_nonneg (by omega)]
    · rw [abs_sub_comm, abs_of_nonneg (by omega)]
  have h2 : (2 : Int) ^ bits = 2 * 2 ^ (bits - 1) := by
    rw [← pow_succ']; congr 1; omega
  have h3 : |a - b| < 2 ^ bits := by rw [h2, abs_lt]; omega
  constructor
  · intro hs
    refine ⟨?_, by omega⟩
    have : diffElem ⟨bits, true⟩ a b = .ok (|a - b| - 2 ^ bits) := by
      unfold diffElem IntTy.conv
      simp only [e, true_and, if_true]
      rw [if_neg (by omega)]
      congr 1
      have : (|a - b| + 2 ^ (bits - 1)) % 2 ^ bits = |a - b| + 2 ^ (bits - 1) - 2 ^ bits := by
        clear e
        generalize |a - b| = d at *
        rw [← Int.sub_emod_right, Int.emod_eq_of_lt (by omega) (by omega)]
      rw [this]; ring
    simp [differenceRange, loop, vget, vset, this]
  · intro hs
    have : diffElem ⟨bits, true⟩ a b = .ub := by
      unfold diffElem
      simp only [e, true_and]
      rw [if_pos hs, if_neg (by omega)]
    simp [differenceRange, loop, vget, vset, this]

/-- Ranges of different lengths are refused. -/
theorem C169_refused (t : IntTy) (l m : List Int) (h : l.length ≠ m.length) (order : List Nat) :
    differenceRange t order l m = .throw .runtime := by
  rw [differenceRange, if_pos h]

example : differenceRange ⟨8, false⟩ [1, 0] [200, 3] [5, 250] = .ok [195, 247] :=
  C169_unsigned 8 [200, 3] [5, 250] rfl (by decide) [1, 0] (by decide)
example : differenceRange ⟨8, true⟩ [0] [100] [-100] = .ok [-56] := by decide
example : differenceRange ⟨32, true⟩ [0] [2147483647] [-1] = .ub :=
  (C169_signed_violation 32 (by decide) _ _ (by decide) (by decide) (by decide)).2 (by decide)

/-! ## C170 LaTeX -/

theorem dec_toList (n : Nat) : (dec n).toList = Cli.toStr n := by
  simp only [dec, Cli.toStr, toString, Nat.repr, String.toList_ofList]

theorem latexLine_eq (x y : Nat) (p : RGB) :
    latexLine x y p = (drawn x y p.c0.toNat p.c1.toNat p.c2.toNat).toList := by
  unfold latexLine drawn
  generalize "\\draw (" = s1
  generalize ") node[anchor=south,fill={rgb:red," = s2
  generalize "}] {};\n" = s3
  generalize ";green," = s4
  generalize ";blue," = s5
  generalize "," = s6
  rw [String.toList_append, String.toList_append, String.toList_append, String.toList_append,
    String.toList_append, String.toList_append, String.toList_append, String.toList_append,
    String.toList_append, String.toList_append, dec_toList, dec_toList, dec_toList, dec_toList, dec_toList]

/-- The text written is the opening line, one line for each pixel, row by row, and the closing line. -/
theorem C170_text {im : Image RGB} {w h : Nat} {f : Nat → Nat → RGB} (s : im.Shows w h f) :
    latex im = .ok ("\\begin{tikzpicture}[x=1cm,y=0.4cm]\n".toList ++
      ((List.range h).flatMap fun y => (List.range w).flatMap fun x =>
        (drawn x y (f x y).c0.toNat (f x y).c1.toNat (f x y).c2.toNat).toList) ++
      "\\end{tikzpicture}\n".toList) := by
  have key : ∀ (l : List (Nat × Nat)) (acc : Cli.Str), (∀ p ∈ l, p.1 < w ∧ p.2 < h) →
      pixFor l (fun out x y => do
        let p ← im.at2 x y
        .ok (out ++ latexLine x y p)) acc = .ok (acc ++ l.flatMap fun p => latexLine p.1 p.2 (f p.1 p.2)) := by
    intro l
    induction l with
    | nil => intro acc _; simp [pixFor, loop]
    | cons q l ih =>
      intro acc hl
      have hq := hl q (by simp)
      have := ih (acc ++ latexLine q.1 q.2 (f q.1 q.2)) fun p hp => hl p (by simp [hp])
      unfold pixFor at this ⊢
      rw [loop]
      simp only [s.px _ _ hq.1 hq.2, Res.ok_bind]
      rw [this]; simp
  rw [latex, s.width, s.height, key _ _ fun p hp => mem_iterYX.mp hp, Res.ok_bind]
  congr 3
  unfold iterYX
  simp only [List.flatMap_assoc, List.flatMap_map, latexLine_eq]


example := C170_text (picture_shows 3 2 fun x y => (⟨BitVec.ofNat 8 x, BitVec.ofNat 8 y, 7⟩ : RGB))

/-- A line without its line break. -/
def lineBody (q : Nat × Nat × Nat × Nat × Nat) : Cli.Str :=
  "\\draw (".toList ++ (Cli.toStr q.1 ++ ',' :: (Cli.toStr q.2.1 ++ ')' :: (" node[anchor=south,fill={rgb:red,".toList ++
    (Cli.toStr q.2.2.1 ++ ';' :: ("green,".toList ++ (Cli.toStr q.2.2.2.1 ++ ';' :: ("blue,".toList ++
      (Cli.toStr q.2.2.2.2 ++ '}' :: "] {};".toList))))))))

theorem latexLine_body (x y : Nat) (p : RGB) :
    latexLine x y p = lineBody (x, y, p.c0.toNat, p.c1.toNat, p.c2.toNat) ++ ['\n'] := by
  have h1 : ") node[anchor=south,fill={rgb:red,".toList = ')' :: " node[anchor=south,fill={rgb:red,".toList := by
    decide +kernel
  have h2 : ";green,".toList = ';' :: "green,".toList := by decide +kernel
  have h3 : ";blue,".toList = ';' :: "blue,".toList := by decide +kernel
  have h4 : "}] {};\n".toList = '}' :: ("] {};".toList ++ ['\n']) := by decide +kernel
  have h5 : ",".toList = [','] := by decide +kernel
  unfold latexLine lineBody
  rw [h1, h2, h3, h4, h5]
  simp only [List.append_assoc, List.cons_append, List.nil_append]

theorem toStr_cancel {a b : Nat} {c : Char} {r r' : Cli.Str} (hc : c.isDigit = false)
    (h : Cli.toStr a ++ c :: r = Cli.toStr b ++ c :: r') : a = b ∧ r = r' := by
  have ha := Text.takeWhile_digits a (c :: r) (by simpa using hc)
  have hb := Text.takeWhile_digits b (c :: r') (by simpa using hc)
  rw [h, hb.1] at ha
  rw [hb.2] at ha
  exact ⟨Cli.toStr_inj ha.1.symm, (List.cons.inj ha.2).2.symm⟩

theorem lineBody_inj {q q' : Nat × Nat × Nat × Nat × Nat} (h : lineBody q = lineBody q') : q = q' := by
  obtain ⟨a, b, c, d, e⟩ := q
  obtain ⟨a', b', c', d', e'⟩ := q'
  unfold lineBody at h
  obtain ⟨rfl, h⟩ := toStr_cancel (by decide) (List.append_cancel_left h)
  obtain ⟨rfl, h⟩ := toStr_cancel (by decide) h
  obtain ⟨rfl, h⟩ := toStr_cancel (by decide) (List.append_cancel_left h)
  obtain ⟨rfl, h⟩ := toStr_cancel (by decide) (List.append_cancel_left h)
  obtain ⟨rfl, h⟩ := toStr_cancel (by decide) (List.append_cancel_left h)
  rfl

theorem lineBody_no_break (q : Nat × Nat × Nat × Nat × Nat) : '\n' ∉ lineBody q := by
  have hd : ∀ n, '\n' ∉ Cli.toStr n := fun n hn => by
    have := Cli.isDigit_toStr hn
    revert this; decide
  have h1 : '\n' ∉ "\\draw (".toList := by decide +kernel
  have h2 : '\n' ∉ " node[anchor=south,fill={rgb:red,".toList := by decide +kernel
  have h3 : '\n' ∉ "green,".toList := by decide +kernel
  have h4 : '\n' ∉ "blue,".toList := by decide +kernel
  have h5 : '\n' ∉ "] {};".toList := by decide +kernel
  unfold lineBody
  simp only [List.mem_append, List.mem_cons, hd, h1, h2, h3, h4, h5, or_false, false_or]
  decide

/-- The text determines the picture: its size and every pixel. -/
theorem C170_lossless {im im' : Image RGB} {w h w' h' : Nat} {f f' : Nat → Nat → RGB} (s : im.Shows w h f)
    (s' : im'.Shows w' h' f') (hw : 0 < w) (hh : 0 < h) (hw' : 0 < w') (hh' : 0 < h')
    (e : latex im = latex im') : im = im' := by
  rw [C170_text s, C170_text s'] at e
  injection e with e
  have e := List.append_cancel_right e
  have e := List.append_cancel_left e
  have step : ∀ (w h : Nat) (f : Nat → Nat → RGB),
      ((List.range h).flatMap fun y => (List.range w).flatMap fun x =>
        (drawn x y (f x y).c0.toNat (f x y).c1.toNat (f x y).c2.toNat).toList) =
      (((iterYX w h).map fun p => lineBody (p.1, p.2, (f p.1 p.2).c0.toNat, (f p.1 p.2).c1.toNat,
        (f p.1 p.2).c2.toNat)).flatMap fun r => r ++ ['\n']) ++ [] := by
    intro w h f
    unfold iterYX
    simp only [List.append_nil, List.flatMap_assoc, List.flatMap_map, ← latexLine_eq, latexLine_body]
  rw [step, step] at e
  have e := congrArg (Text.getlines '\n') e
  have hno : ∀ (w h : Nat) (f : Nat → Nat → RGB), ∀ r ∈ (iterYX w h).map fun p =>
      lineBody (p.1, p.2, (f p.1 p.2).c0.toNat, (f p.1 p.2).c1.toNat, (f p.1 p.2).c2.toNat), '\n' ∉ r := by
    intro w h f r hr
    obtain ⟨p, -, rfl⟩ := List.mem_map.mp hr
    exact lineBody_no_break _
  rw [Text.getlines_lines _ (hno w h f), Text.getlines_lines _ (hno w' h' f')] at e
  have e := List.append_cancel_right e
  have mem : ∀ x y, x < w → y < h → x < w' ∧ y < h' ∧ f x y = f' x y := by
    intro x y hx hy
    have hm : lineBody (x, y, (f x y).c0.toNat, (f x y).c1.toNat, (f x y).c2.toNat) ∈
        (iterYX w h).map fun p => lineBody (p.1, p.2, (f p.1 p.2).c0.toNat, (f p.1 p.2).c1.toNat,
          (f p.1 p.2).c2.toNat) := List.mem_map.mpr ⟨(x, y), mem_iterYX.mpr ⟨hx, hy⟩, rfl⟩
    rw [e] at hm
    obtain ⟨⟨x', y'⟩, hp, he⟩ := List.mem_map.mp hm
    have hq := lineBody_inj he
    simp only [Prod.mk.injEq] at hq
    obtain ⟨rfl, rfl, h0, h1, h2⟩ := hq
    have hp := mem_iterYX.mp hp
    refine ⟨hp.1, hp.2, ?_⟩
    have p0 := BitVec.eq_of_toNat_eq h0
    have p1 := BitVec.eq_of_toNat_eq h1
    have p2 := BitVec.eq_of_toNat_eq h2
    cases hf : f x' y'; cases hf' : f' x' y'
    simp only [hf, hf'] at p0 p1 p2
    simp [p0, p1, p2]
  have mem' : ∀ x y, x < w' → y < h' → x < w ∧ y < h := by
    intro x y hx hy
    have hm : lineBody (x, y, (f' x y).c0.toNat, (f' x y).c1.toNat, (f' x y).c2.toNat) ∈
        (iterYX w' h').map fun p => lineBody (p.1, p.2, (f' p.1 p.2).c0.toNat, (f' p.1 p.2).c1.toNat,
          (f' p.1 p.2).c2.toNat) := List.mem_map.mpr ⟨(x, y), mem_iterYX.mpr ⟨hx, hy⟩, rfl⟩
    rw [← e] at hm
    obtain ⟨⟨x', y'⟩, hp, he⟩ := List.mem_map.mp hm
    have hq := lineBody_inj he
    simp only [Prod.mk.injEq] at hq
    obtain ⟨rfl, rfl, -⟩ := hq
    exact mem_iterYX.mp hp
  have a1 := mem (w - 1) (h - 1) (by omega) (by omega)
  have a2 := mem' (w' - 1) (h' - 1) (by omega) (by omega)
  obtain rfl : w = w' := by omega
  obtain rfl : h = h' := by omega
  exact s.ext s' fun x y hx hy => (mem x y hx hy).2.2

example : latex (⟨[1, 1], [⟨1, 20, 255⟩]⟩ : Image RGB) = .ok
    "\\begin{tikzpicture}[x=1cm,y=0.4cm]\n\\draw (0,0) node[anchor=south,fill={rgb:red,1;green,20;blue,255}] {};\n\\end{tikzpicture}\n".toList := by
  decide +kernel

/-! ## C171 conversions of the element type -/

/-- `to_double` converts every element and keeps the size, in every order of execution. -/
theorem C171_to_double (num : α → ℝ) {im : Image α} {w h : Nat} {f : Nat → Nat → α} (s : im.Shows w h f)
    (hw : 0 < w) (hh : 0 < h) (order : List Nat) (ho : order.Perm (List.range (w * h))) :
    ∃ out, toDouble num order im = .ok out ∧ out.Shows w h fun x y => num (f x y) := by
  refine ⟨_, ?_, map_shows s num⟩
  rw [toDouble, pixelwiseTransformPolicy, policyTransform,
    loop_listMap im.data s.len num _ order ?_ _ (by simp [s.len]) ho, Res.ok_bind]
  · exact ofData_ok (by simpa using s.wf.len) s.wf.fits (prod_of_shows s hw hh)
  · intro i _ a ha d hd
    have hi : i < im.data.length := (List.getElem?_eq_some_iff.mp ha).1
    have : vget im.data i = .ok a := by
      rw [vget_eq_ok hi]; congr 1; exact (List.getElem?_eq_some_iff.mp ha).2
    rw [this, Res.ok_bind, vset_eq_ok _ (by rw [hd, ← s.len]; exact hi)]

example := C171_to_double (fun n : Nat => (n : ℝ)) sample2_shows (by decide) (by decide) _ (List.reverse_perm _)

/-- `to_string` gives numbers that `std::stoi` reads back, for all `int` elements. -/
theorem C171_to_string {im : Image Int} {w h : Nat} {f : Nat → Nat → Int} (s : im.Shows w h f) (hw : 0 < w)
    (hh : 0 < h) (hr : ∀ x y, x < w → y < h → -(2 ^ 31) ≤ f x y ∧ f x y < 2 ^ 31) :
    ∃ out g, toStringImage im = .ok out ∧ out.Shows w h g ∧
      ∀ x y, x < w → y < h → Text.stoi (g x y) = .ok (f x y) :=
  ⟨_, _, pixelwiseTransform_ok _ s.wf (prod_of_shows s hw hh), map_shows s Text.intStr,
    fun x y hx hy => Text.stoi_intStr (hr x y hx hy).1 (hr x y hx hy).2⟩

example := C171_to_string (picture_shows 3 2 fun x y => (x : Int) - 100 * y) (by decide) (by decide)
  (fun x y hx hy => by omega)

/-- `to_complex` of a value of several channels: the channels are the real parts, in every order. -/
theorem C171_to_complex (channels : List ℝ) (order : List Nat) (ho : order.Perm (List.range channels.length)) :
    toComplexChannels order channels = .ok (channels.map fun v => (v, 0)) := by
  rw [toComplexChannels]
  refine loop_listMap channels rfl (fun v => (v, (0 : ℝ))) _ order ?_ _ (by simp) ho
  intro i _ a ha d hd
  have hi : i < channels.length := (List.getElem?_eq_some_iff.mp ha).1
  have : vget channels i = .ok a := by
    rw [vget_eq_ok hi]; congr 1; exact (List.getElem?_eq_some_iff.mp ha).2
  rw [this, Res.ok_bind, vset_eq_ok _ (by omega)]

example : toStringImage ⟨[2, 1], [-12, 305]⟩ = .ok ⟨[2, 1], ["-12".toList, "305".toList]⟩ := by decide +kernel

end TinyDIP.Props
