import Verif.Lemmas.Samples
import Verif.Lemmas.Bilateral

/-!
# Property theorems: bilateral filtering (C109)

Full statement of C109: each pixel of the result is the mean of the window around it in the padded
input, weighted by `range_kernel(|value - centre value|) * spatial_kernel(distance to the centre)`.

What is missing: the filter runs on the picture it is modifying (see C22), and the distance to the
centre is computed from wrapped-around unsigned differences for positions left of or above the centre.
-/

namespace TinyDIP.Filter

open TinyDIP Image Finset

/-! ## C109 -/

/-- One window: the result is the mean of the window, weighted by the range kernel of the difference to
the centre value times the spatial weight. -/
theorem C109_window (R : ℝ → ℝ) (win weight : Image ℝ) (ww wh : Nat) (fw g : Nat → Nat → ℝ)
    (sw : win.Shows ww wh fw) (sg : weight.Shows ww wh g) (hw0 : 0 < ww) (hh0 : 0 < wh) :
    let wt := fun a b => R |fw a b - fw (ww / 2) (wh / 2)| * g a b
    bilateralDetail R weight win = .ok
      (((range wh).sum fun b => (range ww).sum fun a => fw a b * wt a b) /
        ((range wh).sum fun b => (range ww).sum fun a => wt a b)) :=
  bilateralDetail_eq R sw sg hw0 hh0

example := C109_window (bell 2) _ _ 3 5 _ _ (picture_shows 3 5 fun x y => ((x * y : Nat) : ℝ))
  (picture_shows 3 5 fun x y => ((x + y : Nat) : ℝ)) (by decide) (by decide)

/-- Spatial weights right of and below the centre (inclusive) are the kernel of the Euclidean distance.
Missing: the other positions, see the violation. -/
theorem C109_spatial_partial (ww wh : Nat) (hw : ww < 2 ^ 64) (hh : wh < 2 ^ 64) (hf : ww * wh < 2 ^ 64)
    (K : ℝ → ℝ) :
    ∃ out g, spatialKernelWeight [ww, wh] K = .ok out ∧ out.Shows ww wh g ∧
      ∀ a b, ww / 2 ≤ a → a < ww → wh / 2 ≤ b → b < wh →
        g a b = K (Real.sqrt (((a : ℝ) - (ww / 2 : Nat)) ^ 2 + ((b : ℝ) - (wh / 2 : Nat)) ^ 2)) := by
  obtain ⟨out, e, s⟩ := spatialKernelWeight_shows hw hh hf K
  refine ⟨out, _, e, s, fun a b ha ha' hb hb' => ?_⟩
  unfold codeDistance
  rw [wsub_of_le ha (by omega), wsub_of_le hb (by omega), Nat.cast_sub ha, Nat.cast_sub hb]

example := C109_spatial_partial 3 5 (by decide) (by decide) (by decide) (bell 2)

/-- Violation: for every kernel, the window position directly left of the centre gets the weight of
distance `2^64 - 1` instead of 1, while the position directly right of it gets the weight of distance 1. -/
theorem C109_spatial_violation (K : ℝ → ℝ) (r : Nat) (hr : 0 < r) (hb : 2 * r + 1 < 2 ^ 64) :
    ∃ out, spatialKernelWeight [2 * r + 1, 1] K = .ok out ∧
      out.at2 (r - 1) 0 = .ok (K (2 ^ 64 - 1)) ∧ out.at2 (r + 1) 0 = .ok (K 1) := by
  obtain ⟨out, e, s⟩ := spatialKernelWeight_shows (ww := 2 * r + 1) (wh := 1) hb (by decide) (by simpa using hb) K
  refine ⟨out, e, ?_, ?_⟩
  · rw [s.px (r - 1) 0 (by omega) (by omega)]
    unfold codeDistance
    have h1 : (2 * r + 1) / 2 = r := by omega
    have h2 : wsub (r - 1) r = 2 ^ 64 - 1 := by rw [wsub_of_gt (by omega) (by omega)]; omega
    have h3 : wsub 0 (1 / 2) = 0 := by decide
    rw [h1, h2, h3]
    refine congrArg (fun t => Res.ok (K t)) ?_
    rw [Nat.cast_zero, zero_pow two_ne_zero, add_zero, Real.sqrt_sq (Nat.cast_nonneg _)]
    norm_num
  · rw [s.px (r + 1) 0 (by omega) (by omega)]
    unfold codeDistance
    have h1 : (2 * r + 1) / 2 = r := by omega
    have h2 : wsub (r + 1) r = 1 := by rw [wsub_of_le (by omega) (by omega)]; omega
    have h3 : wsub 0 (1 / 2) = 0 := by decide
    rw [h1, h2, h3]
    simp

theorem bilateral_window_range {R K : ℝ → ℝ} (hR : ∀ t, 0 ≤ R t) (hR0 : 0 < R 0) (hK : ∀ t, 0 ≤ K t)
    (hK0 : 0 < K 0) {ww wh : Nat} (hw : ww < 2 ^ 64) (hh : wh < 2 ^ 64) (hf : ww * wh < 2 ^ 64)
    (hw0 : 0 < ww) (hh0 : 0 < wh) {lo hi : ℝ} (win : Image ℝ) (fw : Nat → Nat → ℝ) (sw : win.Shows ww wh fw)
    (hr : ∀ a b, a < ww → b < wh → lo ≤ fw a b ∧ fw a b ≤ hi) :
    ∃ v, (do
      let weight ← spatialKernelWeight [ww, wh] K
      bilateralDetail R weight win) = .ok v ∧ lo ≤ v ∧ v ≤ hi := by
  obtain ⟨wt, e, s⟩ := spatialKernelWeight_shows hw hh hf K
  refine ⟨_, by rw [e, Res.ok_bind, bilateralDetail_eq R sw s hw0 hh0], ?_⟩
  have h0 : ∀ a b, 0 ≤ weightOf R (fun a b => K (codeDistance ww wh a b)) (fw (ww / 2) (wh / 2)) fw a b :=
    fun a b => mul_nonneg (hR _) (hK _)
  have hc : 0 < weightOf R (fun a b => K (codeDistance ww wh a b)) (fw (ww / 2) (wh / 2)) fw (ww / 2) (wh / 2) := by
    unfold weightOf codeDistance
    dsimp only
    rw [wsub_of_le le_rfl (by omega), wsub_of_le le_rfl (by omega)]
    simp
    exact mul_pos hR0 hK0
  generalize weightOf R (fun a b => K (codeDistance ww wh a b)) (fw (ww / 2) (wh / 2)) fw = u at *
  have hpos : 0 < (range wh).sum fun b => (range ww).sum fun a => u a b := by
    refine Finset.sum_pos' (fun b _ => Finset.sum_nonneg fun a _ => h0 a b)
      ⟨wh / 2, Finset.mem_range.mpr (by omega), ?_⟩
    exact Finset.sum_pos' (fun a _ => h0 a _) ⟨ww / 2, Finset.mem_range.mpr (by omega), hc⟩
  constructor
  · rw [le_div_iff₀ hpos, Finset.mul_sum]
    refine Finset.sum_le_sum fun b hb => ?_
    rw [Finset.mul_sum]
    exact Finset.sum_le_sum fun a ha => mul_le_mul_of_nonneg_right
      (hr a b (Finset.mem_range.mp ha) (Finset.mem_range.mp hb)).1 (h0 a b)
  · rw [div_le_iff₀ hpos, Finset.mul_sum]
    refine Finset.sum_le_sum fun b hb => ?_
    rw [Finset.mul_sum]
    exact Finset.sum_le_sum fun a ha => mul_le_mul_of_nonneg_right
      (hr a b (Finset.mem_range.mp ha) (Finset.mem_range.mp hb)).2 (h0 a b)

/-- Whatever the order in which the pixels are processed, for kernels that are never negative and
positive at zero the result has the input's size and stays within the range of the input (and of the
padding value, if it is used). -/
theorem C109_range (R K : ℝ → ℝ) (hR : ∀ t, 0 ≤ R t) (hR0 : 0 < R 0) (hK : ∀ t, 0 ≤ K t)
    (hK0 : 0 < K 0) (im : Image ℝ) (w h : Nat) (f : Nat → Nat → ℝ) (s : im.Shows w h f) (hw0 : 0 < w)
    (hh0 : 0 < h) (ww wh : Nat) (hww : 0 < ww) (hwh : 0 < wh) (b : Boundary) (v : ℝ)
    (hc : CanPad b w h ww wh) (hx : 2 * (w + 2 * ww) < 2 ^ 64) (hy : 2 * (h + 2 * wh) < 2 ^ 64)
    (hf : (w + 2 * ww) * (h + 2 * wh) < 2 ^ 64) (order : List Nat) (ho : order.Perm (List.range (w * h)))
    (lo hi : ℝ) (hr : ∀ x y, x < w → y < h → lo ≤ f x y ∧ f x y ≤ hi)
    (hv : b = .constant → lo ≤ v ∧ v ≤ hi) :
    ∃ out g, bilateralFilterOrd order im [ww, wh] R K b v = .ok out ∧ out.Shows w h g ∧
      ∀ x y, x < w → y < h → lo ≤ g x y ∧ g x y ≤ hi := by
  obtain ⟨pad, ep, sp⟩ := paddedImage_extend s (n1 := ww) (n2 := wh) v hc (by omega) (by omega) hf
  have hwin : ww * wh < 2 ^ 64 := lt_of_le_of_lt (Nat.mul_le_mul (by omega) (by omega)) hf
  refine windowedFilter_inv 0 s hw0 hh0 hww hwh hwin hx hy b v _ pad ep sp _
    (fun t => lo ≤ t ∧ t ≤ hi) ?_ ?_ order (fun k hk => List.mem_range.mp (ho.mem_iff.mp hk))
  · intro X Y hX hY
    cases b with
    | constant =>
      unfold extend
      dsimp only
      split
      · exact hr _ _ (by omega) (by omega)
      · exact hv rfl
    | mirror =>
      obtain ⟨h1, h2⟩ := hc
      refine hr _ _ ?_ ?_
      · unfold reflectInt; repeat' split
        all_goals omega
      · unfold reflectInt; repeat' split
        all_goals omega
    | replicate =>
      obtain ⟨h1, h2⟩ := hc
      refine hr _ _ ?_ ?_ <;> unfold clampInt <;> omega
  · intro win fw sw hfw
    exact bilateral_window_range hR hR0 hK hK0 (by omega) (by omega) hwin hww hwh win fw sw hfw

example := C109_range (bell 2) (bell 3) (fun t => (bell_pos 2 t).le) (bell_pos 2 0) (fun t => (bell_pos 3 t).le) (bell_pos 3 0)
  _ 7 6 _ (picture_shows 7 6 fun x y => if x = y then (1 : ℝ) else 0) (by decide) (by decide) 3 3 (by decide) (by decide)
  .mirror 0 (by unfold CanPad; decide) (by decide) (by decide) (by decide) _ (List.reverse_perm _) 0 1
  (fun x y _ _ => by split <;> norm_num) (fun h => by cases h)

/-- A picture of one colour is left unchanged. -/
theorem C109_constant (R K : ℝ → ℝ) (hR : ∀ t, 0 ≤ R t) (hR0 : 0 < R 0) (hK : ∀ t, 0 ≤ K t)
    (hK0 : 0 < K 0) (im : Image ℝ) (w h : Nat) (c : ℝ) (s : im.Shows w h (fun _ _ => c)) (hw0 : 0 < w)
    (hh0 : 0 < h) (ww wh : Nat) (hww : 0 < ww) (hwh : 0 < wh) (b : Boundary) (v : ℝ)
    (hc : CanPad b w h ww wh) (hx : 2 * (w + 2 * ww) < 2 ^ 64) (hy : 2 * (h + 2 * wh) < 2 ^ 64)
    (hf : (w + 2 * ww) * (h + 2 * wh) < 2 ^ 64) (order : List Nat) (ho : order.Perm (List.range (w * h)))
    (hv : b = .constant → v = c) :
    bilateralFilterOrd order im [ww, wh] R K b v = .ok im := by
  obtain ⟨out, g, e, so, hg⟩ := C109_range R K hR hR0 hK hK0 im w h _ s hw0 hh0 ww wh hww hwh b v hc hx hy
    hf order ho c c (fun _ _ _ _ => ⟨le_rfl, le_rfl⟩) (fun hb => by rw [hv hb]; exact ⟨le_rfl, le_rfl⟩)
  rw [e]
  exact congrArg Res.ok (so.ext s fun x y hx' hy' => le_antisymm (hg x y hx' hy').2 (hg x y hx' hy').1)

/-- The hypotheses are met: Gaussian kernels, a 7 × 6 image, a 3 × 3 window. -/
example : (∀ t, 0 ≤ bell 2 t) ∧ 0 < bell 2 0 ∧ CanPad .mirror 7 6 3 3 ∧
    (7 + 2 * 3) * (6 + 2 * 3) < 2 ^ 64 ∧ ∃ im : Image ℝ, im.Shows 7 6 (fun _ _ => 5) :=
  ⟨fun t => (bell_pos 2 t).le, bell_pos 2 0, by unfold CanPad; decide, by decide, ofSizes 5 [7, 6],
    ofSizes_shows 5 (by decide) (by decide) (by decide)⟩

end TinyDIP.Filter
