import Verif.Lemmas.Samples
import Verif.Model.Elementwise
import Verif.Spec.Elementwise
import Verif.Props.Arith
import Mathlib.Tactic.FieldSimp
import Mathlib.Tactic.Positivity

/-!
# Property C120: mathematical functions applied to images
-/

namespace TinyDIP.Props

open Image Arith Elem Spec.Elem

variable {α β C D : Type}

theorem recip_mul {K : Type} [Field K] [DecidableEq K] {v : K} (hv : v ≠ 0) :
    ∃ y, recip v = some y ∧ y * v = 1 := by
  refine ⟨1 / v, by rw [recip, if_neg hv], ?_⟩
  field_simp

theorem trig_real (f : Trig) (x : ℝ) : IsTrig f x (f.real x) := by
  classical
  cases f with
  | sin => rfl
  | cos => rfl
  | tan =>
    intro h
    simp only [Trig.real, stdTan, if_neg h, Real.tan_eq_sin_div_cos]
  | cot =>
    intro h
    by_cases hc : Real.cos x = 0
    · simp [Trig.real, stdTan, hc]
    · have ht : Real.tan x ≠ 0 := by
        rw [Real.tan_eq_sin_div_cos]; exact div_ne_zero h hc
      simp only [Trig.real, stdTan, if_neg hc, recip, if_neg ht]
      rw [Real.tan_eq_sin_div_cos, one_div_div]
  | sec => intro h; simpa [Trig.real] using recip_mul h
  | csc => intro h; simpa [Trig.real] using recip_mul h

theorem trig_complex (f : Trig) (x : ℂ) : IsTrigC f x (f.complex x) := by
  classical
  cases f with
  | sin => rfl
  | cos => rfl
  | tan =>
    intro h
    simp only [Trig.complex, stdTanC, if_neg h, Complex.tan_eq_sin_div_cos]
  | cot =>
    intro h
    by_cases hc : Complex.cos x = 0
    · simp [Trig.complex, stdTanC, hc]
    · have ht : Complex.tan x ≠ 0 := by
        rw [Complex.tan_eq_sin_div_cos]; exact div_ne_zero h hc
      simp only [Trig.complex, stdTanC, if_neg hc, recip, if_neg ht]
      rw [Complex.tan_eq_sin_div_cos, one_div_div]
  | sec => intro h; simpa [Trig.complex] using recip_mul h
  | csc => intro h; simpa [Trig.complex] using recip_mul h

theorem inv_real (f : Inv) (x : ℝ) : IsInv f x (f.real x) := by
  cases f with
  | asin =>
    constructor
    · intro h
      have h' := abs_le.mp h
      exact ⟨Real.arcsin x, by simp only [Inv.real]; rw [if_pos h'], Real.sin_arcsin h'.1 h'.2,
        Real.neg_pi_div_two_le_arcsin x, Real.arcsin_le_pi_div_two x⟩
    · intro h
      simp only [Inv.real]
      rw [if_neg (fun h' => absurd (abs_le.mpr h') (not_le.mpr h))]
  | acos =>
    constructor
    · intro h
      have h' := abs_le.mp h
      exact ⟨Real.arccos x, by simp only [Inv.real]; rw [if_pos h'], Real.cos_arccos h'.1 h'.2,
        Real.arccos_nonneg x, Real.arccos_le_pi x⟩
    · intro h
      simp only [Inv.real]
      rw [if_neg (fun h' => absurd (abs_le.mpr h') (not_le.mpr h))]

theorem imageFn_ok (f : α → β) {im : Image α} (wf : im.WF) (h0 : 0 < im.size.prod) :
    imageFn f im = .ok ⟨im.size, im.data.map f⟩ := ofData_ok (by simpa using wf.len) wf.fits h0

/-- `sin`, `cos`, `tan`, `cot`, `sec` and `csc` of an image of real numbers: an image of the same size
whose pixels are the values of the function. -/
theorem C120_trig (f : Trig) (im : Image ℝ) (wf : im.WF) (h0 : 0 < im.size.prod) :
    ∃ out, imageFn f.real im = .ok out ∧ out.WF ∧ out.size = im.size ∧
      ∀ idx v, im.at' idx = .ok v → ∃ r, out.at' idx = .ok r ∧ IsTrig f v r :=
  ⟨_, imageFn_ok _ wf h0, wf.map _, rfl, fun _ v h => ⟨_, wf.map_at _ h, trig_real f v⟩⟩

example (f : Trig) := C120_trig f (picture 3 2 fun x y => (x : ℝ) - 2 * y) (picture_wf ..) (by decide)

/-- The same for images of complex numbers. -/
theorem C120_trig_complex (f : Trig) (im : Image ℂ) (wf : im.WF) (h0 : 0 < im.size.prod) :
    ∃ out, imageFn f.complex im = .ok out ∧ out.WF ∧ out.size = im.size ∧
      ∀ idx v, im.at' idx = .ok v → ∃ r, out.at' idx = .ok r ∧ IsTrigC f v r :=
  ⟨_, imageFn_ok _ wf h0, wf.map _, rfl, fun _ v h => ⟨_, wf.map_at _ h, trig_complex f v⟩⟩

example (f : Trig) := C120_trig_complex f (picture 3 2 fun x y => ⟨x, y⟩) (picture_wf ..) (by decide)

/-- `asin` and `acos` of an image of real numbers: the angle in the principal range, no number outside
[-1, 1]. -/
theorem C120_inverse (f : Inv) (im : Image ℝ) (wf : im.WF) (h0 : 0 < im.size.prod) :
    ∃ out, imageFn f.real im = .ok out ∧ out.WF ∧ out.size = im.size ∧
      ∀ idx v, im.at' idx = .ok v → ∃ r, out.at' idx = .ok r ∧ IsInv f v r :=
  ⟨_, imageFn_ok _ wf h0, wf.map _, rfl, fun _ v h => ⟨_, wf.map_at _ h, inv_real f v⟩⟩

example (f : Inv) := C120_inverse f (picture 3 2 fun x y => (x : ℝ) - 2 * y) (picture_wf ..) (by decide)

theorem imageFn_eq (f : α → β) : imageFn f = pixelwiseTransform f := rfl

/-- On images with three channels the functions act on every channel of every pixel. -/
theorem C120_channels (f : Trig) (g : Inv) (im : Image (Px3 ℝ)) (wf : im.WF) (h0 : 0 < im.size.prod) :
    (∃ out, imageFnPx3 0 none f.real im = .ok out ∧ out.WF ∧ out.size = im.size ∧
      ∀ idx p, im.at' idx = .ok p → ∃ q, out.at' idx = .ok q ∧
        IsTrig f p.c0 q.c0 ∧ IsTrig f p.c1 q.c1 ∧ IsTrig f p.c2 q.c2) ∧
    (∃ out, imageFnPx3 0 none g.real im = .ok out ∧ out.WF ∧ out.size = im.size ∧
      ∀ idx p, im.at' idx = .ok p → ∃ q, out.at' idx = .ok q ∧
        IsInv g p.c0 q.c0 ∧ IsInv g p.c1 q.c1 ∧ IsInv g p.c2 q.c2) := by
  constructor
  · obtain ⟨out, e, w, s, h⟩ := C111_pointwise (0 : ℝ) (none : Option ℝ) f.real im wf h0
    exact ⟨out, e, w, s, fun idx p hp => ⟨_, h idx p hp, trig_real f _, trig_real f _, trig_real f _⟩⟩
  · obtain ⟨out, e, w, s, h⟩ := C111_pointwise (0 : ℝ) (none : Option ℝ) g.real im wf h0
    exact ⟨out, e, w, s, fun idx p hp => ⟨_, h idx p hp, inv_real g _, inv_real g _, inv_real g _⟩⟩

example (f : Trig) (g : Inv) := C120_channels f g (picture 3 2 fun x y => ⟨x, y, 1 / 2⟩) (picture_wf ..) (by decide)

/-- On images with any number of channels a function acts on every channel: channel `k` of the result
is the function of channel `k`. -/
theorem C120_multi (zero : β) (f : α → β) (n : Nat) (hn : 0 < n) (im : Image (List α)) (wf : im.WF)
    (h0 : 0 < im.size.prod) (hc : ∀ p ∈ im.data, p.length = n) (order : List Nat)
    (ho : order.Perm (List.range im.size.prod)) :
    ∃ out, imageFnMulti zero order n f im = .ok out ∧ out.WF ∧ out.size = im.size ∧
      ∀ k, k < n → ∃ plane, getPlaneMulti n out k = .ok plane ∧ plane.size = im.size ∧
        ∀ idx p c, im.at' idx = .ok p → p[k]? = some c → plane.at' idx = .ok (f c) := by
  classical
  let d : (k : Nat) → k < n → List α := fun k hk =>
    im.data.attach.map fun p => p.1[k]'(by rw [hc p.1 p.2]; exact hk)
  have hpl : ∀ k (hk : k < n), getPlaneMulti n im k = .ok ⟨im.size, d k hk⟩ := by
    intro k hk
    refine getPlaneMulti_ok n im wf h0 hc k hk (d k hk) (by simp [d]) ?_
    intro i hi
    have h2 := hc _ (List.getElem_mem hi)
    simp [d, h2, hk]
  have hw : ∀ k (hk : k < n), (⟨im.size, d k hk⟩ : Image α).WF := fun k hk =>
    ⟨by simp [d, wf.len], wf.fits, wf.sizes⟩
  let os : List (Image β) := (List.finRange n).map fun k => ⟨im.size, (d k.1 k.2).map f⟩
  obtain ⟨out, e, wo, so, po⟩ := C111_multi zero n hn (imageFn f) im os (by simp [os]) im.size
    (by
      intro p hp
      obtain ⟨k, -, rfl⟩ := List.mem_map.mp hp
      exact ⟨(hw k.1 k.2).map f, rfl⟩) h0
    (by
      intro k hk
      have hk' : k < n := by simpa [os] using hk
      rw [hpl k hk', Res.ok_bind, imageFn_ok f (hw k hk') h0]
      simp [os]) order ho
  refine ⟨out, e, wo, so, fun k hk => ⟨⟨im.size, (d k hk).map f⟩, ?_, rfl, ?_⟩⟩
  · rw [po k hk, hpl k hk, Res.ok_bind, imageFn_ok f (hw k hk) h0]
  · intro idx p c hp hkc
    refine (hw k hk).map_at f ?_
    have hb := inBounds_of_at'_ok hp
    rw [wf.at' hb] at hp
    rw [(hw k hk).at' (show InBounds _ idx from hb)]
    injection hp with hp
    simp only [d, List.getElem_map, List.getElem_attach]
    congr 1
    subst hp
    exact (List.getElem?_eq_some_iff.mp hkc).2

-- Two channels, the pixels in reverse order.
example := C120_multi (0 : Int) (· + 1) 2 (by decide) (picture 3 2 fun x y => [(x : Int), y]) (picture_wf ..) (by decide)
  (by simp [picture]) _ (List.reverse_perm _)

/-- On one `MultiChannel` pixel, with or without an execution policy and in whatever order the channels
are processed: channel `k` of the result is the function of channel `k`, and there are as many. -/
theorem C120_pixel (zero : β) (f : α → β) (p : List α) (order : List Nat)
    (ho : order.Perm (List.range p.length)) :
    applyMultichannelPolicy zero order f p = .ok (applyMultichannel f p) ∧
    (applyMultichannel f p).length = p.length ∧
    ∀ (k : Nat) c, p[k]? = some c → (applyMultichannel f p)[k]? = some (f c) := by
  refine ⟨?_, by simp [applyMultichannel], fun k c h => by simp [applyMultichannel, h]⟩
  rw [applyMultichannelPolicy, loop_listMap p rfl f _ order _ _ (by simp) ho]
  · rfl
  · intro i hi a ha d hd
    have hlt : i < d.length := by
      rw [hd]; exact (List.getElem?_eq_some_iff.mp ha).1
    simp [vget, ha, vset, hlt]

example := C120_pixel (0 : Int) (· + 1) [5, 6, 7, 8] [3, 1, 0, 2] (by decide)

/-! ### Powers -/

theorem stdPow_nat (x : ℝ) (n : Nat) : stdPow x n = some (x ^ n) := by
  unfold stdPow
  split_ifs with h1 h2 h3 h4 h5
  · rw [Real.rpow_natCast]
  · have : n = 0 := by exact_mod_cast h2
    simp [this]
  · have : n ≠ 0 := by rintro rfl; simp at h4
    simp [h3, this]
  · exfalso
    have : n ≠ 0 := by rintro rfl; simp at h2
    exact h4 (by exact_mod_cast Nat.pos_of_ne_zero this)
  · simp
  · exact absurd (by simp) h5

/-- `pow(image, n)` for a natural exponent multiplies every pixel with itself `n` times; with exponent
one half every non-negative pixel becomes its square root; for positive pixels exponents add up. -/
theorem C120_pow (im : Image ℝ) (wf : im.WF) (h0 : 0 < im.size.prod) (e : ℝ) :
    ∃ out, imagePow im e = .ok out ∧ out.WF ∧ out.size = im.size ∧
      (∀ n : Nat, e = n → ∀ idx v, im.at' idx = .ok v → out.at' idx = .ok (some (v ^ n))) ∧
      (e = 1 / 2 → ∀ idx v, im.at' idx = .ok v → 0 ≤ v →
        ∃ r, out.at' idx = .ok (some r) ∧ 0 ≤ r ∧ r * r = v) ∧
      (∀ a b, e = a + b → ∀ oa ob, imagePow im a = .ok oa → imagePow im b = .ok ob →
        ∀ idx v, im.at' idx = .ok v → 0 < v → ∃ x y, oa.at' idx = .ok (some x) ∧
          ob.at' idx = .ok (some y) ∧ out.at' idx = .ok (some (x * y))) := by
  refine ⟨_, pixelwiseTransform_ok _ wf h0, wf.map _, rfl, ?_, ?_, ?_⟩
  · rintro n rfl idx v hv
    rw [wf.map_at _ hv, stdPow_nat]
  · rintro rfl idx v hv hv0
    rw [wf.map_at _ hv]
    rcases hv0.eq_or_lt with rfl | hp
    · exact ⟨0, by norm_num [stdPow], le_rfl, by simp⟩
    · refine ⟨Real.sqrt v, ?_, Real.sqrt_nonneg v, Real.mul_self_sqrt hv0⟩
      rw [stdPow, if_pos hp, Real.sqrt_eq_rpow]
  · rintro a b rfl oa ob ha hb idx v hv hp
    rw [imagePow, pixelwiseTransform_ok _ wf h0] at ha hb
    cases ha; cases hb
    refine ⟨v ^ a, v ^ b, ?_, ?_, ?_⟩ <;> rw [wf.map_at _ hv, stdPow, if_pos hp]
    rw [Real.rpow_add hp]

example := C120_pow (picture 3 2 fun x y => (x : ℝ) + 2 * y) (picture_wf ..) (by decide) (1 / 2)

/-- `pow` of an image with three channels: every channel of every pixel. -/
theorem C120_pow_channels (im : Image (Px3 ℝ)) (wf : im.WF) (h0 : 0 < im.size.prod) (n : Nat) :
    ∃ out, imagePowPx3 im n = .ok out ∧ out.WF ∧ out.size = im.size ∧
      ∀ idx p, im.at' idx = .ok p →
        out.at' idx = .ok ⟨some (p.c0 ^ n), some (p.c1 ^ n), some (p.c2 ^ n)⟩ := by
  obtain ⟨out, e, w, s, h⟩ := C111_pointwise (0 : ℝ) (none : Option ℝ) (fun x => stdPow x n) im wf h0
  refine ⟨out, e, w, s, fun idx p hp => ?_⟩
  rw [h idx p hp, stdPow_nat, stdPow_nat, stdPow_nat]

example := C120_pow_channels (picture 3 2 fun x y => ⟨x, y, 1 / 2⟩) (picture_wf ..) (by decide) 3

/-! ### Absolute values -/

/-- `abs(image)` for real pixels: nowhere negative, the pixel or its negative, and taking it twice is
taking it once; for unsigned pixels the image itself. Likewise for every channel of a pixel. -/
theorem C120_abs (im : Image ℝ) (wf : im.WF) (h0 : 0 < im.size.prod) :
    (∃ out, imageAbs absReal im = .ok out ∧ out.WF ∧ out.size = im.size ∧
      (∀ idx v, im.at' idx = .ok v → ∃ r, out.at' idx = .ok r ∧ 0 ≤ r ∧ (r = v ∨ r = -v)) ∧
      imageAbs absReal out = .ok out) ∧
    (∀ (u : Image α), u.WF → 0 < u.size.prod → imageAbs absUnsigned u = .ok u) ∧
    (∀ c : Image (Px3 ℝ), c.WF → 0 < c.size.prod →
      ∃ out, imageAbsPx3 0 absReal c = .ok out ∧ out.WF ∧ out.size = c.size ∧
        ∀ idx p, c.at' idx = .ok p → out.at' idx = .ok ⟨|p.c0|, |p.c1|, |p.c2|⟩) := by
  refine ⟨⟨⟨im.size, im.data.map absReal⟩, pixelwiseTransform_ok _ wf h0, wf.map _, rfl, ?_, ?_⟩, ?_, ?_⟩
  · intro idx v hv
    exact ⟨|v|, wf.map_at _ hv, abs_nonneg v, abs_choice v⟩
  · rw [imageAbs, pixelwiseTransform_ok _ (wf.map absReal) h0]
    simp [absReal]
  · intro u wu hu
    rw [imageAbs, pixelwiseTransform_ok _ wu hu]
    rw [show (absUnsigned : α → α) = id from rfl, List.map_id]
  · intro c wc hc
    exact C111_pointwise (0 : ℝ) (0 : ℝ) absReal c wc hc

example := (C120_abs (α := Nat) (picture 3 2 fun x y => (x : ℝ) - 2 * y) (picture_wf ..) (by decide)).1

/-- `abs(image)` for `int` pixels. Full statement: defined for every image. That fails for the least
`int`, see the violation. -/
theorem C120_abs_int_partial (im : Image Int) (wf : im.WF) (h0 : 0 < im.size.prod)
    (hr : ∀ idx v, im.at' idx = .ok v → -2 ^ 31 < v ∧ v < 2 ^ 31) :
    ∃ out, imageAbsInt im = .ok out ∧ out.WF ∧ out.size = im.size ∧
      ∀ idx v, im.at' idx = .ok v → out.at' idx = .ok |v| := by
  refine ⟨⟨im.size, im.data.map fun v => |v|⟩, ?_, wf.map _, rfl, fun _ _ h => wf.map_at _ h⟩
  rw [imageAbsInt, collect_ok _ (im.data.map fun v => |v|), Res.ok_bind,
    ofData_ok (by simpa using wf.len) wf.fits h0]
  rw [List.map_map]
  refine List.map_congr_left fun v hv => ?_
  obtain ⟨idx, hi⟩ := (wf.mem_data_iff v).mp hv
  have := (hr idx v hi).1
  simp only [absInt, Function.comp]
  rw [if_neg (by omega)]
  split_ifs with h
  · rw [abs_of_neg h]
  · rw [abs_of_nonneg (by omega)]

example := C120_abs_int_partial (picture 3 2 fun x y => (x : Int) - 2 * y) (picture_wf ..) (by decide)
  (fun idx v h => by obtain ⟨x, y, hx, hy, -, rfl⟩ := picture_at h; omega)

/-- Violation: the absolute value of an image that contains the least `int` is undefined behaviour. -/
theorem C120_abs_int_violation : imageAbsInt ⟨[1, 1], [-2 ^ 31]⟩ = .ub := by decide

/-! ### Complex images -/

/-- `generate_complex_image(re, im)` has the two images as real and imaginary parts and rejects images
of different size; `to_complex(image)` is the image with imaginary part zero. -/
theorem C120_complex (zero : α) (re im : Image α) (wr : re.WF) (wi : im.WF) :
    (re.size ≠ im.size → generateComplex re im = .throw .runtime) ∧
    (re.size = im.size → 0 < re.size.prod → ∃ out, generateComplex re im = .ok out ∧ out.WF ∧
      out.size = re.size ∧ pixelwiseTransform Prod.fst out = .ok re ∧
      pixelwiseTransform Prod.snd out = .ok im ∧
      ∀ idx a b, re.at' idx = .ok a → im.at' idx = .ok b → out.at' idx = .ok (a, b)) ∧
    (0 < re.size.prod → ∃ out, toComplex zero re = .ok out ∧ out.WF ∧ out.size = re.size ∧
      ∀ idx a, re.at' idx = .ok a → out.at' idx = .ok (a, zero)) := by
  refine ⟨fun h => by rw [generateComplex, if_pos h], ?_, ?_⟩
  · intro h h0
    have wz := zip_wf wr wi h (fun a b => (a, b))
    have hl : re.data.length = im.data.length := by rw [wr.len, wi.len, h]
    refine ⟨_, by rw [generateComplex, if_neg (by simpa using h), pixelwiseTransform2_ok _ wr wi h h0],
      wz, rfl, ?_, ?_, fun _ _ _ h1 h2 => zip_at wr wi h _ h1 h2⟩
    · rw [pixelwiseTransform_ok _ wz h0]
      congr 1
      cases re
      simp only [Image.mk.injEq, true_and]
      refine List.ext_getElem (by simpa using hl.symm.ge) ?_
      intro i h1 h2; simp
    · rw [pixelwiseTransform_ok _ wz h0]
      congr 1
      cases re; cases im
      simp only [Image.mk.injEq] at h ⊢
      refine ⟨h, List.ext_getElem (by simpa using hl.symm.le) ?_⟩
      intro i h1 h2; simp
  · intro h0
    exact ⟨_, ofData_ok (by simpa using wr.len) wr.fits h0, wr.map _, rfl, fun _ _ h => wr.map_at _ h⟩

example := (C120_complex 0 sample2 sample2 sample2_shows.wf sample2_shows.wf).2.1 rfl (by decide)

/-! ### Sorting -/

/-- `sort(image)` lists every pixel exactly as often as it occurs, in increasing order; no other list
does. -/
theorem C120_sort [LinearOrder α] (im : Image α) :
    (sortImage im).Pairwise (· ≤ ·) ∧ (∀ v, (sortImage im).count v = im.data.count v) ∧
    ∀ l : List α, l.Pairwise (· ≤ ·) → (∀ v, l.count v = im.data.count v) → l = sortImage im := by
  have hp : (sortImage im).Perm im.data := List.mergeSort_perm _ _
  have hs : (sortImage im).Pairwise (· ≤ ·) := by
    have := List.pairwise_mergeSort (le := fun a b : α => decide (a ≤ b))
      (by simpa using fun a b c => le_trans) (by simpa using le_total) im.data
    simpa [sortImage] using this
  refine ⟨hs, fun v => hp.count_eq v, fun l h1 h2 => ?_⟩
  have : l.Perm (sortImage im) := (List.perm_iff_count.mpr h2).trans hp.symm
  exact this.eq_of_pairwise (fun a b _ _ h h' => le_antisymm h h') h1 hs

example : ∃ im : Image ℝ, im.WF ∧ 0 < im.size.prod ∧ im.data = [0, 1] :=
  ⟨⟨[2, 1], [0, 1]⟩, ⟨rfl, by decide, by decide⟩, by decide, rfl⟩

example : (⟨[2, 1], [[1, 2], [3, 4]]⟩ : Image (List Nat)).WF ∧
    ∀ p ∈ (⟨[2, 1], [[1, 2], [3, 4]]⟩ : Image (List Nat)).data, p.length = 2 :=
  ⟨⟨by decide, by decide, by decide⟩, by decide⟩

example : sortImage (⟨[2, 2], [3, 1, 2, 1]⟩ : Image Nat) = [1, 1, 2, 3] :=
  ((C120_sort _).2.2 _ (by decide) (by
    intro v
    exact (show [1, 1, 2, 3].Perm [3, 1, 2, 1] by decide).count_eq v)).symm

example : imageAbsInt ⟨[2, 1], [-3, 4]⟩ = .ok ⟨[2, 1], [3, 4]⟩ := by decide

end TinyDIP.Props
