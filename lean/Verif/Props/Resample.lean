import Verif.Lemmas.Samples
import Verif.Lemmas.Resample
import Verif.Props.Interp
import Verif.Props.Arith

/-!
# Properties C112 (bicubic resizing), C113 (Lanczos resampling), C114 (normalising)
-/

namespace TinyDIP.Resample

open TinyDIP Image Finset Props

variable {w h : Nat}

/-! ## C112 copyResizeBicubic

Full statement: every pixel of the result is the bicubic value of the picture at the proportional
position, for every element type. For integer elements the fractions are converted to the element type
and become zero: no interpolation takes place. -/

/-- Images of real numbers: the result has the requested size and every pixel is the bicubic value at the
proportional position, limited to the range of the element type; the same for every order of the parallel
loop. Missing: integer elements. -/
theorem C112_resize_partial {im : Image ℝ} {f : Nat → Nat → ℝ} (s : im.Shows w h f) (hw : 0 < w) (hh : 0 < h)
    (nw nh : Nat) (hnw : nw < 2 ^ 64) (hnh : nh < 2 ^ 64) (hf : nw * nh < 2 ^ 64) (lo hi : ℝ) (hl : lo ≤ hi)
    (order : List (Nat × Nat)) (hp : order.Perm (iterYX nw nh)) :
    ∃ out, copyResizeBicubicOrd (bicubicPolate lo hi) 0 order im nw nh = .ok out ∧
      out.Shows nw nh fun x y => limit lo hi
        (cubicAt w h f ((x : ℝ) * ((w : ℝ) / nw)) ((y : ℝ) * ((h : ℝ) / nh))) := by
  refine copyResizeBicubicOrd_shows _ 0 s hw hh nw nh hnw hnh hf order hp _ fun x y _ _ => ?_
  exact bicubicPolate_eq hl (fun i j => edge w h f (⌊(x : ℝ) * ((w : ℝ) / nw)⌋ + ((i : Int) - 1))
    (⌊(y : ℝ) * ((h : ℝ) / nh)⌋ + ((j : Int) - 1))) _ _

example := C112_resize_partial (picture_shows 3 2 fun x y => (x : ℝ) - 2 * y) (by decide) (by decide) 5 7 (by decide)
  (by decide) (by decide) (-100) 100 (by norm_num) _ (List.reverse_perm _)

/-- The four weights sum to one, mirror the samples when the point is mirrored, and at distance zero and
one select the sample there. -/
theorem C112_weights (t : ℝ) :
    ((range 4).sum (cubicWeight t) = 1) ∧ (∀ i, i < 4 → cubicWeight (1 - t) i = cubicWeight t (3 - i)) ∧
    (∀ i, cubicWeight 0 i = if i = 1 then 1 else 0) ∧ (∀ i, cubicWeight 1 i = if i = 2 then 1 else 0) := by
  refine ⟨?_, ?_, ?_, ?_⟩
  · simp only [Finset.sum_range_succ, Finset.range_zero, Finset.sum_empty, zero_add, cubicWeight]; ring
  · intro i hi
    interval_cases i <;> simp only [cubicWeight] <;> ring
  · intro i
    match i with
    | 0 => simp [cubicWeight]
    | 1 => simp [cubicWeight]
    | 2 => simp [cubicWeight]
    | 3 => simp [cubicWeight]
    | (n + 4) => simp [cubicWeight]
  · intro i
    match i with
    | 0 => norm_num [cubicWeight]
    | 1 => norm_num [cubicWeight]
    | 2 => norm_num [cubicWeight]
    | 3 => norm_num [cubicWeight]
    | (n + 4) => simp [cubicWeight]

theorem clampInt_self {n x : Nat} (hx : x < n) : Filter.clampInt n (x : Int) = x := by
  unfold Filter.clampInt; omega

/-- The bicubic value at a pixel is the pixel. -/
theorem C112_at_sample (f : Nat → Nat → ℝ) (x y : Nat) (hx : x < w) (hy : y < h) :
    cubicAt w h f x y = f x y := by
  unfold cubicAt
  have e : ∀ i, cubicWeight 0 i = if i = 1 then 1 else 0 := (C112_weights 0).2.2.1
  simp only [Int.fract_natCast, e, ite_mul, one_mul, zero_mul, Finset.sum_ite_eq', Finset.mem_range,
    Int.floor_natCast]
  norm_num [edge, clampInt_self hx, clampInt_self hy]

example := C112_at_sample (fun x y => (x : ℝ) - 2 * y) 2 1 (show 2 < 3 by decide) (show 1 < 2 by decide)

/-- A picture of one colour has that colour everywhere. -/
theorem C112_constant_value (c u v : ℝ) : cubicAt w h (fun _ _ => c) u v = c := by
  unfold cubicAt edge
  simp only [← Finset.sum_mul, (C112_weights _).1, one_mul]

theorem limit_of_mem {lo hi v : ℝ} (h1 : lo ≤ v) (h2 : v ≤ hi) : limit lo hi v = v := by
  unfold limit; rw [min_eq_right h2, max_eq_right h1]

/-- Resizing to the same size returns the picture. -/
theorem C112_same_size {im : Image ℝ} {f : Nat → Nat → ℝ} (s : im.Shows w h f) (hw : 0 < w) (hh : 0 < h)
    (lo hi : ℝ) (hr : ∀ x y, x < w → y < h → lo ≤ f x y ∧ f x y ≤ hi) :
    copyResizeBicubic lo hi im w h = .ok im := by
  have hl := hr 0 0 hw hh
  obtain ⟨out, e, so⟩ := C112_resize_partial s hw hh w h s.w_lt s.h_lt s.fits lo hi (by linarith) _ (.refl _)
  rw [copyResizeBicubic, e]
  congr 1
  refine so.ext s fun x y hx hy => ?_
  have hw' : (w : ℝ) ≠ 0 := by exact_mod_cast hw.ne'
  have hh' : (h : ℝ) ≠ 0 := by exact_mod_cast hh.ne'
  rw [div_self hw', div_self hh', mul_one, mul_one, C112_at_sample f x y hx hy]
  exact limit_of_mem (hr x y hx hy).1 (hr x y hx hy).2

example := C112_same_size (picture_shows 3 2 fun x y => ((x + y : Nat) : ℝ)) (by decide) (by decide) 0 10
  (fun x y hx hy => ⟨by positivity, by have : x + y ≤ 10 := by omega
                                       exact_mod_cast this⟩)

/-- Enlarging by whole factors keeps the original pixels: the result at `(a x, b y)` is the input at
`(x, y)`. -/
theorem C112_enlarge {im : Image ℝ} {f : Nat → Nat → ℝ} (s : im.Shows w h f) (hw : 0 < w) (hh : 0 < h)
    (a b : Nat) (ha : 0 < a) (hb : 0 < b) (hnw : a * w < 2 ^ 64) (hnh : b * h < 2 ^ 64)
    (hf : (a * w) * (b * h) < 2 ^ 64) (lo hi : ℝ) (hr : ∀ x y, x < w → y < h → lo ≤ f x y ∧ f x y ≤ hi) :
    ∃ out g, copyResizeBicubic lo hi im (a * w) (b * h) = .ok out ∧ out.Shows (a * w) (b * h) g ∧
      ∀ x y, x < w → y < h → g (a * x) (b * y) = f x y := by
  have hl := hr 0 0 hw hh
  obtain ⟨out, e, so⟩ := C112_resize_partial s hw hh (a * w) (b * h) hnw hnh hf lo hi (by linarith) _ (.refl _)
  refine ⟨out, _, e, so, fun x y hx hy => ?_⟩
  have hw' : (w : ℝ) ≠ 0 := by exact_mod_cast hw.ne'
  have hh' : (h : ℝ) ≠ 0 := by exact_mod_cast hh.ne'
  have ha' : (a : ℝ) ≠ 0 := by exact_mod_cast ha.ne'
  have hb' : (b : ℝ) ≠ 0 := by exact_mod_cast hb.ne'
  have e1 : ((a * x : Nat) : ℝ) * ((w : ℝ) / ((a * w : Nat) : ℝ)) = x := by push_cast; field_simp
  have e2 : ((b * y : Nat) : ℝ) * ((h : ℝ) / ((b * h : Nat) : ℝ)) = y := by push_cast; field_simp
  rw [e1, e2, C112_at_sample f x y hx hy]
  exact limit_of_mem (hr x y hx hy).1 (hr x y hx hy).2

example := C112_enlarge (picture_shows 3 2 fun x y => ((x + y : Nat) : ℝ)) (by decide) (by decide) 4 5 (by decide)
  (by decide) (by decide) (by decide) (by decide) 0 10
  (fun x y hx hy => ⟨by positivity, by have : x + y ≤ 10 := by omega
                                       exact_mod_cast this⟩)

/-- A picture of one colour is resized to a picture of that colour. -/
theorem C112_constant {im : Image ℝ} (c : ℝ) (s : im.Shows w h (fun _ _ => c)) (hw : 0 < w) (hh : 0 < h)
    (nw nh : Nat) (hnw : nw < 2 ^ 64) (hnh : nh < 2 ^ 64) (hf : nw * nh < 2 ^ 64) (lo hi : ℝ) (h1 : lo ≤ c)
    (h2 : c ≤ hi) : ∃ out, copyResizeBicubic lo hi im nw nh = .ok out ∧ out.Shows nw nh fun _ _ => c := by
  obtain ⟨out, e, so⟩ := C112_resize_partial s hw hh nw nh hnw hnh hf lo hi (by linarith) _ (.refl _)
  exact ⟨out, e, so.congr fun x y _ _ => by rw [C112_constant_value, limit_of_mem h1 h2]⟩

example := C112_constant 7 (picture_shows 3 2 fun _ _ => (7 : ℝ)) (by decide) (by decide) 5 9 (by decide) (by decide)
  (by decide) 0 255 (by norm_num) (by norm_num)

theorem fract_lt {x : ℝ} : 0 ≤ Int.fract x ∧ Int.fract x < 1 := ⟨Int.fract_nonneg x, Int.fract_lt_one x⟩

/-- Violation: on every 8-bit image `copyResizeBicubic` does exactly what `resize_nearest_neighbor` does;
no pixel is interpolated. -/
theorem C112_u8_violation {im : Image (BitVec 8)} {f : Nat → Nat → BitVec 8} (s : im.Shows w h f) (hw : 0 < w)
    (hh : 0 < h) (nw nh : Nat) (hnw : nw < 2 ^ 64) (hnh : nh < 2 ^ 64) (hf : nw * nh < 2 ^ 64) :
    copyResizeBicubicU8 im nw nh = resizeNearest 0 im nw nh := by
  obtain ⟨o, e, so, hb⟩ := C43_resize (0 : BitVec 8) s hw hh nw nh hnw hnh hf
  obtain ⟨o', e', so'⟩ := copyResizeBicubicOrd_shows bicubicPolateU8 (0 : BitVec 8) s hw hh nw nh hnw hnh hf _
    (.refl _) (fun x y => f (x * w / nw) (y * h / nh)) (fun x y hx hy => by
      have h3 := fract_lt (x := (x : ℝ) * ((w : ℝ) / nw))
      have h4 := fract_lt (x := (y : ℝ) * ((h : ℝ) / nh))
      rw [bicubicPolateU8_eq (fun i j => edge w h f (⌊(x : ℝ) * ((w : ℝ) / nw)⌋ + ((i : Int) - 1))
        (⌊(y : ℝ) * ((h : ℝ) / nh)⌋ + ((j : Int) - 1))) _ _ h3.1 h3.2 h4.1 h4.2]
      have fl : ∀ (p m n : Nat), ⌊(p : ℝ) * ((m : ℝ) / n)⌋ = ((p * m / n : Nat) : Int) := by
        intro p m n
        rw [← mul_div_assoc, ← Nat.cast_mul, ← Nat.floor_div_eq_div (K := ℝ), Int.natCast_floor_eq_floor
          (by positivity)]
      rw [fl, fl]
      have hx' := (hb x y hx hy).1
      have hy' := (hb x y hx hy).2
      unfold edge
      rw [show ((x * w / nw : Nat) : Int) + (((1 : Nat) : Int) - 1) = ((x * w / nw : Nat) : Int) by omega,
        show ((y * h / nh : Nat) : Int) + (((1 : Nat) : Int) - 1) = ((y * h / nh : Nat) : Int) by omega,
        clampInt_self hx', clampInt_self hy'])
  rw [copyResizeBicubicU8, e', e, so'.ext so fun _ _ _ _ => rfl]

theorem map_shows {α β : Type} {im : Image α} {f : Nat → Nat → α} (s : im.Shows w h f) (c : α → β) :
    (⟨im.size, im.data.map c⟩ : Image β).Shows w h (fun x y => c (f x y)) := by
  refine Image.Shows.of_data s.w_lt s.h_lt s.fits s.size (by simp [s.len]) ?_
  intro x y hx hy
  rw [List.getElem?_map, s.data? hx hy]
  rfl

/-- Violation: the same for RGB images. -/
theorem C112_rgb_violation {im : Image RGB} {f : Nat → Nat → RGB} (s : im.Shows w h f) (hw : 0 < w)
    (hh : 0 < h) (nw nh : Nat) (hw' : 0 < nw) (hh' : 0 < nh) (hnw : nw < 2 ^ 64) (hnh : nh < 2 ^ 64)
    (hf : nw * nh < 2 ^ 64) :
    copyResizeBicubicRGB im nw nh = resizeNearest ⟨0, 0, 0⟩ im nw nh := by
  have h0 : 0 < im.size.prod := by rw [s.size]; simpa using ⟨hw, hh⟩
  obtain ⟨o, e, so, _⟩ := C43_resize (⟨0, 0, 0⟩ : RGB) s hw hh nw nh hnw hnh hf
  have hpl : ∀ c : RGB → BitVec 8, copyResizeBicubicU8 ⟨im.size, im.data.map c⟩ nw nh
      = .ok ⟨o.size, o.data.map c⟩ := by
    intro c
    obtain ⟨o', e', so', _⟩ := C43_resize (0 : BitVec 8) (map_shows s c) hw hh nw nh hnw hnh hf
    rw [C112_u8_violation (map_shows s c) hw hh nw nh hnw hnh hf, e',
      so'.ext (map_shows so c) fun _ _ _ _ => rfl]
  rw [copyResizeBicubicRGB, applyEach_ok 0 0 _ im s.wf h0, hpl, Res.ok_bind, hpl, Res.ok_bind, hpl, Res.ok_bind, e]
  have ho : 0 < o.size.prod := by rw [so.size]; simpa using ⟨hw', hh'⟩
  exact constructPx3Ord_ok 0 o.size o.data so.wf.len so.wf.fits ho _ (by
    rw [Image.WF.count (im := ⟨o.size, o.data.map Px3.c0⟩) (so.wf.map Px3.c0)]; simp)

-- the hypotheses are met: a picture of two real pixels is kept by resizing to its own size
example : copyResizeBicubic 0 255 ⟨[2, 1], [0, 200]⟩ 2 1 = .ok ⟨[2, 1], [0, 200]⟩ := by
  refine C112_same_size (w := 2) (h := 1) (f := fun x _ => if x = 0 then 0 else 200) ?_ (by norm_num) (by norm_num)
    0 255 ?_
  · refine Image.Shows.of_data (by norm_num) (by norm_num) (by norm_num) rfl rfl ?_
    intro x y hx hy
    interval_cases x <;> interval_cases y <;> rfl
  · intro x y hx hy
    interval_cases x <;> norm_num

/-- A case where the two differ: enlarging the row 0, 200 to four pixels, the bicubic value at the second
pixel is 100, and the 8-bit result is 0. -/
theorem C112_u8_case_violation :
    ∃ out, copyResizeBicubicU8 ⟨[2, 1], [0#8, 200#8]⟩ 4 1 = .ok out ∧ out.at2 1 0 = .ok 0#8 ∧
      cubicAt 2 1 (fun x _ => if x = 0 then 0 else 200) ((1 : ℝ) * (2 / 4)) ((0 : ℝ) * (1 / 1)) = 100 := by
  have s : (⟨[2, 1], [0#8, 200#8]⟩ : Image (BitVec 8)).Shows 2 1 (fun x _ => if x = 0 then 0#8 else 200#8) := by
    refine Image.Shows.of_data (by norm_num) (by norm_num) (by norm_num) rfl rfl ?_
    intro x y hx hy
    interval_cases x <;> interval_cases y <;> rfl
  obtain ⟨o, e, so, _⟩ := C43_resize (0#8) s (by norm_num) (by norm_num) 4 1 (by norm_num) (by norm_num)
    (by norm_num)
  refine ⟨o, ?_, so.px 1 0 (by norm_num) (by norm_num), ?_⟩
  · rw [C112_u8_violation s (by norm_num) (by norm_num) 4 1 (by norm_num) (by norm_num) (by norm_num)]
    exact e
  · have e1 : ⌊(1 : ℝ) * (2 / 4)⌋ = 0 := by rw [Int.floor_eq_zero_iff]; constructor <;> norm_num
    have e2 : ⌊(0 : ℝ) * (1 / 1)⌋ = 0 := by rw [Int.floor_eq_zero_iff]; constructor <;> norm_num
    have f1 : Int.fract ((1 : ℝ) * (2 / 4)) = 1 / 2 := by rw [Int.fract, e1]; norm_num
    have f2 : Int.fract ((0 : ℝ) * (1 / 1)) = 0 := by rw [Int.fract, e2]; norm_num
    unfold cubicAt
    rw [e1, e2, f1, f2]
    simp only [Finset.sum_range_succ, Finset.range_zero, Finset.sum_empty, cubicWeight, edge,
      Filter.clampInt]
    norm_num

/-! ## C113 lanczos_resample

Full statement: for every element type, positive lobe count and order of the parallel loop, each pixel is
the window average at the pixel-centre position. Elements of type `bool` and `complex` are not modelled, and
rounding errors are not visible. -/

/-- The kernel is the Lanczos window, with the value one closer than `eps` to the origin. -/
theorem C113_kernel {eps : ℝ} (he : 0 < eps) {a : Nat} (ha : 0 < a) (x : ℝ) :
    lanczosKernel eps x a = if |x| < eps then 1 else lanczosWindow a x := by
  unfold lanczosKernel lanczosWindow
  split
  · rfl
  · rename_i hx
    have hx0 : x ≠ 0 := by
      rintro rfl; simp at hx; linarith
    have ha' : (a : ℝ) ≠ 0 := by exact_mod_cast ha.ne'
    have hp := Real.pi_ne_zero
    simp only [Int.cast_natCast]
    split
    · rw [Real.sinc_of_ne_zero (by positivity), Real.sinc_of_ne_zero (by positivity)]
      field_simp
    · rfl

example := C113_kernel (eps := 1e-7) (by norm_num) (a := 3) (by decide) (5 / 4)

/-- The kernel is symmetric, one at zero, zero at the other integers and outside the window. -/
theorem C113_interpolating {eps : ℝ} (he : 0 < eps) (he' : eps ≤ 1 / 2) {a : Nat} (ha : 0 < a) :
    (∀ x, lanczosKernel eps (-x) a = lanczosKernel eps x a) ∧ lanczosKernel eps 0 a = 1 ∧
    (∀ n : Int, n ≠ 0 → lanczosKernel eps n a = 0) ∧ (∀ x : ℝ, a ≤ |x| → lanczosKernel eps x a = 0) := by
  refine ⟨fun x => kernel_even eps x a, by simp [lanczosKernel, he], fun n hn => ?_, fun x hx => ?_⟩
  · have h1 : (1 : ℝ) ≤ |(n : ℝ)| := by
      rw [← Int.cast_abs]; exact_mod_cast Int.one_le_abs hn
    unfold lanczosKernel
    rw [if_neg (by linarith)]
    split
    · have : Real.sin (Real.pi * n) = 0 := by rw [mul_comm]; exact Real.sin_int_mul_pi n
      simp [this]
    · rfl
  · have h1 : (1 : ℝ) ≤ a := by exact_mod_cast ha
    unfold lanczosKernel
    rw [if_neg (by linarith), if_neg (by simpa using hx)]

example := C113_interpolating (eps := 1e-7) (by norm_num) (by norm_num) (a := 3) (by decide)

theorem C113_total_weight {eps : ℝ} (he : 0 < eps) (he' : eps ≤ 1 / 2) {a : Nat} (ha : 0 < a) (u : ℝ) :
    0 < (range (2 * a)).sum fun k => tap (fun x => lanczosKernel eps x a) a u k :=
  tap_sum_pos he he' ha u

example := C113_total_weight (eps := 1e-7) (by norm_num) (by norm_num) (a := 3) (by decide) (1 / 4)

/-- The position on an axis of length `n` of the centre of pixel `x` on an axis of length `m`. -/
theorem centre_floor {n m x : Nat} (hx : x < m) (hn : 0 < n) :
    -1 ≤ ⌊((x : ℝ) + 0.5) * ((n : ℝ) / m) - 0.5⌋ ∧ ⌊((x : ℝ) + 0.5) * ((n : ℝ) / m) - 0.5⌋ < n := by
  have hm : (0 : ℝ) < m := by exact_mod_cast (show 0 < m by omega)
  have hn' : (0 : ℝ) < n := by exact_mod_cast hn
  have hx' : (x : ℝ) + 1 ≤ m := by exact_mod_cast hx
  constructor
  · rw [Int.le_floor]
    have : 0 ≤ ((x : ℝ) + 0.5) * ((n : ℝ) / m) := by positivity
    push_cast; linarith
  · rw [Int.floor_lt]
    have : ((x : ℝ) + 0.5) * ((n : ℝ) / m) ≤ n := by
      rw [← mul_div_assoc, div_le_iff₀ hm]; nlinarith
    push_cast; linarith

/-- Every pixel of the result is the average of the `2 a × 2 a` pixels around the position of its centre,
weighted by the Lanczos window, with border pixels continued; the same for every order of the loop. -/
theorem C113_resample {α : Type} (cv : Conv α) (zero : α) {im : Image α} {f : Nat → Nat → α}
    (s : im.Shows w h f) (hw : 0 < w) (hh : 0 < h) (nw nh : Nat) (hnw : nw < 2 ^ 64) (hnh : nh < 2 ^ 64)
    (hf : nw * nh < 2 ^ 64) {eps : ℝ} (he : 0 < eps) (he' : eps ≤ 1 / 2) {a : Nat} (ha : 0 < a)
    (hwa : w + a < 2 ^ 31) (hha : h + a < 2 ^ 31) (order : List (Nat × Nat))
    (hp : order.Perm (iterYX nw nh)) :
    ∃ out, lanczosOrd cv zero eps order im nw nh a = .ok out ∧ out.Shows nw nh fun x y =>
      cv.fromR (windowAverage (fun d => if |d| < eps then 1 else lanczosWindow a d) a w h
        (fun x y => cv.toR (f x y)) (((x : ℝ) + 1 / 2) * ((w : ℝ) / nw) - 1 / 2)
        (((y : ℝ) + 1 / 2) * ((h : ℝ) / nh) - 1 / 2)) := by
  have s0 := ofSizes_shows zero hnw hnh hf
  unfold lanczosOrd
  rw [if_neg (by simp [s.dim])]
  refine loop_fill (id : Nat × Nat → Nat × Nat) _ _ order ?_ ?_ _ _ s0
  · rintro ⟨x, y⟩ hb o q sq
    have hb := mem_iterYX.mp (hp.mem_iff.mp hb)
    simp only at hb
    simp only [s.width, s.height, id]
    have hu := centre_floor hb.1 hw
    have hv := centre_floor hb.2 hh
    have e5 : (0.5 : ℝ) = 1 / 2 := by norm_num
    rw [lanczosSums_eq cv eps s hw hh hwa hha hu.1 hu.2 hv.1 hv.2, Res.ok_bind]
    rw [e5]
    have hk : (fun d => if |d| < eps then 1 else lanczosWindow a d) = fun d => lanczosKernel eps d a := by
      funext d; rw [C113_kernel he ha]
    have hpos : ∀ u v : ℝ, 0 < ((range (2 * a)).sum fun j => (range (2 * a)).sum fun i =>
        tap (fun x => lanczosKernel eps x a) a u i * tap (fun x => lanczosKernel eps x a) a v j) := by
      intro u v
      simp only [← Finset.sum_mul, ← Finset.mul_sum]
      exact mul_pos (tap_sum_pos he he' ha u) (tap_sum_pos he he' ha v)
    rw [if_pos (hpos _ _).ne', hk]
    exact sq.set2 hb.1 hb.2 _
  · intro x y hx hy
    exact ⟨(x, y), hp.mem_iff.mpr (mem_iterYX.mpr ⟨hx, hy⟩), rfl⟩

example := C113_resample Conv.u8 0 (picture_shows 3 2 fun x y => BitVec.ofNat 8 (50 * x + y)) (by decide) (by decide) 5 7
  (by decide) (by decide) (by decide) (eps := 1e-7) (by norm_num) (by norm_num) (a := 3) (by decide) (by decide)
  (by decide) _ (List.reverse_perm _)

theorem window_at_sample {eps : ℝ} (he : 0 < eps) (he' : eps ≤ 1 / 2) {a : Nat} (ha : 0 < a)
    (f : Nat → Nat → ℝ) (x y : Nat) (hx : x < w) (hy : y < h) :
    windowAverage (fun d => if |d| < eps then 1 else lanczosWindow a d) a w h f x y = f x y := by
  have hk : (fun d => if |d| < eps then 1 else lanczosWindow a d) = fun d => lanczosKernel eps d a := by
    funext d; rw [C113_kernel he ha]
  have ht : ∀ (n k : Nat), tap (fun d => lanczosKernel eps d a) a (n : ℝ) k = if k = a - 1 then 1 else 0 := by
    intro n k
    unfold tap
    have : (n : ℝ) - ((⌊(n : ℝ)⌋ - (a : Int) + 1 + (k : Int) : Int) : ℝ) = (((a : Int) - 1 - k : Int) : ℝ) := by
      rw [Int.floor_natCast]; push_cast; ring
    rw [this]
    split
    · rename_i hk
      rw [show ((a : Int) - 1 - k : Int) = 0 by omega]
      simpa using (C113_interpolating he he' ha).2.1
    · exact (C113_interpolating he he' ha).2.2.1 _ (by omega)
  have hm : a - 1 < 2 * a := by omega
  have hs : ∀ G : Nat → Nat → ℝ, ((range (2 * a)).sum fun j => (range (2 * a)).sum fun i =>
      G i j * ((if i = a - 1 then 1 else 0) * (if j = a - 1 then 1 else 0))) = G (a - 1) (a - 1) := by
    intro G
    rw [Finset.sum_eq_single (a - 1), Finset.sum_eq_single (a - 1)]
    · simp
    · intro i _ hi; simp [hi]
    · intro hn; exact absurd (Finset.mem_range.mpr hm) hn
    · intro j _ hj; simp [hj]
    · intro hn; exact absurd (Finset.mem_range.mpr hm) hn
  have hs1 := hs fun _ _ => 1
  simp only [one_mul] at hs1
  rw [hk]
  unfold windowAverage
  simp only [ht]
  rw [hs fun i j => edge w h f (⌊(x : ℝ)⌋ - (a : Int) + 1 + (i : Int)) (⌊(y : ℝ)⌋ - (a : Int) + 1 + (j : Int)), hs1,
    div_one, Int.floor_natCast, Int.floor_natCast]
  rw [show ((x : Int) - (a : Int) + 1 + ((a - 1 : Nat) : Int)) = x by omega,
    show ((y : Int) - (a : Int) + 1 + ((a - 1 : Nat) : Int)) = y by omega]
  simp [edge, clampInt_self hx, clampInt_self hy]

/-- Resampling to the same size returns the picture. -/
theorem C113_same_size {α : Type} (cv : Conv α) (hc : ∀ v, cv.fromR (cv.toR v) = v) (zero : α) {im : Image α}
    {f : Nat → Nat → α} (s : im.Shows w h f) (hw : 0 < w) (hh : 0 < h) {eps : ℝ} (he : 0 < eps)
    (he' : eps ≤ 1 / 2) {a : Nat} (ha : 0 < a) (hwa : w + a < 2 ^ 31) (hha : h + a < 2 ^ 31) :
    lanczos cv zero eps im w h a = .ok im := by
  obtain ⟨out, e, so⟩ := C113_resample cv zero s hw hh w h s.w_lt s.h_lt s.fits he he' ha hwa hha _ (.refl _)
  rw [lanczos, e]
  congr 1
  refine so.ext s fun x y hx hy => ?_
  have hw' : (w : ℝ) ≠ 0 := by exact_mod_cast hw.ne'
  have hh' : (h : ℝ) ≠ 0 := by exact_mod_cast hh.ne'
  rw [div_self hw', div_self hh', mul_one, mul_one, add_sub_cancel_right, add_sub_cancel_right,
    window_at_sample he he' ha _ x y hx hy, hc]

example := C113_same_size Conv.real (fun _ => rfl) 0 (picture_shows 3 2 fun x y => (x : ℝ) - 2 * y) (by decide)
  (by decide) (eps := 1e-7) (by norm_num) (by norm_num) (a := 3) (by decide) (by decide) (by decide)

/-- A picture of one colour is resampled to a picture of that colour. -/
theorem C113_constant {α : Type} (cv : Conv α) (hc : ∀ v, cv.fromR (cv.toR v) = v) (zero c : α) {im : Image α}
    (s : im.Shows w h (fun _ _ => c)) (hw : 0 < w) (hh : 0 < h) (nw nh : Nat) (hnw : nw < 2 ^ 64)
    (hnh : nh < 2 ^ 64) (hf : nw * nh < 2 ^ 64) {eps : ℝ} (he : 0 < eps) (he' : eps ≤ 1 / 2) {a : Nat}
    (ha : 0 < a) (hwa : w + a < 2 ^ 31) (hha : h + a < 2 ^ 31) :
    ∃ out, lanczos cv zero eps im nw nh a = .ok out ∧ out.Shows nw nh fun _ _ => c := by
  obtain ⟨out, e, so⟩ := C113_resample cv zero s hw hh nw nh hnw hnh hf he he' ha hwa hha _ (.refl _)
  refine ⟨out, e, so.congr fun x y _ _ => ?_⟩
  have hk : (fun d => if |d| < eps then 1 else lanczosWindow a d) = fun d => lanczosKernel eps d a := by
    funext d; rw [C113_kernel he ha]
  rw [hk]
  unfold windowAverage edge
  simp only [← Finset.mul_sum]
  rw [mul_div_assoc, div_self, mul_one, hc]
  simp only [← Finset.sum_mul, ← Finset.mul_sum]
  exact (mul_pos (tap_sum_pos he he' ha _) (tap_sum_pos he he' ha _)).ne'

example := C113_constant Conv.real (fun _ => rfl) 0 7 (picture_shows 3 2 fun _ _ => (7 : ℝ)) (by decide)
  (by decide) 5 7 (by decide) (by decide) (by decide) (eps := 1e-7) (by norm_num) (by norm_num) (a := 3) (by decide)
  (by decide) (by decide)

theorem u8_roundtrip (v : BitVec 8) : Conv.u8.fromR (Conv.u8.toR v) = v := by
  have h1 := v.isLt
  have h2 : (v.toNat : ℝ) ≤ 255 := by exact_mod_cast Nat.lt_succ_iff.mp h1
  simp only [Conv.u8]
  rw [if_neg (by linarith), if_neg (by have : (0 : ℝ) ≤ v.toNat := by positivity
                                       linarith), Nat.floor_natCast, BitVec.ofNat_toNat,
    BitVec.setWidth_eq]

/-- Images that are not two-dimensional are rejected. -/
theorem C113_rejected {α : Type} (cv : Conv α) (zero : α) (eps : ℝ) (order : List (Nat × Nat)) (im : Image α)
    (hd : im.size.length ≠ 2) (nw nh : Nat) (a : Int) :
    lanczosOrd cv zero eps order im nw nh a = .throw .runtime := by
  unfold lanczosOrd
  exact if_pos hd

example := C113_rejected Conv.u8 0 1e-7 [(0, 0)] ⟨[1, 2, 1], [3, 4]⟩ (by decide) 5 5 3

/-- Violation: a lobe count that is not positive is accepted and gives a picture of zeros. -/
theorem C113_no_lobes_violation {α : Type} (cv : Conv α) (zero : α) {im : Image α} {f : Nat → Nat → α}
    (s : im.Shows w h f) (hw : 0 < w) (hh : 0 < h) (a : Int) (ha : a ≤ 0) (hwa : (w : Int) - a < 2 ^ 31)
    (hha : (h : Int) - a < 2 ^ 31) (nw nh : Nat) (hnw : nw < 2 ^ 64) (hnh : nh < 2 ^ 64)
    (hf : nw * nh < 2 ^ 64) (eps : ℝ) :
    ∃ out, lanczos cv zero eps im nw nh a = .ok out ∧ out.Shows nw nh fun _ _ => zero := by
  have s0 := ofSizes_shows zero hnw hnh hf
  unfold lanczos lanczosOrd
  rw [if_neg (by simp [s.dim])]
  obtain ⟨o, e, _, ho⟩ := loop_inv (body := fun (out : Image α) (p : Nat × Nat) => do
      let xOld := ((p.1 : ℝ) + 0.5) * ((im.width : ℝ) / (nw : ℝ)) - 0.5
      let yOld := ((p.2 : ℝ) + 0.5) * ((im.height : ℝ) / (nh : ℝ)) - 0.5
      let s ← lanczosSums cv eps a im xOld yOld
      if s.2 ≠ 0 then out.set2 p.1 p.2 (cv.fromR (s.1 / s.2)) else .ok out)
    (fun l o => (∀ p ∈ l, p ∈ iterYX nw nh) ∧ o = Image.ofSizes zero [nw, nh]) (by
      rintro ⟨x, y⟩ bs _ ⟨hm, rfl⟩
      refine ⟨_, ?_, fun p hp => hm p (by simp [hp]), rfl⟩
      have hb := mem_iterYX.mp (hm (x, y) (by simp))
      simp only at hb
      have hu := centre_floor hb.1 hw
      have hv := centre_floor hb.2 hh
      dsimp only
      rw [s.width, s.height]
      unfold lanczosSums
      rw [i32_ok (by omega) (by omega), Res.ok_bind, i32_ok (by omega) (by omega), Res.ok_bind,
        i32_ok (by omega) (by omega), Res.ok_bind, i32_ok (by omega) (by omega), Res.ok_bind,
        i32_ok (by omega) (by omega), Res.ok_bind, i32_ok (by omega) (by omega), Res.ok_bind]
      have hz : ∀ t : Int, intUp (t - a + 1) (t + a) = [] := by
        intro t
        unfold intUp
        rw [show (t + a - (t - a + 1) + 1).toNat = 0 by omega]
        rfl
      rw [hz, hz]
      simp [loop]) (iterYX nw nh) (Image.ofSizes zero [nw, nh]) ⟨fun _ h => h, rfl⟩
  subst ho
  exact ⟨_, e, s0⟩

-- the hypotheses are met: an 8-bit picture enlarged with three lobes
example : ∃ out, lanczos Conv.u8 0#8 (1 / 2 ^ 23) ⟨[2, 1], [7#8, 7#8]⟩ 5 3 (3 : Nat) = .ok out ∧
    out.Shows 5 3 fun _ _ => 7#8 := by
  refine C113_constant (w := 2) (h := 1) Conv.u8 u8_roundtrip _ _ ?_ (by norm_num) (by norm_num) 5 3 (by norm_num)
    (by norm_num) (by norm_num) (by norm_num) (by norm_num) (by norm_num) (by norm_num) (by norm_num)
  refine Image.Shows.of_data (by norm_num) (by norm_num) (by norm_num) rfl rfl ?_
  intro x y hx hy
  interval_cases x <;> interval_cases y <;> rfl

theorem nonempty_of_at {α : Type} {im : Image α} {v : α} (h : ∃ idx, im.at' idx = .ok v) :
    0 < im.size.prod := by
  obtain ⟨idx, h⟩ := h
  have hb : List.Forall₂ (· < ·) idx im.size := inBounds_of_at'_ok h
  generalize im.size = l at hb
  clear h
  induction hb with
  | nil => simp
  | cons h1 _ ih => rw [List.prod_cons]; exact Nat.mul_pos (by omega) ih

theorem normalize_ok (quot : ℝ → ℝ → ℝ) (im : Image ℝ) (wf : im.WF) (h0 : 0 < im.size.prod) (lo hi : ℝ)
    (h1 : ∃ idx, im.at' idx = .ok lo) (h2 : ∃ idx, im.at' idx = .ok hi)
    (hr : ∀ idx v, im.at' idx = .ok v → lo ≤ v ∧ v ≤ hi) :
    ∃ out, normalize quot im = .ok out ∧ out.WF ∧ out.size = im.size ∧
      ∀ idx v, im.at' idx = .ok v → out.at' idx = .ok (quot (v - lo) (hi - lo)) := by
  obtain ⟨lo', hi', e1, e2, -, ⟨i1, g1⟩, ⟨i2, g2⟩, g3⟩ := C59_min_max im wf h0
  obtain ⟨j1, k1⟩ := h1
  obtain ⟨j2, k2⟩ := h2
  have q1 : lo' = lo := le_antisymm (g3 j1 lo k1).1 (hr i1 lo' g1).1
  have q2 : hi' = hi := le_antisymm (hr i2 hi' g2).2 (g3 j2 hi k2).2
  subst q1 q2
  have ws : ∀ t, (im.setAllValue t).WF := fun t => ⟨by simp [setAllValue, wf.len], wf.fits, wf.sizes⟩
  have hs : ∀ t idx v, im.at' idx = .ok v → (im.setAllValue t).at' idx = .ok t := by
    intro t idx v hv
    exact wf.map_at (f := fun _ => t) hv
  obtain ⟨d, ed, wd, sd, pd⟩ := (C110_subtract (· - ·) (im.setAllValue hi') (im.setAllValue lo') (ws _) (ws _)).2 rfl h0
  obtain ⟨n, en, wn, sn, pn⟩ := (C110_subtract (· - ·) im (im.setAllValue lo') wf (ws _)).2 rfl h0
  obtain ⟨o, eo, wo, so, po⟩ := C09_transform2_partial quot n d wn wd (by rw [sn, sd]; rfl) (by rw [sn]; exact h0)
  refine ⟨o, ?_, wo, by rw [so, sn], fun idx v hv => ?_⟩
  · simp only [normalize, e1, e2, Res.ok_bind, ed, en]
    exact eo
  · exact po idx _ _ (pn idx _ _ hv (hs _ idx v hv)) (pd idx _ _ (hs _ idx v hv) (hs _ idx v hv))

/-! ## C114 normalize

Full statement: the result is the input mapped linearly onto `[0, 1]`. When all pixels are equal the code
divides zero by zero. -/

/-- For an image whose least value `lo` is below its greatest value `hi`, every pixel `v` becomes
`(v - lo) / (hi - lo)`, which is in `[0, 1]`. Missing: images of one value. -/
theorem C114_normalize_partial (quot : ℝ → ℝ → ℝ) (hq : ∀ x y, y ≠ 0 → quot x y = x / y) (im : Image ℝ)
    (wf : im.WF) (lo hi : ℝ) (h1 : ∃ idx, im.at' idx = .ok lo) (h2 : ∃ idx, im.at' idx = .ok hi)
    (hr : ∀ idx v, im.at' idx = .ok v → lo ≤ v ∧ v ≤ hi) (hlt : lo < hi) :
    ∃ out, normalize quot im = .ok out ∧ out.WF ∧ out.size = im.size ∧
      ∀ idx v, im.at' idx = .ok v → out.at' idx = .ok ((v - lo) / (hi - lo)) ∧
        0 ≤ (v - lo) / (hi - lo) ∧ (v - lo) / (hi - lo) ≤ 1 := by
  have h0 : 0 < im.size.prod := nonempty_of_at h1
  obtain ⟨out, e, wo, so, hp⟩ := normalize_ok quot im wf h0 lo hi h1 h2 hr
  refine ⟨out, e, wo, so, fun idx v hv => ?_⟩
  have hd : 0 < hi - lo := by linarith
  have := hr idx v hv
  refine ⟨by rw [hp idx v hv, hq _ _ hd.ne'], div_nonneg (by linarith) hd.le, ?_⟩
  rw [div_le_one hd]; linarith

-- The values 0 … 3 of a 3 × 2 picture; division by zero may give anything.
example := C114_normalize_partial (· / ·) (fun _ _ _ => rfl) (picture 3 2 fun x y => ((x + y : Nat) : ℝ)) (picture_wf ..)
  0 3 ⟨[0, 0], by simpa using (picture_shows 3 2 fun x y => ((x + y : Nat) : ℝ)).px 0 0 (by decide) (by decide)⟩
  ⟨[2, 1], by simpa using (picture_shows 3 2 fun x y => ((x + y : Nat) : ℝ)).px 2 1 (by decide) (by decide)⟩
  (fun idx v h => by
    obtain ⟨x, y, hx, hy, -, rfl⟩ := picture_at h
    have : x + y ≤ 3 := by omega
    exact ⟨by positivity, by exact_mod_cast this⟩) (by norm_num)

/-- The least value becomes zero, the greatest one, and the order of the values is kept. -/
theorem C114_order (quot : ℝ → ℝ → ℝ) (hq : ∀ x y, y ≠ 0 → quot x y = x / y) (im : Image ℝ)
    (wf : im.WF) (lo hi : ℝ) (h1 : ∃ idx, im.at' idx = .ok lo) (h2 : ∃ idx, im.at' idx = .ok hi)
    (hr : ∀ idx v, im.at' idx = .ok v → lo ≤ v ∧ v ≤ hi) (hlt : lo < hi) :
    ∃ out, normalize quot im = .ok out ∧ (∀ idx, im.at' idx = .ok lo → out.at' idx = .ok 0) ∧
      (∀ idx, im.at' idx = .ok hi → out.at' idx = .ok 1) ∧
      ∀ i j v v' u u', im.at' i = .ok v → im.at' j = .ok v' → out.at' i = .ok u → out.at' j = .ok u' →
        (v < v' ↔ u < u') := by
  obtain ⟨out, e, wo, so, hp⟩ := C114_normalize_partial quot hq im wf lo hi h1 h2 hr hlt
  have hd : 0 < hi - lo := by linarith
  refine ⟨out, e, fun idx hv => ?_, fun idx hv => ?_, fun i j v v' u u' hv hv' hu hu' => ?_⟩
  · simpa using (hp idx lo hv).1
  · simpa [div_self hd.ne'] using (hp idx hi hv).1
  · have e1 := (hp i v hv).1
    have e2 := (hp j v' hv').1
    rw [e1] at hu; rw [e2] at hu'
    injection hu with hu; injection hu' with hu'
    rw [← hu, ← hu', div_lt_div_iff_of_pos_right hd]
    constructor <;> intro h <;> linarith

example := C114_order (· / ·) (fun _ _ _ => rfl) (picture 3 2 fun x y => (x : ℝ) + 3 * y) (picture_wf ..) 0 5
  ⟨[0, 0], (picture_shows 3 2 _).px 0 0 (by decide) (by decide) |>.trans (by norm_num)⟩
  ⟨[2, 1], (picture_shows 3 2 _).px 2 1 (by decide) (by decide) |>.trans (by norm_num)⟩
  (fun idx v h => by
    obtain ⟨x, y, hx, hy, -, rfl⟩ := picture_at h
    have h1 : (x : ℝ) + 3 * y ≤ 5 := by
      have : x + 3 * y ≤ 5 := by omega
      exact_mod_cast this
    exact ⟨by positivity, h1⟩) (by norm_num)

/-- Violation: in an image of one value every pixel becomes zero divided by zero. -/
theorem C114_constant_violation (quot : ℝ → ℝ → ℝ) (im : Image ℝ) (wf : im.WF) (c : ℝ)
    (h1 : ∃ idx, im.at' idx = .ok c) (hr : ∀ idx v, im.at' idx = .ok v → v = c) :
    ∃ out, normalize quot im = .ok out ∧ ∀ idx v, im.at' idx = .ok v → out.at' idx = .ok (quot 0 0) := by
  have h0 : 0 < im.size.prod := nonempty_of_at h1
  obtain ⟨out, e, wo, so, hp⟩ := normalize_ok quot im wf h0 c c h1 h1 fun idx v hv => by
    rw [hr idx v hv]; exact ⟨le_refl _, le_refl _⟩
  refine ⟨out, e, fun idx v hv => ?_⟩
  rw [hp idx v hv, hr idx v hv]; simp

-- the hypotheses are met
example : ∃ out, normalize (· / ·) ⟨[3, 1], [4, 2, 10]⟩ = .ok out ∧ out.at' [0, 0] = .ok (1 / 4) := by
  have wf : (⟨[3, 1], [4, 2, 10]⟩ : Image ℝ).WF := ⟨rfl, by norm_num, by simp⟩
  obtain ⟨out, e, _, _, hp⟩ := C114_normalize_partial (· / ·) (fun _ _ _ => rfl) _ wf 2 10 ⟨[1, 0], rfl⟩ ⟨[2, 0], rfl⟩
    (by
      intro idx v hv
      have := List.mem_iff_getElem.mp ((wf.mem_data_iff v).mpr ⟨idx, hv⟩)
      obtain ⟨n, hn, rfl⟩ := this
      simp only [List.length_cons, List.length_nil] at hn
      interval_cases n <;> norm_num) (by norm_num)
  refine ⟨out, e, ?_⟩
  rw [(hp [0, 0] 4 rfl).1]; norm_num

end TinyDIP.Resample
