import Verif.Lemmas.Samples
import Verif.Props.Interp
import Verif.Spec.Rotate

/-!
# Property C143: rotation by any angle

`Rotation.size`, `Rotation.forward`, `Rotation.source` and `Rotation.Inside` are in Spec/Rotate.lean. Real
arithmetic is exact.
-/

namespace TinyDIP.Props

open TinyDIP Image

variable {α : Type} {im : Image α} {w h : Nat} {f : Nat → Nat → α}

/-- The angle after `std::fmod` and the correction of its sign. -/
noncomputable def turnAngle (θ : ℝ) : ℝ :=
  if fmod θ (2 * Real.pi) < 0 then fmod θ (2 * Real.pi) + 2 * Real.pi else fmod θ (2 * Real.pi)

theorem turnAngle_spec (θ : ℝ) :
    0 ≤ turnAngle θ ∧ turnAngle θ < 2 * Real.pi ∧ ∃ m : ℤ, turnAngle θ = θ - m * (2 * Real.pi) := by
  have hpi := Real.pi_pos
  have h2 : (0 : ℝ) < 2 * Real.pi := by linarith
  have hq : θ / (2 * Real.pi) * (2 * Real.pi) = θ := by field_simp
  unfold turnAngle fmod
  by_cases hp : 0 ≤ θ / (2 * Real.pi)
  · simp only [if_pos hp]
    have h1 := Int.floor_le (θ / (2 * Real.pi))
    have h3 := Int.lt_floor_add_one (θ / (2 * Real.pi))
    set q := θ / (2 * Real.pi)
    have h4 : 0 ≤ θ - 2 * Real.pi * (⌊q⌋ : ℝ) := by nlinarith
    rw [if_neg (not_lt.mpr h4)]
    exact ⟨h4, by nlinarith, ⌊q⌋, by ring⟩
  · simp only [if_neg hp]
    have h1 := Int.le_ceil (θ / (2 * Real.pi))
    have h3 := Int.ceil_lt_add_one (θ / (2 * Real.pi))
    set q := θ / (2 * Real.pi)
    by_cases h4 : θ - 2 * Real.pi * (⌈q⌉ : ℝ) < 0
    · rw [if_pos h4]
      exact ⟨by nlinarith, by linarith, ⌈q⌉ - 1, by push_cast; ring⟩
    · rw [if_neg h4]
      exact ⟨not_lt.mp h4, by nlinarith, ⌈q⌉, by ring⟩

theorem turnAngle_add (θ : ℝ) (k : ℤ) : turnAngle (θ + k * (2 * Real.pi)) = turnAngle θ := by
  have hpi := Real.pi_pos
  obtain ⟨a0, a1, m, am⟩ := turnAngle_spec θ
  obtain ⟨b0, b1, n, bn⟩ := turnAngle_spec (θ + k * (2 * Real.pi))
  have hd : turnAngle (θ + k * (2 * Real.pi)) - turnAngle θ = ((k - n + m : ℤ) : ℝ) * (2 * Real.pi) := by
    rw [bn, am]; push_cast; ring
  have hz : k - n + m = 0 := by
    by_contra hne
    rcases lt_or_gt_of_ne hne with hlt | hgt
    · have : ((k - n + m : ℤ) : ℝ) ≤ -1 := by exact_mod_cast (by omega : k - n + m ≤ -1)
      nlinarith
    · have : (1 : ℝ) ≤ ((k - n + m : ℤ) : ℝ) := by exact_mod_cast (by omega : 1 ≤ k - n + m)
      nlinarith
  rw [hz] at hd
  simp only [Int.cast_zero, zero_mul] at hd
  linarith

theorem turnAngle_cos (θ : ℝ) : Real.cos (turnAngle θ) = Real.cos θ := by
  obtain ⟨_, _, m, hm⟩ := turnAngle_spec θ
  rw [hm, Real.cos_sub_int_mul_two_pi]

theorem turnAngle_sin (θ : ℝ) : Real.sin (turnAngle θ) = Real.sin θ := by
  obtain ⟨_, _, m, hm⟩ := turnAngle_spec θ
  rw [hm, Real.sin_sub_int_mul_two_pi]

theorem toSize_ceil_nonneg {v : ℝ} (h0 : 0 ≤ v) (hv : ⌈v⌉₊ < 2 ^ 64) : toSize ((⌈v⌉ : ℤ) : ℝ) = .ok ⌈v⌉₊ := by
  have : ((⌈v⌉ : ℤ) : ℝ) = ((⌈v⌉₊ : Nat) : ℝ) := by
    rw [← Int.natCast_ceil_eq_ceil h0]; simp
  rw [this]
  exact toSize_nat hv

/-- For every angle the result has room exactly for the turned picture, and each of its pixels is the
interpolated value of the input at the point turned back, for every interpolator that is exact on the pixel
grid. -/
theorem C143_every_angle (zero : α) (interp : Image α → ℝ → ℝ → Res α) (I : ℝ → ℝ → α) (s : im.Shows w h f)
    (hI : ∀ x y, interp im x y = .ok (I x y)) (hgrid : ∀ i j : Nat, i < w → j < h → I i j = f i j)
    (θ : ℝ) (hW : (Rotation.size w h θ).1 < 2 ^ 64) (hH : (Rotation.size w h θ).2 < 2 ^ 64)
    (hf : (Rotation.size w h θ).1 * (Rotation.size w h θ).2 < 2 ^ 64) :
    ∃ out, rotateShear zero interp im θ = .ok out ∧
      out.Shows (Rotation.size w h θ).1 (Rotation.size w h θ).2 (fun X Y =>
        let p := Rotation.source w h (Rotation.size w h θ).1 (Rotation.size w h θ).2 θ X Y
        I p.1 p.2) := by
  have hpi := Real.pi_pos
  have hca : ∀ a b : Nat, |(a : ℝ) * Real.cos θ| + |(b : ℝ) * Real.sin θ|
      = a * |Real.cos θ| + b * |Real.sin θ| := by
    intro a b
    rw [abs_mul, abs_mul, Nat.abs_cast, Nat.abs_cast]
  have e : rotateShear zero interp im θ = (if turnAngle θ = 0 then .ok im
      else if turnAngle θ = Real.pi / 2 then quarterTurnBranch zero im
      else do
        let newHeight ← toSize ((⌈(h : ℝ) * |Real.cos θ| + w * |Real.sin θ|⌉ : ℤ) : ℝ)
        let newWidth ← toSize ((⌈(w : ℝ) * |Real.cos θ| + h * |Real.sin θ|⌉ : ℤ) : ℝ)
        pixFor (iterYX newWidth newHeight) (fun out xn yn => do
          let v ← interp im
            ((((xn : ℝ) - ((newWidth : ℝ) - 1) / 2) * Real.cos θ +
              ((yn : ℝ) - ((newHeight : ℝ) - 1) / 2) * Real.sin θ) + ((w : ℝ) - 1) / 2)
            ((-((xn : ℝ) - ((newWidth : ℝ) - 1) / 2) * Real.sin θ +
              ((yn : ℝ) - ((newHeight : ℝ) - 1) / 2) * Real.cos θ) + ((h : ℝ) - 1) / 2)
          out.set2 xn yn v) ((Image.ofSizes zero [newWidth, newHeight]).setAllValue zero)) := by
    rw [rotateShear, if_neg (by simp [s.dim])]
    simp only [s.width, s.height]
    rw [show (if fmod θ (2 * Real.pi) < 0 then fmod θ (2 * Real.pi) + 2 * Real.pi
      else fmod θ (2 * Real.pi)) = turnAngle θ from rfl, turnAngle_cos, turnAngle_sin, hca, hca]
  rw [e]
  by_cases h0 : turnAngle θ = 0
  · rw [if_pos h0]
    have hc : Real.cos θ = 1 := by rw [← turnAngle_cos, h0, Real.cos_zero]
    have hs : Real.sin θ = 0 := by rw [← turnAngle_sin, h0, Real.sin_zero]
    have hsz : Rotation.size w h θ = (w, h) := by simp [Rotation.size, hc, hs]
    rw [hsz]
    refine ⟨im, rfl, s.congr fun X Y hX hY => ?_⟩
    simp only [Rotation.source, Rotation.forward, Real.cos_neg, Real.sin_neg, hc, hs]
    rw [← hgrid X Y hX hY]
    congr 1 <;> ring
  rw [if_neg h0]
  by_cases h1 : turnAngle θ = Real.pi / 2
  · rw [if_pos h1]
    have hc : Real.cos θ = 0 := by rw [← turnAngle_cos, h1, Real.cos_pi_div_two]
    have hs : Real.sin θ = 1 := by rw [← turnAngle_sin, h1, Real.sin_pi_div_two]
    have hsz : Rotation.size w h θ = (h, w) := by simp [Rotation.size, hc, hs]
    rw [hsz]
    obtain ⟨o, eo, so⟩ := quarterTurnBranch_shows zero s
    refine ⟨o, eo, so.congr fun X Y hX hY => ?_⟩
    simp only [Rotation.source, Rotation.forward, Real.cos_neg, Real.sin_neg, hc, hs]
    rw [← hgrid Y (h - 1 - X) hY (by omega)]
    congr 1
    · ring
    · rw [Nat.cast_sub (by omega), Nat.cast_sub (by omega)]; push_cast; ring
  rw [if_neg h1, toSize_ceil_nonneg (by positivity) hH, Res.ok_bind,
    toSize_ceil_nonneg (by positivity) hW, Res.ok_bind]
  set W := ⌈(w : ℝ) * |Real.cos θ| + h * |Real.sin θ|⌉₊ with hWd
  set H := ⌈(h : ℝ) * |Real.cos θ| + w * |Real.sin θ|⌉₊ with hHd
  have hsz : Rotation.size w h θ = (W, H) := rfl
  rw [hsz] at hf hW hH ⊢
  refine shear_loop (im := im) zero interp W H hW hH hf
    (fun xn yn => ((((xn : ℝ) - ((W : ℝ) - 1) / 2) * Real.cos θ +
              ((yn : ℝ) - ((H : ℝ) - 1) / 2) * Real.sin θ) + ((w : ℝ) - 1) / 2,
            (-((xn : ℝ) - ((W : ℝ) - 1) / 2) * Real.sin θ +
              ((yn : ℝ) - ((H : ℝ) - 1) / 2) * Real.cos θ) + ((h : ℝ) - 1) / 2)) _ ?_
  intro X Y hX hY
  rw [hI]
  simp only [Rotation.source, Rotation.forward, Real.cos_neg, Real.sin_neg]
  congr 2 <;> ring

/-- Whole turns change nothing. -/
theorem C143_whole_turns (zero : α) (interp : Image α → ℝ → ℝ → Res α) (im : Image α) (θ : ℝ) (k : ℤ) :
    rotateShear zero interp im (θ + k * (2 * Real.pi)) = rotateShear zero interp im θ := by
  have e := turnAngle_add θ k
  unfold turnAngle at e
  unfold rotateShear
  simp only [e]

theorem cos_sin_one (θ : ℝ) : 1 ≤ |Real.cos θ| + |Real.sin θ| := by
  have h1 := Real.sin_sq_add_cos_sq θ
  have h2 := abs_nonneg (Real.cos θ)
  have h3 := abs_nonneg (Real.sin θ)
  have h4 := sq_abs (Real.cos θ)
  have h5 := sq_abs (Real.sin θ)
  nlinarith

theorem offset_le {n : Nat} {i : ℝ} (h0 : 0 ≤ i) (h1 : i ≤ (n : ℝ) - 1) (c : ℝ) :
    |(i - ((n : ℝ) - 1) / 2) * c| ≤ ((n : ℝ) - 1) / 2 * |c| := by
  rw [abs_mul]
  exact mul_le_mul_of_nonneg_right (abs_le.mpr ⟨by linarith, by linarith⟩) (abs_nonneg c)

/-- Nothing is cut off: every point of the input has a place inside the result, turning it back gives the
point, and distances are kept. -/
theorem C143_nothing_cut_off (w h : Nat) (θ : ℝ) (x y : ℝ) (hin : Rotation.Inside w h (x, y)) :
    let W := (Rotation.size w h θ).1
    let H := (Rotation.size w h θ).2
    let q := Rotation.forward w h W H θ x y
    Rotation.Inside W H q ∧ Rotation.source w h W H θ q.1 q.2 = (x, y) ∧
    ∀ x' y', let q' := Rotation.forward w h W H θ x' y'
      (q.1 - q'.1) ^ 2 + (q.2 - q'.2) ^ 2 = (x - x') ^ 2 + (y - y') ^ 2 := by
  obtain ⟨x0, x1, y0, y1⟩ := hin
  simp only at x0 x1 y0 y1
  have hcs := cos_sin_one θ
  have hsq := Real.sin_sq_add_cos_sq θ
  have a1 := abs_le.mp (offset_le x0 x1 (Real.cos θ))
  have a2 := abs_le.mp (offset_le y0 y1 (Real.sin θ))
  have a3 := abs_le.mp (offset_le x0 x1 (Real.sin θ))
  have a4 := abs_le.mp (offset_le y0 y1 (Real.cos θ))
  have hW : (w : ℝ) * |Real.cos θ| + h * |Real.sin θ| ≤ ((Rotation.size w h θ).1 : ℝ) := Nat.le_ceil _
  have hH : (h : ℝ) * |Real.cos θ| + w * |Real.sin θ| ≤ ((Rotation.size w h θ).2 : ℝ) := Nat.le_ceil _
  simp only
  generalize (Rotation.size w h θ).1 = W at *
  generalize (Rotation.size w h θ).2 = H at *
  refine ⟨⟨?_, ?_, ?_, ?_⟩, ?_, ?_⟩
  · simp only [Rotation.forward]; linarith
  · simp only [Rotation.forward]; linarith
  · simp only [Rotation.forward]; linarith
  · simp only [Rotation.forward]; linarith
  · simp only [Rotation.source, Rotation.forward, Real.cos_neg, Real.sin_neg]
    refine Prod.ext ?_ ?_
    · simp only
      linear_combination (x - ((w : ℝ) - 1) / 2) * hsq
    · simp only
      linear_combination (y - ((h : ℝ) - 1) / 2) * hsq
  · intro x' y'
    simp only [Rotation.forward]
    linear_combination ((x - x') ^ 2 + (y - y') ^ 2) * hsq

-- The corner of a 4 × 3 picture.
example (θ : ℝ) := C143_nothing_cut_off 4 3 θ 3 0 (by norm_num [Rotation.Inside])

/-- The canvas is not larger than needed: less than one pixel wider and higher than the turned rectangle. -/
theorem C143_no_waste (w h : Nat) (θ : ℝ) :
    ((Rotation.size w h θ).1 : ℝ) < w * |Real.cos θ| + h * |Real.sin θ| + 1 ∧
    ((Rotation.size w h θ).2 : ℝ) < h * |Real.cos θ| + w * |Real.sin θ| + 1 :=
  ⟨Nat.ceil_lt_add_one (by positivity), Nat.ceil_lt_add_one (by positivity)⟩

theorem keys_eq (d : ℝ) : cubicKernel d = Rotation.keys d := by
  unfold cubicKernel Rotation.keys
  simp only
  split_ifs <;> ring

theorem keys_far {d : ℝ} (h : 2 ≤ |d|) : Rotation.keys d = 0 := by
  unfold Rotation.keys
  rw [if_neg (by linarith), if_neg (by linarith)]

theorem tent_far {d : ℝ} (h : 1 ≤ |d|) : Rotation.tent d = 0 := by
  unfold Rotation.tent
  rw [max_eq_left (by linarith)]

theorem sum_four (g : Nat → ℝ) {w b : Nat} (hb : b + 3 < w) {x : ℝ} (h0 : (b : ℝ) + 1 ≤ x)
    (h1 : x < (b : ℝ) + 2) :
    ∑ i ∈ Finset.range w, g i * Rotation.keys (x - i) =
      g b * Rotation.keys (x - b) + g (b + 1) * Rotation.keys (x - (b + 1 : Nat)) +
      g (b + 2) * Rotation.keys (x - (b + 2 : Nat)) + g (b + 3) * Rotation.keys (x - (b + 3 : Nat)) := by
  have hs : ({b, b + 1, b + 2, b + 3} : Finset Nat) ⊆ Finset.range w := by
    intro i hi
    simp only [Finset.mem_insert, Finset.mem_singleton] at hi
    rw [Finset.mem_range]; omega
  rw [← Finset.sum_subset hs]
  · rw [Finset.sum_insert (by simp), Finset.sum_insert (by simp), Finset.sum_insert (by simp),
      Finset.sum_singleton]
    ring
  · intro i _ hi
    simp only [Finset.mem_insert, Finset.mem_singleton, not_or] at hi
    have : i < b ∨ b + 4 ≤ i := by omega
    rw [keys_far, mul_zero]
    rcases this with h | h
    · have : (i : ℝ) + 1 ≤ b := by exact_mod_cast h
      rw [le_abs]; left; linarith
    · have : (b : ℝ) + 4 ≤ i := by exact_mod_cast h
      rw [le_abs]; right; linarith

theorem sum_two (g : Nat → ℝ) {w : Nat} {x : ℝ} (h0 : 0 ≤ x) (h1 : x ≤ (w : ℝ) - 1) :
    ∑ i ∈ Finset.range w, g i * Rotation.tent (x - i) =
      g ⌊x⌋₊ * (1 - (x - ⌊x⌋₊)) + g (min (⌊x⌋₊ + 1) (w - 1)) * (x - ⌊x⌋₊) := by
  have hw : ⌊x⌋₊ < w := floor_lt_of_le h0 h1
  have hl := Nat.floor_le h0
  have hu := Nat.lt_floor_add_one x
  generalize ⌊x⌋₊ = a at *
  have ha : Rotation.tent (x - a) = 1 - (x - a) := by
    unfold Rotation.tent
    rw [abs_of_nonneg (by linarith), max_eq_right (by linarith)]
  have far : ∀ i : Nat, i ≠ a → i ≠ a + 1 → Rotation.tent (x - i) = 0 := by
    intro i h2 h3
    have : i < a ∨ a + 2 ≤ i := by omega
    apply tent_far
    rcases this with h | h
    · have : (i : ℝ) + 1 ≤ a := by exact_mod_cast h
      rw [le_abs]; left; linarith
    · have : (a : ℝ) + 2 ≤ i := by exact_mod_cast h
      rw [le_abs]; right; linarith
  by_cases hlast : a + 1 < w
  · have hs : ({a, a + 1} : Finset Nat) ⊆ Finset.range w := by
      intro i hi
      simp only [Finset.mem_insert, Finset.mem_singleton] at hi
      rw [Finset.mem_range]; omega
    rw [← Finset.sum_subset hs]
    · rw [Finset.sum_insert (by simp), Finset.sum_singleton, ha, min_eq_left (by omega)]
      congr 2
      unfold Rotation.tent
      push_cast
      rw [abs_of_nonpos (by linarith), max_eq_right (by linarith)]
      ring
    · intro i _ hi
      simp only [Finset.mem_insert, Finset.mem_singleton, not_or] at hi
      rw [far i hi.1 hi.2, mul_zero]
  · have hwa : w = a + 1 := by omega
    have hx : x = a := by
      rw [hwa] at h1; push_cast at h1; linarith
    have hs : ({a} : Finset Nat) ⊆ Finset.range w := by
      intro i hi
      simp only [Finset.mem_singleton] at hi
      rw [Finset.mem_range]; omega
    rw [← Finset.sum_subset hs]
    · rw [Finset.sum_singleton, ha, hx]; ring
    · intro i hi hi'
      rw [Finset.mem_range] at hi
      simp only [Finset.mem_singleton] at hi'
      rw [far i hi' (by omega), mul_zero]

theorem blend_split (K : ℝ → ℝ) (w h : Nat) (f : Nat → Nat → ℝ) (x y : ℝ) :
    Rotation.blend K w h f x y =
      ∑ j ∈ Finset.range h, (∑ i ∈ Finset.range w, f i j * K (x - i)) * K (y - j) := by
  unfold Rotation.blend
  simp only [Finset.sum_mul]

open Classical in
/-- The value the default interpolator gives at any point: the cubic (in the outermost ring linear) mean of
the pixels, converted to the pixel type, and 0 outside the picture. -/
theorem C143_value (cv : Conv α) (zero : α) (s : im.Shows w h f) (x y : ℝ) :
    bicubic cv zero im x y = .ok (if Rotation.Inside w h (x, y) then
      cv.fromR (Rotation.valueAt w h (fun i j => cv.toR (f i j)) (x, y)) else zero) := by
  by_cases hin : Rotation.Inside w h (x, y)
  · rw [if_pos hin]
    obtain ⟨x0, x1, y0, y1⟩ := hin
    simp only at x0 x1 y0 y1
    unfold Rotation.valueAt
    by_cases hc : 1 ≤ x ∧ x < (w : ℝ) - 2 ∧ 1 ≤ y ∧ y < (h : ℝ) - 2
    · rw [if_pos hc, blend_split]
      obtain ⟨i, j, t, u, hi1, hi2, hj1, hj2, t0, t1, u0, u1, hx, hy, e⟩ :=
        bicubic_inside cv zero s hc.1 hc.2.1 hc.2.2.1 hc.2.2.2
      rw [e]
      obtain ⟨a, rfl⟩ : ∃ a, i = a + 1 := ⟨i - 1, by omega⟩
      obtain ⟨b, rfl⟩ : ∃ b, j = b + 1 := ⟨j - 1, by omega⟩
      simp only [Nat.add_sub_cancel, keys_eq]
      have hx' : x = (a : ℝ) + 1 + t := by rw [hx]; push_cast; ring
      have hy' : y = (b : ℝ) + 1 + u := by rw [hy]; push_cast; ring
      have row : ∀ v : Nat, ∑ i ∈ Finset.range w, cv.toR (f i v) * Rotation.keys (x - i) =
          0 + cv.toR (f a v) * Rotation.keys (t + 1) + cv.toR (f (a + 1) v) * Rotation.keys t +
          cv.toR (f (a + 1 + 1) v) * Rotation.keys (t - 1) + cv.toR (f (a + 1 + 2) v) * Rotation.keys (t - 2) := by
        intro v
        rw [sum_four (fun i => cv.toR (f i v)) (b := a) (by omega) (by linarith) (by linarith)]
        have k0 : x - (a : ℝ) = t + 1 := by rw [hx']; ring
        have k1 : x - ((a + 1 : Nat) : ℝ) = t := by rw [hx']; push_cast; ring
        have k2 : x - ((a + 2 : Nat) : ℝ) = t - 1 := by rw [hx']; push_cast; ring
        have k3 : x - ((a + 3 : Nat) : ℝ) = t - 2 := by rw [hx']; push_cast; ring
        rw [k0, k1, k2, k3, zero_add]
      rw [sum_four (fun j => ∑ i ∈ Finset.range w, cv.toR (f i j) * Rotation.keys (x - i)) (b := b)
        (by omega) (by linarith) (by linarith)]
      have k0 : y - (b : ℝ) = u + 1 := by rw [hy']; ring
      have k1 : y - ((b + 1 : Nat) : ℝ) = u := by rw [hy']; push_cast; ring
      have k2 : y - ((b + 2 : Nat) : ℝ) = u - 1 := by rw [hy']; push_cast; ring
      have k3 : y - ((b + 3 : Nat) : ℝ) = u - 2 := by rw [hy']; push_cast; ring
      rw [k0, k1, k2, k3, row, row, row, row, zero_add]
    · rw [if_neg hc, blend_split]
      have hb : x < 1 ∨ x ≥ (w : ℝ) - 2 ∨ y < 1 ∨ y ≥ (h : ℝ) - 2 := by
        by_contra hn
        push Not at hn
        exact hc ⟨hn.1, hn.2.1, hn.2.2.1, hn.2.2.2⟩
      unfold bicubic
      simp only [s.width, s.height]
      rw [if_pos hb, bilinear_inside cv zero s x0 x1 y0 y1]
      rw [sum_two (fun j => ∑ i ∈ Finset.range w, cv.toR (f i j) * Rotation.tent (x - i)) y0 y1,
        sum_two (fun i => cv.toR (f i ⌊y⌋₊)) x0 x1, sum_two (fun i => cv.toR (f i (min (⌊y⌋₊ + 1) (h - 1)))) x0 x1]
  · rw [if_neg hin]
    have ho : x < 0 ∨ x > (w : ℝ) - 1 ∨ y < 0 ∨ y > (h : ℝ) - 1 := by
      by_contra hn
      push Not at hn
      exact hin ⟨hn.1, hn.2.1, hn.2.2.1, hn.2.2.2⟩
    unfold bicubic
    simp only [s.width, s.height]
    rw [if_pos]
    · exact C41_zero_outside cv zero s _ _ ho
    · rcases ho with h | h | h | h
      · left; linarith
      · right; left; linarith
      · right; right; left; linarith
      · right; right; right; linarith

example := C143_value Conv.real 0 (picture_shows 3 2 fun x y => ((x * y : Nat) : ℝ)) (3 / 2) (1 / 3)

open Classical in
/-- With the default interpolator: the result has the size of the turned picture, and each of its pixels is
the value of the input at the point turned back, converted to the pixel type, or 0 if that point lies
outside. -/
theorem C143_default (cv : Conv α) (hcv : cv.Lawful) (zero : α) (s : im.Shows w h f) (θ : ℝ)
    (hW : (Rotation.size w h θ).1 < 2 ^ 64) (hH : (Rotation.size w h θ).2 < 2 ^ 64)
    (hf : (Rotation.size w h θ).1 * (Rotation.size w h θ).2 < 2 ^ 64) :
    ∃ out, rotateShear zero (bicubic cv zero) im θ = .ok out ∧
      out.Shows (Rotation.size w h θ).1 (Rotation.size w h θ).2 (fun X Y =>
        let p := Rotation.source w h (Rotation.size w h θ).1 (Rotation.size w h θ).2 θ X Y
        if Rotation.Inside w h p then cv.fromR (Rotation.valueAt w h (fun i j => cv.toR (f i j)) p)
        else zero) := by
  refine C143_every_angle zero (bicubic cv zero) (fun x y => if Rotation.Inside w h (x, y) then
    cv.fromR (Rotation.valueAt w h (fun i j => cv.toR (f i j)) (x, y)) else zero) s
    (fun x y => C143_value cv zero s x y) ?_ θ hW hH hf
  intro i j hi hj
  have h1 := C143_value cv zero s i j
  rw [C42_exact_on_grid cv hcv zero s i j hi hj] at h1
  exact (Res.ok.inj h1).symm

/-- The value at the centre of a pixel is the pixel, and a picture of one value has that value at all
points inside it. -/
theorem C143_value_exact (g : Nat → Nat → ℝ) (w h : Nat) (hw : w < 2 ^ 64) (hh : h < 2 ^ 64)
    (hf : w * h < 2 ^ 64) :
    (∀ i j : Nat, i < w → j < h → Rotation.valueAt w h g (i, j) = g i j) ∧
    (∀ c p, (∀ i j, i < w → j < h → g i j = c) → Rotation.Inside w h p → Rotation.valueAt w h g p = c) := by
  obtain ⟨im, s⟩ : ∃ im : Image ℝ, im.Shows w h g := by
    obtain ⟨out, -, so⟩ := shear_loop (im := (⟨[], []⟩ : Image ℝ)) 0 (fun _ x y => .ok (g ⌊x⌋₊ ⌊y⌋₊)) w h hw hh hf
      (fun X Y => ((X : ℝ), (Y : ℝ))) g (by intro X Y _ _; simp)
    exact ⟨out, so⟩
  constructor
  · intro i j hi hj
    have h1 := C143_value Conv.real 0 s i j
    have hi' : (i : ℝ) ≤ (w : ℝ) - 1 := by
      have : ((i + 1 : Nat) : ℝ) ≤ w := by exact_mod_cast hi
      push_cast at this; linarith
    have hj' : (j : ℝ) ≤ (h : ℝ) - 1 := by
      have : ((j + 1 : Nat) : ℝ) ≤ h := by exact_mod_cast hj
      push_cast at this; linarith
    rw [C42_exact_on_grid Conv.real conv_real_lawful 0 s i j hi hj,
      if_pos (show Rotation.Inside w h ((i : ℝ), (j : ℝ)) from
        ⟨Nat.cast_nonneg i, hi', Nat.cast_nonneg j, hj'⟩)] at h1
    exact (Res.ok.inj h1).symm
  · intro c p hc hin
    have s' : im.Shows w h fun _ _ => c := s.congr fun i j hi hj => hc i j hi hj
    have h1 := C143_value Conv.real 0 s p.1 p.2
    rw [C42_constants Conv.real conv_real_lawful 0 c s' p.1 p.2 hin.1 hin.2.1 hin.2.2.1 hin.2.2.2,
      if_pos hin] at h1
    exact (Res.ok.inj h1).symm

example := C143_value_exact (fun x y => ((x * y : Nat) : ℝ)) 3 2 (by decide) (by decide) (by decide)

/-- An image that is not two-dimensional is refused. -/
theorem C143_refused (zero : α) (interp : Image α → ℝ → ℝ → Res α) (im : Image α) (θ : ℝ)
    (hd : im.size.length ≠ 2) : rotateShear zero interp im θ = .throw .runtime := by
  unfold rotateShear
  exact if_pos hd

/-- Concrete case: a 4 × 3 picture turned by 45 degrees needs 5 × 5 pixels, and the theorems apply to it. -/
theorem rotation_size_example : Rotation.size 4 3 (Real.pi / 4) = (5, 5) := by
  have h2 : (0 : ℝ) ≤ Real.sqrt 2 := Real.sqrt_nonneg 2
  have h3 : Real.sqrt 2 * Real.sqrt 2 = 2 := Real.mul_self_sqrt (by norm_num)
  have lo : (1.4 : ℝ) < Real.sqrt 2 := by nlinarith
  have hi : Real.sqrt 2 < (1.42 : ℝ) := by nlinarith
  have e : |Real.sqrt 2 / 2| = Real.sqrt 2 / 2 := abs_of_nonneg (by positivity)
  unfold Rotation.size
  rw [Real.cos_pi_div_four, Real.sin_pi_div_four, e]
  refine Prod.ext ?_ ?_ <;> simp only
  · rw [Nat.ceil_eq_iff (by norm_num)]
    constructor <;> push_cast <;> linarith
  · rw [Nat.ceil_eq_iff (by norm_num)]
    constructor <;> push_cast <;> linarith

example : ∃ (im : Image ℝ) (f : Nat → Nat → ℝ), im.Shows 4 3 f ∧
    ∃ out g, rotateShear 0 (bicubic Conv.real 0) im (Real.pi / 4) = .ok out ∧ out.Shows 5 5 g := by
  have s := ofSizes_shows (1 : ℝ) (w := 4) (h := 3) (by decide) (by decide) (by decide)
  have hs := rotation_size_example
  obtain ⟨o, e, so⟩ := C143_default Conv.real conv_real_lawful 0 s (Real.pi / 4)
    (by rw [hs]; decide) (by rw [hs]; decide) (by rw [hs]; decide)
  rw [hs] at so
  exact ⟨_, _, s, o, _, e, so⟩

open Classical in
-- The library's own interpolator meets the hypotheses of `C143_every_angle`.
example := C143_every_angle 0 (bicubic Conv.real 0)
  (fun x y => if Rotation.Inside 4 3 (x, y) then Rotation.valueAt 4 3 (fun x y => ((x * y : Nat) : ℝ)) (x, y) else 0)
  (picture_shows 4 3 fun x y => ((x * y : Nat) : ℝ))
  (fun x y => C143_value Conv.real 0 (picture_shows 4 3 fun x y => ((x * y : Nat) : ℝ)) x y)
  (fun i j hi hj => by
    have h1 : (i : ℝ) + 1 ≤ 4 := by exact_mod_cast hi
    have h2 : (j : ℝ) + 1 ≤ 3 := by exact_mod_cast hj
    rw [if_pos ⟨by positivity, by push_cast; linarith, by positivity, by push_cast; linarith⟩]
    exact (C143_value_exact _ 4 3 (by decide) (by decide) (by decide)).1 i j hi hj)
  (Real.pi / 4) (by rw [rotation_size_example]; decide) (by rw [rotation_size_example]; decide)
  (by rw [rotation_size_example]; decide)

end TinyDIP.Props
