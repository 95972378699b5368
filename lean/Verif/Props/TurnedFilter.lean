import Verif.Model.TurnedFilter
import Verif.Props.Filter
import Verif.Props.Rotate
import Verif.Props.CliTransform

/-!
# Property C149: the Gaussian filter in turned directions
-/

namespace TinyDIP.Props

open TinyDIP Image Filter Arith

/-- A turned and turned back picture has room for the original. -/
theorem size_size (w h : Nat) (θ : ℝ) :
    w ≤ (Rotation.size (Rotation.size w h θ).1 (Rotation.size w h θ).2 (-θ)).1 ∧
    h ≤ (Rotation.size (Rotation.size w h θ).1 (Rotation.size w h θ).2 (-θ)).2 := by
  have hsq := Real.sin_sq_add_cos_sq θ
  have c0 := abs_nonneg (Real.cos θ)
  have s0 := abs_nonneg (Real.sin θ)
  have hc := sq_abs (Real.cos θ)
  have hs := sq_abs (Real.sin θ)
  have hw0 : (0 : ℝ) ≤ w := Nat.cast_nonneg w
  have hh0 : (0 : ℝ) ≤ h := Nat.cast_nonneg h
  have h1 : (w : ℝ) * |Real.cos θ| + h * |Real.sin θ| ≤ ((Rotation.size w h θ).1 : ℝ) := Nat.le_ceil _
  have h2 : (h : ℝ) * |Real.cos θ| + w * |Real.sin θ| ≤ ((Rotation.size w h θ).2 : ℝ) := Nat.le_ceil _
  generalize (Rotation.size w h θ).1 = W at *
  generalize (Rotation.size w h θ).2 = H at *
  have h3 : (W : ℝ) * |Real.cos (-θ)| + H * |Real.sin (-θ)| ≤ ((Rotation.size W H (-θ)).1 : ℝ) := Nat.le_ceil _
  have h4 : (H : ℝ) * |Real.cos (-θ)| + W * |Real.sin (-θ)| ≤ ((Rotation.size W H (-θ)).2 : ℝ) := Nat.le_ceil _
  rw [Real.cos_neg, Real.sin_neg, abs_neg] at h3 h4
  generalize |Real.cos θ| = c at *
  generalize |Real.sin θ| = s at *
  have a1 := mul_le_mul_of_nonneg_right h1 c0
  have a2 := mul_le_mul_of_nonneg_right h2 s0
  have a3 := mul_le_mul_of_nonneg_right h2 c0
  have a4 := mul_le_mul_of_nonneg_right h1 s0
  have hcs : c ^ 2 + s ^ 2 = 1 := by linarith
  have p1 : 0 ≤ (h : ℝ) * (s * c) := by positivity
  have p2 : 0 ≤ (w : ℝ) * (s * c) := by positivity
  constructor
  · have : (w : ℝ) ≤ ((Rotation.size W H (-θ)).1 : ℝ) := by
      have e : (w : ℝ) = w * (c ^ 2 + s ^ 2) := by rw [hcs, mul_one]
      nlinarith
    exact_mod_cast this
  · have : (h : ℝ) ≤ ((Rotation.size W H (-θ)).2 : ℝ) := by
      have e : (h : ℝ) = h * (c ^ 2 + s ^ 2) := by rw [hcs, mul_one]
      nlinarith
    exact_mod_cast this

/-- The picture `f` turned by `θ`, smoothed along the axes and turned back: what is seen at `(x, y)` of the
`w × h` picture around the middle. `b` and `v` say how the turned picture goes on beyond its borders. The bell
curves are centred on samples `(n1 + 1) / 2` and `(n2 + 1) / 2`. -/
noncomputable def smoothedTurned (w h : Nat) (f : Nat → Nat → ℝ) (sd1 sd2 θ : ℝ) (n1 n2 : Nat) (b : Boundary)
    (v : ℝ) (x y : Nat) : ℝ :=
  let W := (Rotation.size w h θ).1
  let H := (Rotation.size w h θ).2
  let W' := (Rotation.size W H (-θ)).1
  let H' := (Rotation.size W H (-θ)).2
  let turned := Rotation.picture id 0 w h f θ
  let smooth := blur sd1 sd2 n1 n2 (offset W n1) (offset H n2) ((n1 + 1) / 2 : Nat) ((n2 + 1) / 2 : Nat)
    (extend b v W H turned)
  Rotation.picture id 0 W H smooth (-θ) (W' / 2 - w / 2 + x) (H' / 2 - h / 2 + y)

/-- The result has the size of the input and is the picture turned, smoothed with the two standard deviations
along the axes and turned back, around the middle. -/
theorem C149_filter (im : Image ℝ) (w h : Nat) (f : Nat → Nat → ℝ) (s : im.Shows w h f) (hw : 0 < w)
    (hh : 0 < h) (sd1 sd2 θ : ℝ) (hs1 : 0 < sd1) (hs2 : 0 < sd2) (n1 n2 : Nat) (hn1 : 0 < n1) (hn2 : 0 < n2)
    (b : Boundary) (v : ℝ) (W H W' H' : Nat) (hsz : Rotation.size w h θ = (W, H))
    (hsz' : Rotation.size W H (-θ) = (W', H')) (hc : CanPad b W H n1 n2)
    (hx : 2 * (W + 3 * n1 + 1) < 2 ^ 64) (hy : 2 * (H + 3 * n2 + 1) < 2 ^ 64)
    (hf : (W + 3 * n1 + 1) * (H + 3 * n2 + 1) < 2 ^ 64) (hx' : 2 * W' < 2 ^ 64) (hy' : 2 * H' < 2 ^ 64)
    (hf' : W' * H' < 2 ^ 64) :
    ∃ out, imgaussfiltTurned im sd1 sd2 θ n1 n2 b v = .ok out ∧
      out.Shows w h (smoothedTurned w h f sd1 sd2 θ n1 n2 b v) := by
  have hge := size_size w h θ
  have hW : (Rotation.size w h θ).1 = W := by rw [hsz]
  have hH : (Rotation.size w h θ).2 = H := by rw [hsz]
  rw [hW, hH] at hge
  have hW' : (Rotation.size W H (-θ)).1 = W' := by rw [hsz']
  have hH' : (Rotation.size W H (-θ)).2 = H' := by rw [hsz']
  rw [hW', hH'] at hge
  have hWH : W * H < 2 ^ 64 := lt_of_le_of_lt (Nat.mul_le_mul (by omega) (by omega)) hf
  obtain ⟨o1, e1, s1⟩ := C143_default Conv.real conv_real_lawful 0 s θ (by rw [hW]; omega) (by rw [hH]; omega)
    (by rw [hW, hH]; exact hWH)
  rw [hW, hH] at s1
  have hWpos : 0 < W := by
    rcases Nat.eq_zero_or_pos W with h0 | h0
    · exfalso
      have := C143_nothing_cut_off w h θ 0 0 ⟨le_refl _, by
        have : (1 : ℝ) ≤ w := by exact_mod_cast hw
        show (0 : ℝ) ≤ _; linarith, le_refl _, by
        have : (1 : ℝ) ≤ h := by exact_mod_cast hh
        show (0 : ℝ) ≤ _; linarith⟩
      obtain ⟨⟨a1, a2, -, -⟩, -⟩ := this
      rw [hW, h0] at a1 a2
      simp only [Nat.cast_zero] at a1 a2
      linarith
    · exact h0
  have hHpos : 0 < H := by
    rcases Nat.eq_zero_or_pos H with h0 | h0
    · exfalso
      have := C143_nothing_cut_off w h θ 0 0 ⟨le_refl _, by
        have : (1 : ℝ) ≤ w := by exact_mod_cast hw
        show (0 : ℝ) ≤ _; linarith, le_refl _, by
        have : (1 : ℝ) ≤ h := by exact_mod_cast hh
        show (0 : ℝ) ≤ _; linarith⟩
      obtain ⟨⟨-, -, a1, a2⟩, -⟩ := this
      rw [hH, h0] at a1 a2
      simp only [Nat.cast_zero] at a1 a2
      linarith
    · exact h0
  obtain ⟨o2, e2, s2⟩ := C105_filter_partial o1 W H _ s1 hWpos hHpos n1 n2 hn1 hn2 sd1 sd2 b v hc hx hy hf
  obtain ⟨o3, e3, s3⟩ := C143_default Conv.real conv_real_lawful 0 s2 (-θ) (by rw [hW']; omega)
    (by rw [hH']; omega) (by rw [hW', hH']; exact hf')
  rw [hW', hH'] at s3
  have hwh : w * h < 2 ^ 64 := lt_of_le_of_lt (Nat.mul_le_mul hge.1 hge.2) hf'
  obtain ⟨o4, e4, s4⟩ := subimage2d_shows (0 : ℝ) s3 (cx := W' / 2) (cy := H' / 2) hw hh hwh (by omega) (by omega)
    (by omega) (by omega) 0
  refine ⟨o4, ?_, s4.congr ?_⟩
  · rw [imgaussfiltTurned, if_neg (by simp [s.dim]), if_neg (by push Not; exact ⟨hs1, hs2⟩), e1, Res.ok_bind, e2,
      Res.ok_bind, e3, Res.ok_bind, s3.width, s3.height, s.width, s.height]
    exact e4
  · intro x y hx hy
    rw [if_pos ⟨⟨by omega, by omega⟩, by omega, by omega⟩]
    rw [show W' / 2 + x - w / 2 = W' / 2 - w / 2 + x by omega, show H' / 2 + y - h / 2 = H' / 2 - h / 2 + y by omega]
    subst hW' hH' hW hH
    rfl

/-- Whole turns: the plain filter. -/
theorem C149_whole_turns (im : Image ℝ) (w h : Nat) (f : Nat → Nat → ℝ) (s : im.Shows w h f) (hw : 0 < w)
    (hh : 0 < h) (sd1 sd2 : ℝ) (hs1 : 0 < sd1) (hs2 : 0 < sd2) (n1 n2 : Nat) (hn1 : 0 < n1) (hn2 : 0 < n2)
    (b : Boundary) (v : ℝ) (k : ℤ) (hc : CanPad b w h n1 n2)
    (hx : 2 * (w + 3 * n1 + 1) < 2 ^ 64) (hy : 2 * (h + 3 * n2 + 1) < 2 ^ 64)
    (hf : (w + 3 * n1 + 1) * (h + 3 * n2 + 1) < 2 ^ 64) :
    ∃ out, imgaussfiltTurned im sd1 sd2 (k * (2 * Real.pi)) n1 n2 b v = .ok out ∧
      imgaussfilt im sd1 sd2 n1 n2 b v = .ok out := by
  have hz : ∀ {im : Image ℝ} {w h f} (_ : im.Shows w h f) (k : ℤ),
      rotateShear 0 (bicubic .real 0) im (k * (2 * Real.pi)) = .ok im := by
    intro im w h f s k
    have := C143_whole_turns 0 (bicubic .real 0) im 0 k
    rw [zero_add] at this
    rw [this, rotateShear, if_neg (by simp [s.dim])]
    have h0 : fmod 0 (2 * Real.pi) = 0 := by simp [fmod]
    simp only [h0, lt_irrefl, if_false, if_true]
  obtain ⟨o, e, so⟩ := C105_filter_partial im w h f s hw hh n1 n2 hn1 hn2 sd1 sd2 b v hc hx hy hf
  have hwh : w * h < 2 ^ 64 := s.fits
  obtain ⟨o4, e4, s4⟩ := subimage2d_shows (0 : ℝ) so (cx := w / 2) (cy := h / 2) hw hh hwh (by omega) (by omega)
    (by omega) (by omega) 0
  have heq : o4 = o := by
    refine s4.ext so ?_
    intro x y hx hy
    rw [if_pos ⟨⟨by omega, by omega⟩, by omega, by omega⟩]
    congr 1 <;> omega
  refine ⟨o, ?_, e⟩
  have hneg : -((k : ℝ) * (2 * Real.pi)) = ((-k : ℤ) : ℝ) * (2 * Real.pi) := by push_cast; ring
  rw [imgaussfiltTurned, if_neg (by simp [s.dim]), if_neg (by push Not; exact ⟨hs1, hs2⟩), hz s, Res.ok_bind, e,
    Res.ok_bind, hneg, hz so, Res.ok_bind, so.width, so.height, s.width, s.height, e4, heq]

example := C149_whole_turns _ 4 3 _ (ofSizes_shows (5 : ℝ) (w := 4) (h := 3) (by decide) (by decide) (by decide)) (by decide)
  (by decide) 1 2 (by norm_num) (by norm_num) 3 3 (by decide) (by decide) .replicate 0 (-2) ⟨by decide, by decide⟩ (by decide)
  (by decide) (by decide)

/-- Images that are not two-dimensional and standard deviations that are not positive are refused. -/
theorem C149_rejected (im : Image ℝ) (sd1 sd2 θ : ℝ) (n1 n2 : Nat) (b : Boundary) (v : ℝ)
    (h : im.size.length ≠ 2 ∨ sd1 ≤ 0 ∨ sd2 ≤ 0) :
    imgaussfiltTurned im sd1 sd2 θ n1 n2 b v = .throw .runtime := by
  unfold imgaussfiltTurned
  by_cases hd : im.size.length ≠ 2
  · exact if_pos hd
  · rw [if_neg (show ¬ im.dim ≠ 2 from hd)]
    exact if_pos (h.resolve_left hd)

example := C149_rejected (Image.ofSizes (1 : ℝ) [4, 4]) 1 0 (Real.pi / 4) 3 3 .replicate 0 (.inr (.inr le_rfl))

/-- Images with three channels of real numbers are filtered channel by channel. -/
theorem C149_colour (im : Image (Px3 ℝ)) (w h : Nat) (f : Nat → Nat → Px3 ℝ) (s : im.Shows w h f) (hw : 0 < w)
    (hh : 0 < h) (sd1 sd2 θ : ℝ) (hs1 : 0 < sd1) (hs2 : 0 < sd2) (n1 n2 : Nat) (hn1 : 0 < n1) (hn2 : 0 < n2)
    (b : Boundary) (W H W' H' : Nat) (hsz : Rotation.size w h θ = (W, H))
    (hsz' : Rotation.size W H (-θ) = (W', H')) (hc : CanPad b W H n1 n2)
    (hx : 2 * (W + 3 * n1 + 1) < 2 ^ 64) (hy : 2 * (H + 3 * n2 + 1) < 2 ^ 64)
    (hf : (W + 3 * n1 + 1) * (H + 3 * n2 + 1) < 2 ^ 64) (hx' : 2 * W' < 2 ^ 64) (hy' : 2 * H' < 2 ^ 64)
    (hf' : W' * H' < 2 ^ 64) :
    ∃ out, imgaussfiltTurned3 im sd1 sd2 θ n1 n2 b = .ok out ∧ out.Shows w h (fun x y =>
      ⟨smoothedTurned w h (fun x y => (f x y).c0) sd1 sd2 θ n1 n2 b 0 x y,
       smoothedTurned w h (fun x y => (f x y).c1) sd1 sd2 θ n1 n2 b 0 x y,
       smoothedTurned w h (fun x y => (f x y).c2) sd1 sd2 θ n1 n2 b 0 x y⟩) := by
  have key : ∀ ch : Px3 ℝ → ℝ, ∃ out, imgaussfiltTurned ⟨im.size, im.data.map ch⟩ sd1 sd2 θ n1 n2 b 0 = .ok out ∧
      out.Shows w h (smoothedTurned w h (fun x y => ch (f x y)) sd1 sd2 θ n1 n2 b 0) := fun ch =>
    C149_filter _ w h _ (Resample.map_shows s ch) hw hh sd1 sd2 θ hs1 hs2 n1 n2 hn1 hn2 b 0 W H W' H' hsz hsz' hc hx hy hf
      hx' hy' hf'
  obtain ⟨a, ea, sa⟩ := key Px3.c0
  obtain ⟨b', eb, sb⟩ := key Px3.c1
  obtain ⟨c, ec, sc⟩ := key Px3.c2
  obtain ⟨out, e, so, -⟩ := applyEach_planes (0 : ℝ) (0 : ℝ)
    (fun p => imgaussfiltTurned p sd1 sd2 θ n1 n2 b 0) s hw hh hw hh ea eb ec sa sb sc
  exact ⟨out, e, so⟩

theorem size_one : Rotation.size 1 1 (Real.pi / 4) = (2, 2) := by
  have h2 : (0 : ℝ) ≤ Real.sqrt 2 := Real.sqrt_nonneg 2
  have hq : Real.sqrt 2 ^ 2 = 2 := Real.sq_sqrt (by norm_num)
  have lo : 1.4 < Real.sqrt 2 := by nlinarith
  have hi : Real.sqrt 2 < 1.5 := by nlinarith
  have e : ⌈((1 : ℕ) : ℝ) * |Real.cos (Real.pi / 4)| + ((1 : ℕ) : ℝ) * |Real.sin (Real.pi / 4)|⌉₊ = 2 := by
    rw [Real.cos_pi_div_four, Real.sin_pi_div_four, abs_of_nonneg (by positivity), Nat.ceil_eq_iff (by norm_num)]
    push_cast
    constructor <;> linarith
  unfold Rotation.size
  rw [e]

theorem size_two : Rotation.size 2 2 (-(Real.pi / 4)) = (3, 3) := by
  have h2 : (0 : ℝ) ≤ Real.sqrt 2 := Real.sqrt_nonneg 2
  have hq : Real.sqrt 2 ^ 2 = 2 := Real.sq_sqrt (by norm_num)
  have lo : 1.4 < Real.sqrt 2 := by nlinarith
  have hi : Real.sqrt 2 < 1.5 := by nlinarith
  have e : ⌈((2 : ℕ) : ℝ) * |Real.cos (-(Real.pi / 4))| + ((2 : ℕ) : ℝ) * |Real.sin (-(Real.pi / 4))|⌉₊ = 3 := by
    rw [Real.cos_neg, Real.sin_neg, abs_neg, Real.cos_pi_div_four, Real.sin_pi_div_four,
      abs_of_nonneg (by positivity), Nat.ceil_eq_iff (by norm_num)]
    push_cast
    constructor <;> linarith
  unfold Rotation.size
  rw [e]

theorem turned_one (f : Nat → Nat → ℝ) (X Y : Nat) : Rotation.picture id 0 1 1 f (Real.pi / 4) X Y = 0 := by
  unfold Rotation.picture
  simp only
  apply if_neg
  rintro ⟨a1, a2, a3, a4⟩
  rw [size_one] at a1 a2 a3 a4
  unfold Rotation.source Rotation.forward at a1 a2 a3 a4
  simp only [Nat.cast_one, Nat.cast_ofNat, sub_self, zero_div, add_zero] at a1 a2 a3 a4
  have b1 := le_antisymm a2 a1
  have b2 := le_antisymm a4 a3
  have hsq := Real.sin_sq_add_cos_sq (-(Real.pi / 4))
  generalize Real.sin (-(Real.pi / 4)) = s at *
  generalize Real.cos (-(Real.pi / 4)) = c at *
  have hx : ((X : ℝ) - (2 - 1) / 2) ≠ 0 := by
    intro h
    have h2 : (X : ℝ) * 2 = 1 := by linarith
    have h3 : X * 2 = 1 := by exact_mod_cast h2
    omega
  have hzero : ((X : ℝ) - (2 - 1) / 2) ^ 2 + ((Y : ℝ) - (2 - 1) / 2) ^ 2 = 0 := by
    have : (((X : ℝ) - (2 - 1) / 2) ^ 2 + ((Y : ℝ) - (2 - 1) / 2) ^ 2) * (s ^ 2 + c ^ 2)
        = (((X : ℝ) - (2 - 1) / 2) * c - ((Y : ℝ) - (2 - 1) / 2) * s) ^ 2
          + (((X : ℝ) - (2 - 1) / 2) * s + ((Y : ℝ) - (2 - 1) / 2) * c) ^ 2 := by ring
    rw [b1, b2, hsq] at this
    linarith
  have := pow_pos (abs_pos.2 hx) 2
  rw [sq_abs] at this
  nlinarith [sq_nonneg ((Y : ℝ) - (2 - 1) / 2)]

/-- The filter does not keep constant pictures: between the two turns everything outside of the turned picture
counts as zero. The white pixel becomes black when the directions are turned by 45 degrees, whatever the
standard deviations, window sizes and boundary condition. -/
theorem C149_constant_violation (sd1 sd2 : ℝ) (hs1 : 0 < sd1) (hs2 : 0 < sd2) (n1 n2 : Nat) (hn1 : 0 < n1)
    (hn2 : 0 < n2) (hb1 : n1 < 2 ^ 30) (hb2 : n2 < 2 ^ 30) (b : Boundary) (hc : CanPad b 2 2 n1 n2) :
    (⟨[1, 1], [1]⟩ : Image ℝ).Shows 1 1 (fun _ _ => 1) ∧
    ∃ out, imgaussfiltTurned ⟨[1, 1], [1]⟩ sd1 sd2 (Real.pi / 4) n1 n2 b 0 = .ok out ∧
      out.Shows 1 1 (fun _ _ => 0) := by
  have s : (⟨[1, 1], [1]⟩ : Image ℝ).Shows 1 1 (fun _ _ => 1) := by
    exact ofSizes_shows (1 : ℝ) (w := 1) (h := 1) (by decide) (by decide) (by decide)
  refine ⟨s, ?_⟩
  obtain ⟨out, e, so⟩ := C149_filter _ 1 1 _ s (by omega) (by omega) sd1 sd2 (Real.pi / 4) hs1 hs2 n1 n2 hn1 hn2 b 0
    2 2 3 3 size_one size_two hc (by omega) (by omega)
    (lt_of_le_of_lt (Nat.mul_le_mul (show 2 + 3 * n1 + 1 ≤ 2 ^ 32 - 1 by omega)
      (show 2 + 3 * n2 + 1 ≤ 2 ^ 32 - 1 by omega)) (by norm_num)) (by omega) (by omega) (by omega)
  refine ⟨out, e, so.congr ?_⟩
  intro x y _ _
  have ht : Rotation.picture id 0 1 1 (fun _ _ => (1 : ℝ)) (Real.pi / 4) = fun _ _ => 0 := by
    funext X Y; exact turned_one _ X Y
  have he : extend b 0 2 2 (fun _ _ => (0 : ℝ)) = fun _ _ => 0 := by
    funext X Y; cases b <;> simp [extend]
  have hbl : ∀ o1 o2 c1 c2, blur sd1 sd2 n1 n2 o1 o2 c1 c2 (fun _ _ => 0) = fun _ _ => 0 := by
    intro o1 o2 c1 c2; funext X Y; simp [blur]
  unfold smoothedTurned
  simp only [size_one, ht, he, hbl]
  unfold Rotation.picture
  simp only
  split
  · simp [Rotation.valueAt, Rotation.blend]
  · rfl

/-- Concrete case for `C149_filter`: one pixel, windows of three samples, nearest border pixel. -/
example : ∃ out g, imgaussfiltTurned ⟨[1, 1], [5]⟩ 1 2 (Real.pi / 4) 3 3 .replicate 0 = .ok out ∧ out.Shows 1 1 g := by
  have s : (⟨[1, 1], [5]⟩ : Image ℝ).Shows 1 1 (fun _ _ => 5) :=
    ofSizes_shows (5 : ℝ) (w := 1) (h := 1) (by decide) (by decide) (by decide)
  obtain ⟨out, e, so⟩ := C149_filter _ 1 1 _ s (by omega) (by omega) 1 2 (Real.pi / 4) (by norm_num) (by norm_num) 3 3
    (by omega) (by omega) .replicate 0 2 2 3 3 size_one size_two ⟨by omega, by omega⟩ (by omega) (by omega) (by omega)
    (by omega) (by omega) (by omega)
  exact ⟨out, _, e, so⟩

example := C149_colour _ 1 1 _ (ofSizes_shows (⟨5, 6, 7⟩ : Px3 ℝ) (w := 1) (h := 1) (by decide) (by decide) (by decide))
  (by omega) (by omega) 1 2 (Real.pi / 4) (by norm_num) (by norm_num) 3 3 (by omega) (by omega) .replicate 2 2 3 3 size_one
  size_two ⟨by omega, by omega⟩ (by omega) (by omega) (by omega) (by omega) (by omega) (by omega)

end TinyDIP.Props
