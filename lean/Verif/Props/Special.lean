import Verif.Lemmas.Samples
import Verif.Lemmas.Samples
import Verif.Lemmas.Special
import Verif.Props.CliSignal
import Verif.Props.CliAbs
import Mathlib.Tactic.FinCases

/-!
# Infinities and NaN: sampling, rotation, warping (C158–C160)
-/

namespace TinyDIP.Props

open TinyDIP Image Rnd Sp

variable {α F : Type}

/-! ## C158 -/

/-- A picture shown in the examples below. -/
noncomputable def dots : Image (BitVec 8) := Image.ofSizes 7#8 [5, 4]

theorem dots_shows : dots.Shows 5 4 fun _ _ => 7#8 := ofSizes_shows 7#8 (by decide) (by decide) (by decide)

/-- Both models convert a number to 8 bits in the same way. -/
theorem u8_fromD (v : ℝ) : Sp.Elem.u8.fromD (.num v) = .ok (Conv.u8.fromR v) := by
  simp only [Sp.Elem.u8, Conv.u8]
  by_cases h1 : (255 : ℝ) < v
  · rw [if_pos (show (Dbl.num 255).lt (.num v) from h1), if_pos h1]
  rw [if_neg (show ¬ (Dbl.num 255).lt (.num v) from h1), if_neg h1]
  by_cases h2 : v < 0
  · rw [if_pos (show (Dbl.num v).lt (.num 0) from h2), if_pos h2]
  rw [if_neg (show ¬ (Dbl.num v).lt (.num 0) from h2), if_neg h2]

/-- Sampling an 8-bit picture at any position that is a number or an infinity gives a value. Missing: positions that
are NaN, see `C158_nan_violation`. -/
theorem C158_byte_partial {im : Image (BitVec 8)} {w h : Nat} {f : Nat → Nat → BitVec 8} (s : im.Shows w h f)
    (hw : w ≤ 2 ^ 53) (hh : h ≤ 2 ^ 53) (x y : Dbl) (hx : x ≠ .nan) (hy : y ≠ .nan) :
    (∃ a, Sp.bilinear .u8 0 im x y = .ok a) ∧ ∃ a, Sp.bicubic .u8 0 im x y = .ok a :=
  ⟨bilinear_ok Elem.u8_sound 0 s hw hh hx hy, bicubic_ok Elem.u8_sound 0 s hw hh hx hy⟩

example : (∃ a, Sp.bilinear .u8 0 dots (.num 1.5) .ninf = .ok a) ∧
    ∃ a, Sp.bicubic .u8 0 dots (.num 1.5) .ninf = .ok a :=
  C158_byte_partial dots_shows (by norm_num) (by norm_num) _ _ (fun h => nomatch h) (fun h => nomatch h)

/-- The same for pictures of `double`, whatever values they hold. Missing: positions that are NaN, see
`C158_nan_violation`. -/
theorem C158_double_partial {im : Image Dbl} {w h : Nat} {f : Nat → Nat → Dbl} (s : im.Shows w h f)
    (hw : w ≤ 2 ^ 53) (hh : h ≤ 2 ^ 53) (x y : Dbl) (hx : x ≠ .nan) (hy : y ≠ .nan) :
    (∃ a, Sp.bilinear .dbl (.num 0) im x y = .ok a) ∧ ∃ a, Sp.bicubic .dbl (.num 0) im x y = .ok a :=
  ⟨bilinear_ok Elem.dbl_sound _ s hw hh hx hy, bicubic_ok Elem.dbl_sound _ s hw hh hx hy⟩

example : ∃ a, Sp.bicubic .dbl (.num 0) (Image.ofSizes Dbl.nan [3, 3]) (.num 0.25) .pinf = .ok a :=
  (C158_double_partial (ofSizes_shows Dbl.nan (w := 3) (h := 3) (by decide) (by decide) (by decide)) (by norm_num)
    (by norm_num) (.num 0.25) .pinf (fun h => nomatch h) (fun h => nomatch h)).2

/-- At every position that is a number, the model with special values agrees with the one that only rounds
(`Rnd.bilinearD`, C153): nothing overflows. -/
theorem C158_finite (im : Image (BitVec 8)) (w h : Nat) (f : Nat → Nat → BitVec 8) (s : im.Shows w h f)
    (hw : w ≤ 2 ^ 53) (hh : h ≤ 2 ^ 53) (x y : ℝ) :
    Sp.bilinear .u8 0 im (.num x) (.num y) = Rnd.bilinearD im x y := by
  have cond : ((Dbl.num x).lt (.num 0) ∨ ((Dbl.ofNat im.width).sub (.num 1)).lt (.num x) ∨
      (Dbl.num y).lt (.num 0) ∨ ((Dbl.ofNat im.height).sub (.num 1)).lt (.num y)) ↔
      (x < 0 ∨ x > (w : ℝ) - 1 ∨ y < 0 ∨ y > (h : ℝ) - 1) := by
    rw [s.width, s.height, ofNat_sub_one hw, ofNat_sub_one hh]
    rfl
  have d1 : ∀ {n : Nat}, n ≤ 2 ^ 53 → dbl (dbl n - 1) = (n : ℝ) - 1 := by
    intro n hn
    have h1 := is_sub (is_ofNat hn) (is_num (x := 1) (k := 53) (by rw [abs_one]; norm_num)) (by norm_num)
    have h2 := ofNat_sub_one hn
    rw [h1.1] at h2
    injection h2 with h2
    rw [dbl_nat hn, h2]
  unfold Sp.bilinear Rnd.bilinearD
  simp only [s.width, s.height]
  rw [d1 hw, d1 hh]
  by_cases ho : x < 0 ∨ x > (w : ℝ) - 1 ∨ y < 0 ∨ y > (h : ℝ) - 1
  · rw [if_pos (cond.2 ho), if_pos ho]
  rw [if_neg (fun h => ho (cond.1 h)), if_neg ho]
  push Not at ho
  obtain ⟨hx0, hx1, hy0, hy1⟩ := ho
  obtain ⟨ix, lx, bx⟩ := inside_index hw hx0 hx1
  obtain ⟨iy, ly, by'⟩ := inside_index hh hy0 hy1
  have ix' : toSize x = .ok ⌊x⌋₊ := ix
  have iy' : toSize y = .ok ⌊y⌋₊ := iy
  have lx2 : min (⌊x⌋₊ + 1) (w - 1) < w := by omega
  have ly2 : min (⌊y⌋₊ + 1) (h - 1) < h := by omega
  rw [ix, iy, ix', iy', Res.ok_bind, Res.ok_bind, Res.ok_bind, Res.ok_bind, clampNext lx s.w_lt, clampNext ly s.h_lt]
  simp only [s.px _ _ lx ly, s.px _ _ lx2 ly, s.px _ _ lx ly2, s.px _ _ lx2 ly2, Res.ok_bind]
  have bx' : Is 53 (.num x) x := by
    obtain ⟨r, e, hr⟩ := bx
    injection e with e
    exact ⟨rfl, e ▸ hr⟩
  have by'' : Is 53 (.num y) y := by
    obtain ⟨r, e, hr⟩ := by'
    injection e with e
    exact ⟨rfl, e ▸ hr⟩
  have one : Is 55 (.num 1) 1 := is_num (by rw [abs_one]; norm_num)
  have dx := is_sub bx' (is_ofNat (n := ⌊x⌋₊) (by omega)) (by norm_num)
  have dy := is_sub by'' (is_ofNat (n := ⌊y⌋₊) (by omega)) (by norm_num)
  rw [← dbl_nat (n := ⌊x⌋₊) (by omega)] at dx
  rw [← dbl_nat (n := ⌊y⌋₊) (by omega)] at dy
  have ex := is_sub one dx (by norm_num)
  have ey := is_sub one dy (by norm_num)
  have byte : ∀ b : BitVec 8, Is 8 (Sp.Elem.u8.toD b) (b.toNat : ℝ) := by
    intro b
    refine is_num ?_
    rw [abs_of_nonneg (by positivity)]
    have : b.toNat ≤ 2 ^ 8 := b.isLt.le
    exact_mod_cast this
  have row := fun a b : BitVec 8 => is_add (is_mul (byte a) ex (by norm_num))
    ((is_mul (byte b) dx (by norm_num)).mono (by norm_num)) (by norm_num)
  have all := fun a b c d : BitVec 8 => is_add (is_mul (row a b) ey (by norm_num))
    ((is_mul (row c d) dy (by norm_num)).mono (by norm_num)) (by norm_num)
  rw [(all _ _ _ _).1]
  unfold mixD
  exact u8_fromD _

example := C158_finite _ 3 2 _ (picture_shows 3 2 (fun x y => BitVec.ofNat 8 (40 * x + 7 * y))) (by norm_num) (by norm_num)
  (3 / 4) (-1 / 4)

/-- Positions outside of the picture, infinite ones included, give zero; the other coordinate may even be NaN. -/
theorem C158_outside (ev : Sp.Elem α) (zero : α) {im : Image α} {w h : Nat} {f : Nat → Nat → α} (s : im.Shows w h f)
    (hw : w ≤ 2 ^ 53) (hh : h ≤ 2 ^ 53) (x y : Dbl)
    (ho : x = .pinf ∨ x = .ninf ∨ (∃ r, x = .num r ∧ (r < 0 ∨ (w : ℝ) - 1 < r)) ∨
      y = .pinf ∨ y = .ninf ∨ ∃ r, y = .num r ∧ (r < 0 ∨ (h : ℝ) - 1 < r)) :
    Sp.bilinear ev zero im x y = .ok zero ∧ Sp.bicubic ev zero im x y = .ok zero := by
  have key : x.lt (.num 0) ∨ ((Dbl.ofNat w).sub (.num 1)).lt x ∨ y.lt (.num 0) ∨ ((Dbl.ofNat h).sub (.num 1)).lt y := by
    rw [ofNat_sub_one hw, ofNat_sub_one hh]
    rcases ho with rfl | rfl | ⟨r, rfl, h1 | h1⟩ | rfl | rfl | ⟨r, rfl, h1 | h1⟩
    · exact .inr (.inl trivial)
    · exact .inl trivial
    · exact .inl h1
    · exact .inr (.inl h1)
    · exact .inr (.inr (.inr trivial))
    · exact .inr (.inr (.inl trivial))
    · exact .inr (.inr (.inl h1))
    · exact .inr (.inr (.inr h1))
  exact ⟨bilinear_outside ev zero s key, bicubic_outside ev zero s hw hh key⟩

example : Sp.bicubic .u8 0 dots (.num 4.5) .nan = .ok 0 :=
  (C158_outside .u8 0 dots_shows (by norm_num) (by norm_num) _ _
    (.inr (.inr (.inl ⟨4.5, rfl, .inr (by norm_num)⟩)))).2

/-- A position with a NaN coordinate that is not outside in the other one is converted to an index: undefined
behaviour, for every picture. -/
theorem C158_nan_violation (ev : Sp.Elem α) (zero : α) {im : Image α} {w h : Nat} {f : Nat → Nat → α}
    (s : im.Shows w h f) (hw : w ≤ 2 ^ 53) (hh : h ≤ 2 ^ 53) (x y : Dbl) (hx : NotOutside w x) (hy : NotOutside h y)
    (hn : x = .nan ∨ y = .nan) : Sp.bilinear ev zero im x y = .ub ∧ Sp.bicubic ev zero im x y = .ub :=
  ⟨bilinear_nan ev zero s hw hh hx hy hn, bicubic_nan ev zero s hw hh hx hy hn⟩

example : Sp.bicubic .u8 0 dots .nan (.num 1) = .ub :=
  (C158_nan_violation .u8 0 dots_shows (by norm_num) (by norm_num) _ _ (.inl rfl)
    (.inr ⟨1, rfl, by norm_num, by norm_num⟩) (.inl rfl)).2

/-! ## C159 -/

theorem fullTurn_num {p : Nat} {trig : Trig} (ht : GoodTrig trig) (θ : ℝ) :
    ∃ r, fullTurn p (trig.fmod (.num θ)) = .num r := by
  obtain ⟨r, er, hr⟩ := ht.fmod_num θ
  rw [er]
  unfold fullTurn
  simp only
  split
  · have h1 : |fl p Real.pi| ≤ 8 := by
      have := fl_abs p Real.pi
      rw [abs_of_pos Real.pi_pos] at this
      linarith [Real.pi_lt_four]
    have h2 : |fl p (2 * fl p Real.pi)| ≤ 32 := by
      have := fl_abs p (2 * fl p Real.pi)
      rw [abs_mul, abs_of_pos (show (0 : ℝ) < 2 by norm_num)] at this
      linarith
    have h3 : |r + fl p (2 * fl p Real.pi)| ≤ 39 := by
      have := abs_add_le r (fl p (2 * fl p Real.pi))
      linarith
    have h4 : |fl p (r + fl p (2 * fl p Real.pi))| ≤ 2 ^ 7 := by
      have := fl_abs p (r + fl p (2 * fl p Real.pi))
      norm_num; linarith
    exact ⟨_, (rnd_within h4 (by norm_num)).1⟩
  · exact ⟨r, rfl⟩

/-- Turning by an angle that is neither a full nor a quarter turn. -/
theorem rotate_sampled {p : Nat} {trig : Trig} (ht : GoodTrig trig) {zero : α} {interp : Image α → Dbl → Dbl → Res α}
    {im : Image α} {w h : Nat} {f : Nat → Nat → α} (s : im.Shows w h f) (hwh : w + h < 2 ^ 32)
    (hi : ∀ x y : ℝ, ∃ a, interp im (.num x) (.num y) = .ok a) (θ : ℝ)
    (h0 : ¬ (fullTurn p (trig.fmod (.num θ))).eq (.num 0))
    (hq : ¬ (fullTurn p (trig.fmod (.num θ))).eq (.num (fl p (fl p Real.pi / 2)))) {c t : ℝ}
    (ec : trig.cosine (fullTurn p (trig.fmod (.num θ))) = .num c)
    (et : trig.sine (fullTurn p (trig.fmod (.num θ))) = .num t) :
    ∃ out nw nh g, Sp.rotate p trig zero interp im (.num θ) = .ok out ∧ out.Shows nw nh g ∧
        nw ≤ w + h ∧ nh ≤ w + h ∧ Turned (interp im) w h c t nw nh g := by
  obtain ⟨r', er'⟩ := fullTurn_num (p := p) ht θ
  have hc : |c| ≤ 1 := by
    obtain ⟨c', e, hc⟩ := ht.cos_num r'
    rw [er', e] at ec
    injection ec with ec
    exact ec ▸ hc
  have htt : |t| ≤ 1 := by
    obtain ⟨c', e, hc⟩ := ht.sin_num r'
    rw [er', e] at et
    injection et with et
    exact et ▸ hc
  unfold Sp.rotate
  rw [if_neg (by simp [s.dim])]
  simp only
  rw [if_neg h0, if_neg hq]
  obtain ⟨nh, eh, bh, -⟩ := side_ok (a := h) (b := w) (by omega) hc htt
  obtain ⟨nw, ew, bw, -⟩ := side_ok (a := w) (b := h) (by omega) hc htt
  rw [s.width, s.height, ec, et, eh, Res.ok_bind, ew, Res.ok_bind]
  have step : ∀ x y : Nat, ∃ px py : ℝ, ∃ a, (x < nw ∧ y < nh →
      (((((Dbl.ofNat x).sub (centre (Dbl.ofNat nw))).mul (.num c)).add
        (((Dbl.ofNat y).sub (centre (Dbl.ofNat nh))).mul (.num t))).add (centre (Dbl.ofNat w)) = .num px ∧
      ((((Dbl.ofNat x).sub (centre (Dbl.ofNat nw))).neg.mul (.num t)).add
        (((Dbl.ofNat y).sub (centre (Dbl.ofNat nh))).mul (.num c))).add (centre (Dbl.ofNat h)) = .num py) ∧
      |px - (((x : ℝ) - ((nw : ℝ) - 1) / 2) * c + ((y : ℝ) - ((nh : ℝ) - 1) / 2) * t + ((w : ℝ) - 1) / 2)|
            ≤ (w + h) / 2 ^ 50 ∧
      |py - (-((x : ℝ) - ((nw : ℝ) - 1) / 2) * t + ((y : ℝ) - ((nh : ℝ) - 1) / 2) * c + ((h : ℝ) - 1) / 2)|
            ≤ (w + h) / 2 ^ 50) ∧
      interp im (.num px) (.num py) = .ok a := by
    intro x y
    by_cases hxy : x < nw ∧ y < nh
    · obtain ⟨ex, bx⟩ := offset_eq (n := nw) (by omega) hxy.1
      obtain ⟨ey, by'⟩ := offset_eq (n := nh) (by omega) hxy.2
      have nwr : (nw : ℝ) ≤ (w : ℝ) + h := by exact_mod_cast bw
      have nhr : (nh : ℝ) ≤ (w : ℝ) + h := by have : nh ≤ w + h := by omega
                                              exact_mod_cast this
      have hw0 : (0 : ℝ) ≤ w := by positivity
      have hh0 : (0 : ℝ) ≤ h := by positivity
      have c0 : ∀ n : Nat, n ≤ w + h → 0 < w + h → |((n : ℝ) - 1) / 2| ≤ ((w + h : Nat) : ℝ) := by
        intro n hn hp
        have h1 : (n : ℝ) ≤ w + h := by exact_mod_cast hn
        have h2 : (0 : ℝ) ≤ n := by positivity
        have h3 : (1 : ℝ) ≤ w + h := by exact_mod_cast hp
        push_cast
        rw [abs_le]; constructor <;> linarith
      have hp : 0 < w + h := by omega
      have hx' : |(x : ℝ) - ((nw : ℝ) - 1) / 2| ≤ ((w + h : Nat) : ℝ) := by push_cast; linarith
      have hy' : |(y : ℝ) - ((nh : ℝ) - 1) / 2| ≤ ((w + h : Nat) : ℝ) := by push_cast; linarith
      obtain ⟨px, e1, b1⟩ := position_eq (M := w + h) (by omega) hx' hy' (c0 w (by omega) hp) hc htt
      obtain ⟨py, e2, b2⟩ := position_eq (M := w + h) (by omega) (a := -((x : ℝ) - ((nw : ℝ) - 1) / 2))
        (by rw [abs_neg]; exact hx') hy' (c0 h (by omega) hp) htt hc
      obtain ⟨a, ea⟩ := hi px py
      refine ⟨px, py, a, fun _ => ⟨⟨?_, ?_⟩, ?_, ?_⟩, ea⟩
      · rw [ex, ey, centre_eq (by omega)]; exact e1
      · rw [ex, ey, centre_eq (by omega)]; exact e2
      · push_cast at b1; exact b1
      · push_cast at b2; exact b2
    · obtain ⟨a, ea⟩ := hi 0 0
      exact ⟨0, 0, a, fun h => absurd h hxy, ea⟩
  choose px py g hpos hg using step
  have s0 := ofSizes_shows zero (w := nw) (h := nh) (by omega) (by omega)
    (lt_of_le_of_lt (Nat.mul_le_mul (show nw ≤ 2 ^ 32 - 1 by omega) (show nh ≤ 2 ^ 32 - 1 by omega)) (by norm_num))
  obtain ⟨out, eo, so⟩ := pixFor_fill (iterYX nw nh) (fun x _ => x) (fun _ y => y) g
    (fun out x y => do
        let v ← interp im (((((Dbl.ofNat x).sub (centre (Dbl.ofNat nw))).mul (.num c)).add
          (((Dbl.ofNat y).sub (centre (Dbl.ofNat nh))).mul (.num t))).add (centre (Dbl.ofNat w)))
          (((((Dbl.ofNat x).sub (centre (Dbl.ofNat nw))).neg.mul (.num t)).add
          (((Dbl.ofNat y).sub (centre (Dbl.ofNat nh))).mul (.num c))).add (centre (Dbl.ofNat h)))
        out.set2 x y v) s0 (by
      intro x y hp o g' sg
      obtain ⟨hx, hy⟩ := mem_iterYX.1 hp
      obtain ⟨⟨e1, e2⟩, -⟩ := hpos x y ⟨hx, hy⟩
      obtain ⟨o', e', so'⟩ := sg.set2 hx hy (g x y)
      refine ⟨o', ?_, so'⟩
      rw [e1, e2, hg x y, Res.ok_bind, e']) (by
      intro a b ha hb
      exact ⟨a, b, mem_iterYX.2 ⟨ha, hb⟩, rfl, rfl⟩)
  refine ⟨out, nw, nh, g, eo, so, by omega, by omega, fun x y hx hy => ?_⟩
  obtain ⟨-, b1, b2⟩ := hpos x y ⟨hx, hy⟩
  exact ⟨px x y, py x y, hg x y, b1, b2⟩

/-- Turning by any number of radians. -/
theorem rotate_num {p : Nat} {trig : Trig} (ht : GoodTrig trig) {zero : α} {interp : Image α → Dbl → Dbl → Res α}
    {im : Image α} {w h : Nat} {f : Nat → Nat → α} (s : im.Shows w h f) (hwh : w + h < 2 ^ 32)
    (hi : ∀ x y : ℝ, ∃ a, interp im (.num x) (.num y) = .ok a) (θ : ℝ) :
    ∃ out nw nh g, Sp.rotate p trig zero interp im (.num θ) = .ok out ∧ out.Shows nw nh g ∧
      nw ≤ w + h ∧ nh ≤ w + h ∧
      (nw = w ∧ nh = h ∧ g = f ∨ nw = h ∧ nh = w ∧ (g = fun X Y => f Y (h - 1 - X)) ∨
        ∃ c t, |c| ≤ 1 ∧ |t| ≤ 1 ∧ Turned (interp im) w h c t nw nh g) := by
  obtain ⟨r, er⟩ := fullTurn_num (p := p) ht θ
  by_cases h0 : (fullTurn p (trig.fmod (.num θ))).eq (.num 0)
  · refine ⟨im, w, h, f, ?_, s, by omega, by omega, .inl ⟨rfl, rfl, rfl⟩⟩
    unfold Sp.rotate
    rw [if_neg (by simp [s.dim])]
    simp only
    rw [if_pos h0]
  by_cases hq : (fullTurn p (trig.fmod (.num θ))).eq (.num (fl p (fl p Real.pi / 2)))
  · obtain ⟨out, e, so⟩ := quarterTurnBranch_shows zero s
    refine ⟨out, h, w, _, ?_, so, by omega, by omega, .inr (.inl ⟨rfl, rfl, rfl⟩)⟩
    unfold Sp.rotate
    rw [if_neg (by simp [s.dim])]
    simp only
    rw [if_neg h0, if_pos hq, e]
  obtain ⟨c, ec, hc⟩ := ht.cos_num r
  obtain ⟨t, et, htt⟩ := ht.sin_num r
  obtain ⟨out, nw, nh, g, e, so, bw, bh, tu⟩ := rotate_sampled ht (zero := zero) s hwh hi θ h0 hq
    (by rw [er]; exact ec) (by rw [er]; exact et)
  exact ⟨out, nw, nh, g, e, so, bw, bh, .inr (.inr ⟨c, t, hc, htt, tu⟩)⟩

/-- An 8-bit picture can be turned by every number of radians, whatever the accuracy of the library functions: it is
returned unchanged, turned by a quarter, or sampled at the positions turned back. Missing: infinite angles and NaN,
see `C159_nan_violation`. -/
theorem C159_byte_partial (p : Nat) (trig : Trig) (ht : GoodTrig trig) (im : Image (BitVec 8)) (w h : Nat)
    (f : Nat → Nat → BitVec 8) (s : im.Shows w h f) (hwh : w + h < 2 ^ 32) (θ : ℝ) :
    ∃ out nw nh g, Sp.rotate p trig 0 (Sp.bicubic .u8 0) im (.num θ) = .ok out ∧ out.Shows nw nh g ∧
      nw ≤ w + h ∧ nh ≤ w + h ∧
      (nw = w ∧ nh = h ∧ g = f ∨ nw = h ∧ nh = w ∧ (g = fun X Y => f Y (h - 1 - X)) ∨
        ∃ c t, |c| ≤ 1 ∧ |t| ≤ 1 ∧ Turned (Sp.bicubic .u8 0 im) w h c t nw nh g) := by
  have hw : w ≤ 2 ^ 53 := by omega
  have hh : h ≤ 2 ^ 53 := by omega
  exact rotate_num ht s hwh
    (fun x y => bicubic_ok Elem.u8_sound 0 s hw hh (fun h => nomatch h) (fun h => nomatch h)) θ

/-- The same for pictures of `double`, whatever values they hold. Missing: infinite angles and NaN, see
`C159_nan_violation`. -/
theorem C159_double_partial (p : Nat) (trig : Trig) (ht : GoodTrig trig) (im : Image Dbl) (w h : Nat)
    (f : Nat → Nat → Dbl) (s : im.Shows w h f) (hwh : w + h < 2 ^ 32) (θ : ℝ) :
    ∃ out nw nh g, Sp.rotate p trig (.num 0) (Sp.bicubic .dbl (.num 0)) im (.num θ) = .ok out ∧ out.Shows nw nh g ∧
      nw ≤ w + h ∧ nh ≤ w + h ∧
      (nw = w ∧ nh = h ∧ g = f ∨ nw = h ∧ nh = w ∧ (g = fun X Y => f Y (h - 1 - X)) ∨
        ∃ c t, |c| ≤ 1 ∧ |t| ≤ 1 ∧ Turned (Sp.bicubic .dbl (.num 0) im) w h c t nw nh g) := by
  have hw : w ≤ 2 ^ 53 := by omega
  have hh : h ≤ 2 ^ 53 := by omega
  exact rotate_num ht s hwh
    (fun x y => bicubic_ok Elem.dbl_sound _ s hw hh (fun h => nomatch h) (fun h => nomatch h)) θ

/-- Library functions as good as they can be: the remainder that `std::fmod` leaves for an angle smaller than a full
turn is the angle, its cosine and sine are rounded once. -/
noncomputable def exactTrig : Trig where
  fmod v := match v with | .num x => if |x| < 6 then .num x else .num 0 | _ => .nan
  cosine v := match v with | .num x => .num (dbl (Real.cos x)) | _ => .nan
  sine v := match v with | .num x => .num (dbl (Real.sin x)) | _ => .nan

theorem dbl_abs_one {x : ℝ} (h : |x| ≤ 1) : |dbl x| ≤ 1 := by
  have := dbl_abs_le_nat (n := 1) (by norm_num) (z := x) (by simpa using h)
  simpa using this

theorem exactTrig_good : GoodTrig exactTrig where
  fmod_num x := by
    by_cases h : |x| < 6
    · exact ⟨x, if_pos h, by linarith⟩
    · exact ⟨0, if_neg h, by norm_num⟩
  fmod_pinf := rfl
  fmod_ninf := rfl
  fmod_nan := rfl
  cos_num x := ⟨_, rfl, dbl_abs_one (Real.abs_cos_le_one x)⟩
  sin_num x := ⟨_, rfl, dbl_abs_one (Real.abs_sin_le_one x)⟩
  cos_nan := rfl
  sin_nan := rfl

/-- The 5 × 4 picture, turned by one radian. -/
example : ∃ out nw nh g, Sp.rotate 64 exactTrig 0 (Sp.bicubic .u8 0) dots (.num 1) = .ok out ∧ out.Shows nw nh g ∧
    nw ≤ 9 ∧ nh ≤ 9 := by
  obtain ⟨out, nw, nh, g, e, so, bw, bh, -⟩ := C159_byte_partial 64 exactTrig exactTrig_good dots 5 4 _ dots_shows
    (by norm_num) 1
  exact ⟨out, nw, nh, g, e, so, bw, bh⟩

/-- A picture of NaN, turned by one radian. -/
example : ∃ out, Sp.rotate 64 exactTrig (.num 0) (Sp.bicubic .dbl (.num 0)) (Image.ofSizes Dbl.nan [3, 3]) (.num 1) =
    .ok out := by
  obtain ⟨out, nw, nh, g, e, -⟩ := C159_double_partial 64 exactTrig exactTrig_good _ 3 3 _
    (ofSizes_shows Dbl.nan (w := 3) (h := 3) (by decide) (by decide) (by decide)) (by norm_num) 1
  exact ⟨out, e⟩

/-- With library functions that are right to `2 ^ -50`, an angle that is its own remainder and neither zero nor a
quarter turn is used as it is: each pixel of the result is sampled at the point turned back by the true cosine
and sine, up to a `2 ^ -48` part of the size. -/
theorem C159_accuracy (p : Nat) (trig : Trig) (ht : GoodTrig trig) (θ : ℝ) (h0 : 0 < θ)
    (hq : θ ≠ fl p (fl p Real.pi / 2)) (hm : trig.fmod (.num θ) = .num θ)
    (hcos : ∀ c, trig.cosine (.num θ) = .num c → |c - Real.cos θ| ≤ 1 / 2 ^ 50)
    (hsin : ∀ c, trig.sine (.num θ) = .num c → |c - Real.sin θ| ≤ 1 / 2 ^ 50)
    (im : Image (BitVec 8)) (w h : Nat) (f : Nat → Nat → BitVec 8) (s : im.Shows w h f) (hwh : w + h < 2 ^ 32) :
    ∃ out nw nh g, Sp.rotate p trig 0 (Sp.bicubic .u8 0) im (.num θ) = .ok out ∧ out.Shows nw nh g ∧
      ∀ x y : Nat, x < nw → y < nh → ∃ px py : ℝ, Sp.bicubic .u8 0 im (.num px) (.num py) = .ok (g x y) ∧
        |px - (((x : ℝ) - ((nw : ℝ) - 1) / 2) * Real.cos θ + ((y : ℝ) - ((nh : ℝ) - 1) / 2) * Real.sin θ +
          ((w : ℝ) - 1) / 2)| ≤ (w + h) / 2 ^ 48 ∧
        |py - (-((x : ℝ) - ((nw : ℝ) - 1) / 2) * Real.sin θ + ((y : ℝ) - ((nh : ℝ) - 1) / 2) * Real.cos θ +
          ((h : ℝ) - 1) / 2)| ≤ (w + h) / 2 ^ 48 := by
  have hw : w ≤ 2 ^ 53 := by omega
  have hh : h ≤ 2 ^ 53 := by omega
  have hturn : fullTurn p (trig.fmod (.num θ)) = .num θ := by
    rw [hm]; unfold fullTurn; simp only; rw [if_neg (by linarith)]
  have hne : ∀ r : ℝ, r ≠ θ → ¬ (Dbl.num θ).eq (.num r) := fun r hr h => hr (show θ = r from h).symm
  have hbranch : ¬ (Dbl.num θ).eq (.num 0) ∧ ¬ (Dbl.num θ).eq (.num (fl p (fl p Real.pi / 2))) :=
    ⟨hne 0 (by linarith), hne _ (Ne.symm hq)⟩
  obtain ⟨c, ec, hc⟩ := ht.cos_num θ
  obtain ⟨t, et, htt⟩ := ht.sin_num θ
  have hcc := hcos c ec
  have hss := hsin t et
  obtain ⟨out, nw, nh, g, e, so, bw, bh, tu⟩ := rotate_sampled (p := p) ht (zero := 0) (interp := Sp.bicubic .u8 0)
    s hwh (fun x y => bicubic_ok Elem.u8_sound 0 s hw hh (fun h => nomatch h) (fun h => nomatch h)) θ
    (by rw [hturn]; exact hbranch.1) (by rw [hturn]; exact hbranch.2) (by rw [hturn]; exact ec)
    (by rw [hturn]; exact et)
  refine ⟨out, nw, nh, g, e, so, fun x y hx hy => ?_⟩
  obtain ⟨px, py, ev, b1, b2⟩ := tu x y hx hy
  have hx' : |(x : ℝ) - ((nw : ℝ) - 1) / 2| ≤ (w : ℝ) + h := by
    have h1 := (offset_eq (n := nw) (by omega) hx).2
    have h2 : (nw : ℝ) ≤ (w : ℝ) + h := by exact_mod_cast bw
    have h3 : (0 : ℝ) ≤ nw := by positivity
    linarith
  have hy' : |(y : ℝ) - ((nh : ℝ) - 1) / 2| ≤ (w : ℝ) + h := by
    have h1 := (offset_eq (n := nh) (by omega) hy).2
    have h2 : (nh : ℝ) ≤ (w : ℝ) + h := by exact_mod_cast bh
    have h3 : (0 : ℝ) ≤ nh := by positivity
    linarith
  have prod : ∀ {u v M d : ℝ}, |u| ≤ M → |v| ≤ d → |u * v| ≤ M * d := by
    intro u v M d h1 h2
    rw [abs_mul]
    exact mul_le_mul h1 h2 (abs_nonneg _) ((abs_nonneg _).trans h1)
  refine ⟨px, py, ev, ?_, ?_⟩
  · have p1 := prod hx' hcc
    have p2 := prod hy' hss
    rw [abs_le] at b1 p1 p2 ⊢
    constructor <;> linarith [b1.1, b1.2, p1.1, p1.2, p2.1, p2.2]
  · have p1 := prod hx' hss
    have p2 := prod hy' hcc
    rw [abs_le] at b2 p1 p2 ⊢
    constructor <;> linarith [b2.1, b2.2, p1.1, p1.2, p2.1, p2.2]

/-- The functions `exactTrig` and the angle of a quarter radian meet the hypotheses. -/
example : 0 < (0.25 : ℝ) ∧ (0.25 : ℝ) ≠ fl 64 (fl 64 Real.pi / 2) ∧ exactTrig.fmod (.num 0.25) = .num 0.25 ∧
    (∀ c, exactTrig.cosine (.num 0.25) = .num c → |c - Real.cos 0.25| ≤ 1 / 2 ^ 50) ∧
    (∀ c, exactTrig.sine (.num 0.25) = .num c → |c - Real.sin 0.25| ≤ 1 / 2 ^ 50) := by
  have near : ∀ x : ℝ, |x| ≤ 1 → |dbl x - x| ≤ 1 / 2 ^ 50 := by
    intro x hx
    have h1 := dbl_err x
    have h2 : eps * |x| ≤ eps * 1 := mul_le_mul_of_nonneg_left hx (by unfold eps; positivity)
    have h3 : eps * 1 ≤ 1 / 2 ^ 50 := by unfold eps; norm_num
    linarith
  refine ⟨by norm_num, ?_, if_pos (by rw [abs_of_nonneg] <;> norm_num), ?_, ?_⟩
  · have h1 : (1 : ℝ) ≤ fl 64 Real.pi := by
      have e : (2 : ℝ) ^ (-((64 : Nat) : ℤ)) ≤ 1 / 4 := by norm_num [zpow_neg]
      have := (fl_err (p := 64) Real.pi).trans (mul_le_mul_of_nonneg_right e (abs_nonneg _))
      rw [abs_le, abs_of_pos Real.pi_pos] at this
      linarith [this.1, Real.pi_gt_three]
    have e : (2 : ℝ) ^ (-((64 : Nat) : ℤ)) ≤ 1 / 4 := by norm_num [zpow_neg]
    have := (fl_err (p := 64) (fl 64 Real.pi / 2)).trans (mul_le_mul_of_nonneg_right e (abs_nonneg _))
    rw [abs_le, abs_of_pos (show 0 < fl 64 Real.pi / 2 by linarith)] at this
    intro he
    linarith [this.1]
  · intro c hc
    injection hc with hc
    subst hc
    exact near _ (Real.abs_cos_le_one _)
  · intro c hc
    injection hc with hc
    subst hc
    exact near _ (Real.abs_sin_le_one _)

/-- Turning by NaN or an infinity is undefined behaviour, for every two-dimensional picture. -/
theorem C159_nan_violation (p : Nat) (trig : Trig) (ht : GoodTrig trig) (zero : α)
    (interp : Image α → Dbl → Dbl → Res α) (im : Image α) (w h : Nat) (f : Nat → Nat → α) (s : im.Shows w h f)
    (hwh : w + h < 2 ^ 32) (θ : Dbl) (hθ : θ = .nan ∨ θ = .pinf ∨ θ = .ninf) :
    Sp.rotate p trig zero interp im θ = .ub := by
  have e : fullTurn p (trig.fmod θ) = .nan := by
    rcases hθ with rfl | rfl | rfl
    · rw [ht.fmod_nan]; rfl
    · rw [ht.fmod_pinf]; rfl
    · rw [ht.fmod_ninf]; rfl
  unfold Sp.rotate
  rw [if_neg (by simp [s.dim])]
  simp only
  rw [e, if_neg (show ¬ Dbl.nan.eq (.num 0) from fun h => h),
    if_neg (show ¬ Dbl.nan.eq (.num (fl p (fl p Real.pi / 2))) from fun h => h), ht.cos_nan, ht.sin_nan, s.width, s.height,
    ofNat_eq (show h ≤ 2 ^ 53 by omega)]
  rfl

example : Sp.rotate 64 exactTrig 0 (Sp.bicubic .u8 0) dots .ninf = .ub :=
  C159_nan_violation 64 exactTrig exactTrig_good 0 _ dots 5 4 _ dots_shows (by norm_num) _ (.inr (.inr rfl))

theorem fromChars_numeral {finite : Cli.Str → Option ℝ} {s : Cli.Str} {θ : ℝ} (hs : Numeral s) (e : finite s = some θ) :
    fromChars finite s = some (.num θ) := by
  have hl : ∀ c ∈ "0123456789.".toList, lower c = c ∧ c ≠ 'n' ∧ c ≠ 'i' ∧ c ≠ '-' := by decide +kernel
  obtain ⟨c, rest, hs | hs, hc⟩ := hs
  · obtain ⟨h1, h2, h3, h4⟩ := hl c hc
    unfold fromChars
    rw [e, hs]
    simp [h1, h2, h3, h4]
  · obtain ⟨h1, h2, h3, h4⟩ := hl c hc
    have hm : lower '-' = '-' := by decide +kernel
    unfold fromChars
    rw [e, hs]
    simp [h1, h2, h3, hm]

/-- `rotate $v $d angle` with an angle written as a number stores a turned picture, whatever the accuracy of the
library functions. Missing: the words `nan`, `inf` and `infinity`, see `C159_command_violation`. -/
theorem C159_command_partial (io : Cli.FileIO Cli.PayR F) (p : Nat) (trig : Trig) (ht : GoodTrig trig)
    (finite : Cli.Str → Option ℝ) (ext : Cli.Val Cli.PayR → Cli.Act (Cli.Val Cli.PayR)) (a s : Cli.Str) (θ : ℝ)
    (ha : Cli.Means a s) (hs : Numeral s) (hθ : finite s = some θ) (more : List Cli.Str)
    (im : Image (BitVec 8)) (w h : Nat) (hw : 0 < w) (hh : 0 < h) (f : Nat → Nat → BitVec 8) (si : im.Shows w h f)
    (hwh : w + h < 2 ^ 32) :
    ∃ out nw nh g, Cli.Gives (Sp.rotateCmd io p trig finite ext) (a :: more) (.atom Cli.tyByte (.bytes im))
        (.atom Cli.tyByte (.bytes out)) ∧ out.Shows nw nh g ∧ nw ≤ w + h ∧ nh ≤ w + h ∧
      (nw = w ∧ nh = h ∧ g = f ∨ nw = h ∧ nh = w ∧ (g = fun X Y => f Y (h - 1 - X)) ∨
        ∃ c t, |c| ≤ 1 ∧ |t| ≤ 1 ∧ Turned (Sp.bicubic .u8 0 im) w h c t nw nh g) := by
  obtain ⟨out, nw, nh, g, e, r⟩ := C159_byte_partial p trig ht im w h f si hwh θ
  refine ⟨out, nw, nh, g, gives_of (by simp) (fun a b policy => ?_) rfl rfl, r⟩
  dsimp only
  rw [Cli.means_iff.1 ha, fromChars_numeral hs hθ]
  refine ⟨_, rfl, ?_⟩
  rw [dispatchPolicy_same]
  show (if Cli.planar im then _ else _) = _
  rw [if_pos (planar_of_shows si hw hh), e]
  rfl

example (io : Cli.FileIO Cli.PayR F) (ext) : ∃ out, Cli.Gives
    (Sp.rotateCmd io 64 exactTrig (fun s => if s = "1.5".toList then some 1.5 else none) ext) ["1.5".toList]
    (.atom Cli.tyByte (.bytes dots)) (.atom Cli.tyByte (.bytes out)) := by
  obtain ⟨out, -, -, -, h, -⟩ := C159_command_partial io 64 exactTrig exactTrig_good
    (fun s => if s = "1.5".toList then some 1.5 else none) ext "1.5".toList "1.5".toList 1.5
    (Cli.means_iff.2 (by decide +kernel)) ⟨'1', ".5".toList, .inl (by decide +kernel), by decide +kernel⟩ (if_pos rfl) []
    dots 5 4 (by norm_num) (by norm_num) _ dots_shows (by norm_num)
  exact ⟨out, h⟩

/-- `rotate $v $d nan`, and likewise `inf`, `-inf`, `infinity` in any case, is undefined behaviour on every 8-bit
picture. -/
theorem C159_command_violation (io : Cli.FileIO Cli.PayR F) (p : Nat) (trig : Trig) (ht : GoodTrig trig)
    (finite : Cli.Str → Option ℝ) (ext : Cli.Val Cli.PayR → Cli.Act (Cli.Val Cli.PayR)) (wd : Cli.World Cli.PayR F)
    (args : List Cli.Str) (v o a s : Cli.Str) (more : List Cli.Str)
    (hargs : Cli.plainWords args = ('$' :: v) :: o :: a :: more)
    (ha : Cli.Means a s) (hs : s ∈ specialWords)
    (im : Image (BitVec 8)) (w h : Nat) (hw : 0 < w) (hh : 0 < h) (f : Nat → Nat → BitVec 8) (si : im.Shows w h f)
    (hwh : w + h < 2 ^ 32) (hv : wd.ws.retrieveAny v = some (.atom Cli.tyByte (.bytes im))) :
    Sp.rotateCmd io p trig finite ext wd args = .ub := by
  have key : ∃ θ, fromChars finite s = some θ ∧ (θ = .nan ∨ θ = .pinf ∨ θ = .ninf) := by
    simp only [specialWords, List.map_cons, List.map_nil, List.mem_cons, List.not_mem_nil, or_false] at hs
    have hn : ∀ q : Cli.Str, ((q.map lower).take 3 = "nan".toList ∨ (q.map lower).take 4 = "-nan".toList) →
        fromChars finite q = some .nan := fun q h => if_pos h
    have hp : ∀ q : Cli.Str, ¬ ((q.map lower).take 3 = "nan".toList ∨ (q.map lower).take 4 = "-nan".toList) →
        (q.map lower).take 3 = "inf".toList → fromChars finite q = some .pinf := fun q h1 h2 =>
      (if_neg h1).trans (if_pos h2)
    have hm : ∀ q : Cli.Str, ¬ ((q.map lower).take 3 = "nan".toList ∨ (q.map lower).take 4 = "-nan".toList) →
        ¬ (q.map lower).take 3 = "inf".toList → (q.map lower).take 4 = "-inf".toList →
        fromChars finite q = some .ninf := fun q h1 h2 h3 => (if_neg h1).trans ((if_neg h2).trans (if_pos h3))
    rcases hs with rfl | rfl | rfl | rfl | rfl | rfl | rfl | rfl | rfl | rfl | rfl
    · exact ⟨_, hn _ (by decide +kernel), .inl rfl⟩
    · exact ⟨_, hn _ (by decide +kernel), .inl rfl⟩
    · exact ⟨_, hn _ (by decide +kernel), .inl rfl⟩
    · exact ⟨_, hn _ (by decide +kernel), .inl rfl⟩
    · exact ⟨_, hp _ (by decide +kernel) (by decide +kernel), .inr (.inl rfl)⟩
    · exact ⟨_, hp _ (by decide +kernel) (by decide +kernel), .inr (.inl rfl)⟩
    · exact ⟨_, hp _ (by decide +kernel) (by decide +kernel), .inr (.inl rfl)⟩
    · exact ⟨_, hm _ (by decide +kernel) (by decide +kernel) (by decide +kernel), .inr (.inr rfl)⟩
    · exact ⟨_, hp _ (by decide +kernel) (by decide +kernel), .inr (.inl rfl)⟩
    · exact ⟨_, hp _ (by decide +kernel) (by decide +kernel), .inr (.inl rfl)⟩
    · exact ⟨_, hm _ (by decide +kernel) (by decide +kernel) (by decide +kernel), .inr (.inr rfl)⟩
  obtain ⟨θ, e, hθ⟩ := key
  rw [← Cli.argsFilter_eq] at hargs
  refine transformU_ub io 3 _ _ wd args v o (a :: more) _
    (fun v => Cli.dispatchPolicy (Cli.extractPolicy args) (fun _ => Sp.rotateVal p trig ext θ v)
      (Sp.rotateVal p trig ext θ v)) hargs (by simp) ?_ hv rfl ?_
  · rw [hargs]
    dsimp only
    rw [Cli.means_iff.1 ha, e]
  · rw [dispatchPolicy_same]
    show (if Cli.planar im then _ else _) = _
    rw [if_pos (planar_of_shows si hw hh), C159_nan_violation p trig ht 0 _ im w h f si hwh θ hθ]
    rfl

example (io : Cli.FileIO Cli.PayR Unit) (finite) (ext) : Sp.rotateCmd io 64 exactTrig finite ext
    ⟨⟨[(['v'], .atom Cli.tyByte (.bytes dots))]⟩, ()⟩ ["$v".toList, "$d".toList, "-inf".toList] = .ub :=
  C159_command_violation io 64 exactTrig exactTrig_good finite ext _ _ ['v'] "$d".toList "-inf".toList "-inf".toList []
    (by decide +kernel) (Cli.means_iff.2 (by decide +kernel)) (by decide +kernel) dots 5 4 (by norm_num) (by norm_num) _
    dots_shows (by norm_num) rfl

/-! ## C160 -/

theorem lin_is {a b c : ℝ} (ha : |a| ≤ 2 ^ 300) (hb : |b| ≤ 2 ^ 300) (hc : |c| ≤ 2 ^ 300) {x y : Nat}
    (hx : x ≤ 2 ^ 53) (hy : y ≤ 2 ^ 53) : Is 358 (lin (.num a) (.num b) (.num c) x y) (affine a b c x y) := by
  have h1 := is_mul (is_num ha) (is_ofNat hx) (by norm_num)
  have h2 := is_mul (is_num hb) (is_ofNat hy) (by norm_num)
  have h3 := is_add h1 h2 (by norm_num)
  exact is_add h3 ((is_num hc).mono (by norm_num)) (by norm_num)

/-- Entries of a magnitude up to `2 ^ 300` never overflow in a warp: every pixel of the result is zero when the
denominator is below `2 ^ -52`, and otherwise the sample at the quotients, whatever the order of the pixels. Missing:
larger entries and NaN, see `C160_overflow_violation` and `C160_nan_violation`. -/
theorem C160_warp_partial (src : Image (BitVec 8)) (w₀ h₀ : Nat) (f : Nat → Nat → BitVec 8) (s : src.Shows w₀ h₀ f)
    (hw₀ : w₀ ≤ 2 ^ 53) (hh₀ : h₀ ≤ 2 ^ 53) (a b c d e k l m n : ℝ)
    (hb : ∀ v ∈ [a, b, c, d, e, k, l, m, n], |v| ≤ 2 ^ 300) (w h : Nat) (hw : w ≤ 2 ^ 53) (hh : h ≤ 2 ^ 53)
    (hwh : w * h < 2 ^ 64) (order : List (Nat × Nat)) (ho : order.Perm (iterYX w h)) :
    ∃ out g, Sp.warp 0 (Sp.bicubic .u8 0 src)
        ⟨.num a, .num b, .num c, .num d, .num e, .num k, .num l, .num m, .num n⟩ w h order = .ok out ∧
      out.Shows w h g ∧ ∀ x y : Nat, x < w → y < h →
        (|affine l m n x y| < 1 / 2 ^ 52 → g x y = 0) ∧
        (1 / 2 ^ 52 ≤ |affine l m n x y| → Sp.bicubic .u8 0 src (.num (dbl (affine a b c x y / affine l m n x y)))
          (.num (dbl (affine d e k x y / affine l m n x y))) = .ok (g x y)) := by
  classical
  have hs := fun x y : ℝ => bicubic_ok Elem.u8_sound 0 s hw₀ hh₀ (x := .num x) (y := .num y) (fun h => nomatch h)
    (fun h => nomatch h)
  choose val hval using hs
  let g : Nat → Nat → BitVec 8 := fun x y => if |affine l m n x y| < 1 / 2 ^ 52 then 0 else
    val (dbl (affine a b c x y / affine l m n x y)) (dbl (affine d e k x y / affine l m n x y))
  have hcov := covers_perm ho
  have start := ofSizes_shows (0 : BitVec 8) (w := w) (h := h) (by omega) (by omega) (by omega)
  have L := fun {p q r : ℝ} (hp : p ∈ [a, b, c, d, e, k, l, m, n]) (hq : q ∈ [a, b, c, d, e, k, l, m, n])
    (hr : r ∈ [a, b, c, d, e, k, l, m, n]) {x y : Nat} (hx : x ≤ 2 ^ 53) (hy : y ≤ 2 ^ 53) =>
    lin_is (hb p hp) (hb q hq) (hb r hr) hx hy
  suffices hloop : ∀ (done todo : List (Nat × Nat)), done ++ todo = order → ∀ (out : Image (BitVec 8)),
      out.Shows w h (fun x y => if (x, y) ∈ done then g x y else 0) →
      ∃ out', loop (fun out q => do
        let D := lin (.num l) (.num m) (.num n) q.1 q.2
        if D.abs.lt (.num (1 / 2 ^ 52)) then .ok out
        else do
          let v ← Sp.bicubic .u8 0 src ((lin (.num a) (.num b) (.num c) q.1 q.2).div D)
            ((lin (.num d) (.num e) (.num k) q.1 q.2).div D)
          out.set2 q.1 q.2 v) todo out = .ok out' ∧
        out'.Shows w h (fun x y => if (x, y) ∈ order then g x y else 0) by
    obtain ⟨out, eo, so⟩ := hloop [] order rfl _ (start.congr fun x y _ _ => by simp)
    refine ⟨out, g, eo, so.congr fun x y hx hy => if_pos ((hcov x y).2 ⟨hx, hy⟩), fun x y hx hy => ⟨fun h1 => if_pos h1,
      fun h1 => ?_⟩⟩
    rw [hval]
    exact congrArg _ (if_neg (not_lt.2 h1)).symm
  intro done todo
  induction todo generalizing done with
  | nil =>
    intro h1 out so
    rw [List.append_nil] at h1
    exact ⟨out, rfl, h1 ▸ so⟩
  | cons q todo ih =>
    intro h1 out so
    obtain ⟨x, y⟩ := q
    have hin : x < w ∧ y < h := (hcov x y).1 (by rw [← h1]; simp)
    have hx : x ≤ 2 ^ 53 := by omega
    have hy : y ≤ 2 ^ 53 := by omega
    have ed := L (p := l) (q := m) (r := n) (by simp) (by simp) (by simp) hx hy
    unfold loop
    simp only
    have habs : (lin (.num l) (.num m) (.num n) x y).abs = .num |affine l m n x y| := by rw [ed.1]; rfl
    by_cases hz : |affine l m n x y| < 1 / 2 ^ 52
    · rw [if_pos (by rw [habs]; exact hz)]
      refine ih (done ++ [(x, y)]) (by simpa using h1) out (so.congr fun a b _ _ => ?_)
      by_cases he : (a, b) = (x, y)
      · injection he with h2 h3
        subst h2 h3
        have hg : g a b = 0 := if_pos hz
        simp [hg]
      · simp [he]
    · rw [if_neg (by rw [habs]; exact hz)]
      rw [(is_div (L (p := a) (q := b) (r := c) (by simp) (by simp) (by simp) hx hy) ed.1 (j := 52) (not_lt.1 hz)
        (by norm_num)).1, (is_div (L (p := d) (q := e) (r := k) (by simp) (by simp) (by simp) hx hy) ed.1 (j := 52)
        (not_lt.1 hz) (by norm_num)).1, hval, Res.ok_bind]
      obtain ⟨out', e1, s1⟩ := so.set2 hin.1 hin.2 (val (dbl (affine a b c x y / affine l m n x y))
        (dbl (affine d e k x y / affine l m n x y)))
      rw [e1]
      refine ih (done ++ [(x, y)]) (by simpa using h1) out' (s1.congr fun a' b' _ _ => ?_)
      have hg : g x y = val (dbl (affine a b c x y / affine l m n x y)) (dbl (affine d e k x y / affine l m n x y)) :=
        if_neg hz
      unfold updPx
      by_cases he : a' = x ∧ b' = y
      · obtain ⟨rfl, rfl⟩ := he
        simp [hg]
      · rw [if_neg he]
        have : (a', b') ≠ (x, y) := fun h => he (by injection h with h2 h3; exact ⟨h2, h3⟩)
        simp [this]

/-- The identity, into a frame of 3 × 2 pixels. -/
example : ∃ out g, Sp.warp 0 (Sp.bicubic .u8 0 dots)
    ⟨.num 1, .num 0, .num 0, .num 0, .num 1, .num 0, .num 0, .num 0, .num 1⟩ 3 2 (iterYX 3 2) = .ok out ∧
    out.Shows 3 2 g := by
  have h0 : |(0 : ℝ)| ≤ 2 ^ 300 := by rw [abs_zero]; positivity
  have h1 : |(1 : ℝ)| ≤ 2 ^ 300 := by rw [abs_one]; exact one_le_pow₀ (by norm_num)
  obtain ⟨out, g, e, so, -⟩ := C160_warp_partial dots 5 4 _ dots_shows (by norm_num) (by norm_num) 1 0 0 0 1 0 0 0 1
    (by intro v hv; fin_cases hv <;> assumption) 3 2 (by norm_num) (by norm_num) (by norm_num) _ (.refl _)
  exact ⟨out, g, e, so⟩

/-- A NaN in the last row of the matrix makes every warp of a picture into a frame that is not empty undefined. -/
theorem C160_nan_violation (src : Image (BitVec 8)) (w₀ h₀ : Nat) (f : Nat → Nat → BitVec 8) (s : src.Shows w₀ h₀ f)
    (hw₀ : w₀ ≤ 2 ^ 53) (hh₀ : h₀ ≤ 2 ^ 53) (m : Hom) (hm : m.h31 = .nan ∨ m.h32 = .nan ∨ m.h33 = .nan) (w h : Nat)
    (order : List (Nat × Nat)) (ho : order ≠ []) : Sp.warp 0 (Sp.bicubic .u8 0 src) m w h order = .ub := by
  have hl : ∀ x y, lin m.h31 m.h32 m.h33 x y = .nan := by
    have addn : ∀ a : Dbl, a.add .nan = .nan := by intro a; cases a <;> rfl
    intro x y
    unfold lin
    rcases hm with e | e | e <;> rw [e]
    · rfl
    · rw [show Dbl.nan.mul (Dbl.ofNat y) = .nan from rfl, addn]
      rfl
    · exact addn _
  have divn : ∀ a : Dbl, a.div .nan = .nan := by intro a; cases a <;> rfl
  obtain ⟨q, rest, rfl⟩ := List.exists_cons_of_ne_nil ho
  unfold Sp.warp loop
  simp only [hl, divn]
  rw [if_neg (by rw [hl]; exact fun h => h),
    (C158_nan_violation .u8 0 s hw₀ hh₀ .nan .nan (.inl rfl) (.inl rfl) (.inl rfl)).2]
  rfl

example : Sp.warp 0 (Sp.bicubic .u8 0 dots)
    ⟨.num 1, .num 0, .num 0, .num 0, .num 1, .num 0, .num 0, .nan, .num 1⟩ 3 2 (iterYX 3 2) = .ub :=
  C160_nan_violation dots 5 4 _ dots_shows (by norm_num) (by norm_num) _ (.inr (.inl rfl)) 3 2 _ (by decide)

/-- If one step is always undefined and the others are defined or undefined, so is the loop. -/
theorem loop_ub {σ β : Type} (P : σ → Prop) {body : σ → β → Res σ} {l : List β}
    (hstep : ∀ b ∈ l, ∀ s, P s → (∃ s', body s b = .ok s' ∧ P s') ∨ body s b = .ub) {b : β} (hb : b ∈ l)
    (hub : ∀ s, P s → body s b = .ub) : ∀ s, P s → loop body l s = .ub := by
  induction l with
  | nil => exact absurd hb List.not_mem_nil
  | cons a l ih =>
    intro s hs
    unfold loop
    rcases hstep a (by simp) s hs with ⟨s', e, hs'⟩ | e
    · rw [e]
      rcases List.mem_cons.1 hb with rfl | hb
      · rw [hub s hs] at e
        cases e
      · exact ih (fun b hb => hstep b (by simp [hb])) hb s' hs'
    · rw [e]

/-- Finite entries are not enough: with two entries of `2 ^ 1023` the third column of every frame gives infinity
divided by infinity, and the warp is undefined in every order of the pixels. -/
theorem C160_overflow_violation (src : Image (BitVec 8)) (w₀ h₀ : Nat) (f : Nat → Nat → BitVec 8)
    (s : src.Shows w₀ h₀ f) (hw₀ : w₀ ≤ 2 ^ 53) (hh₀ : h₀ ≤ 2 ^ 53) (hpos : 0 < h₀) (w h : Nat) (hw : 3 ≤ w)
    (hh : 0 < h) (hwb : w < 2 ^ 64) (hhb : h < 2 ^ 64) (hwh : w * h < 2 ^ 64)
    (order : List (Nat × Nat)) (ho : order.Perm (iterYX w h)) :
    Sp.warp 0 (Sp.bicubic .u8 0 src)
      ⟨.num (2 ^ 1023), .num 0, .num 0, .num 0, .num 0, .num 0, .num (2 ^ 1023), .num 0, .num 1⟩ w h order = .ub := by
  classical
  have hcov := covers_perm ho
  have start := ofSizes_shows (0 : BitVec 8) (w := w) (h := h) hwb hhb hwh
  unfold Sp.warp
  refine loop_ub (fun out => ∃ g, out.Shows w h g) (fun q hq out ⟨g, so⟩ => ?_) ((hcov 2 0).2 ⟨hw, hh⟩)
    (fun out ⟨g, so⟩ => ?_) _ ⟨_, start⟩
  · obtain ⟨x, y⟩ := q
    have hin := (hcov x y).1 hq
    simp only
    split
    · exact .inl ⟨out, rfl, g, so⟩
    · rcases bicubic_ok_or_ub Elem.u8_sound 0 s hw₀ hh₀ ((lin (.num (2 ^ 1023)) (.num 0) (.num 0) x y).div
          (lin (.num (2 ^ 1023)) (.num 0) (.num 1) x y)) ((lin (.num 0) (.num 0) (.num 0) x y).div
          (lin (.num (2 ^ 1023)) (.num 0) (.num 1) x y)) with ⟨v, e⟩ | e
      · rw [e, Res.ok_bind]
        obtain ⟨out', e1, s1⟩ := so.set2 hin.1 hin.2 v
        exact .inl ⟨out', e1, _, s1⟩
      · rw [e]
        exact .inr rfl
  · have two : Dbl.ofNat 2 = .num 2 := by
      have := ofNat_eq (n := 2) (by norm_num)
      simpa using this
    have zero : Dbl.ofNat 0 = .num 0 := by
      have := ofNat_eq (n := 0) (by norm_num)
      simpa using this
    have d0 : dbl 0 = 0 := by
      have := dbl_nat (n := 0) (by norm_num)
      simpa using this
    have r0 : Dbl.rnd 0 = .num 0 := by
      rw [rnd_of_lt (by rw [d0, abs_zero]; positivity), d0]
    have big : (Dbl.num (2 ^ 1023)).mul (.num 2) = .pinf := by
      show Dbl.rnd (2 ^ 1023 * 2) = .pinf
      rw [← pow_succ]
      have e : dbl (2 ^ 1024) = 2 ^ 1024 := by
        refine dbl_of_rep ⟨1, 1024, by norm_num, ?_⟩
        norm_num
      unfold Dbl.rnd
      rw [e, if_pos (le_refl _)]
    have n0 : (Dbl.num 0).mul (.num 0) = .num 0 := by
      show Dbl.rnd (0 * 0) = _
      rw [mul_zero, r0]
    have n1 : (Dbl.num 0).mul (.num 2) = .num 0 := by
      show Dbl.rnd (0 * 2) = _
      rw [zero_mul, r0]
    have n2 : (Dbl.num 0).add (.num 0) = .num 0 := by
      show Dbl.rnd (0 + 0) = _
      rw [add_zero, r0]
    have l1 : ∀ c : ℝ, lin (.num (2 ^ 1023)) (.num 0) (.num c) 2 0 = .pinf := by
      intro c
      unfold lin
      rw [two, zero, big, n0]
      rfl
    have l2 : lin (.num 0) (.num 0) (.num 0) 2 0 = .num 0 := by
      unfold lin
      rw [two, zero, n1, n0, n2, n2]
    simp only
    rw [l1, l1, l2, if_neg (show ¬ Dbl.pinf.abs.lt (.num (1 / 2 ^ 52)) from fun h => h),
      show Dbl.pinf.div .pinf = .nan from rfl, show (Dbl.num 0).div .pinf = .num 0 from rfl,
      (C158_nan_violation .u8 0 s hw₀ hh₀ .nan (.num 0) (.inl rfl) (.inr ⟨0, rfl, le_refl _, by
        have : (1 : ℝ) ≤ h₀ := by exact_mod_cast hpos
        linarith⟩) (.inl rfl)).2]
    rfl

example : Sp.warp 0 (Sp.bicubic .u8 0 dots)
    ⟨.num (2 ^ 1023), .num 0, .num 0, .num 0, .num 0, .num 0, .num (2 ^ 1023), .num 0, .num 1⟩ 3 2 (iterYX 3 2) = .ub :=
  C160_overflow_violation dots 5 4 _ dots_shows (by norm_num) (by norm_num) (by norm_num) 3 2 (by norm_num)
    (by norm_num) (by norm_num) (by norm_num) (by norm_num) _ (.refl _)

end TinyDIP.Props
