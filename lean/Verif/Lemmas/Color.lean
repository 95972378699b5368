import Verif.Spec.Color
import Verif.Lemmas.Image
import Verif.Lemmas.Pixelwise
import Mathlib.Algebra.Order.Floor.Semifield
import Mathlib.Tactic.Linarith
import Mathlib.Tactic.NormNum
import Mathlib.Tactic.FieldSimp
import Mathlib.Tactic.Ring
import Mathlib.Tactic.Positivity
import Mathlib.Tactic.SplitIfs
import Mathlib.Tactic.Push

namespace TinyDIP.Color

open TinyDIP

/-! ### The hue angle -/

/-- The hue angle in sixths of a turn. -/
noncomputable def theta (u : ℝ) : ℝ := 3 * Real.arccos u / Real.pi

theorem arccos_half : Real.arccos (1 / 2) = Real.pi / 3 := by
  rw [← Real.cos_pi_div_three]
  exact Real.arccos_cos (by positivity) (by linarith [Real.pi_pos])

theorem arccos_neg_half : Real.arccos (-(1 / 2)) = 2 * Real.pi / 3 := by
  rw [Real.arccos_neg, arccos_half]; ring

theorem theta_le_one {u : ℝ} (h : 1 / 2 ≤ u) : theta u ≤ 1 := by
  have := Real.antitone_arccos h
  rw [arccos_half] at this
  unfold theta
  rw [div_le_one Real.pi_pos]
  linarith

theorem one_le_theta {u : ℝ} (h : u ≤ 1 / 2) : 1 ≤ theta u := by
  have := Real.antitone_arccos h
  rw [arccos_half] at this
  unfold theta
  rw [one_le_div Real.pi_pos]
  linarith

theorem theta_le_two {u : ℝ} (h : -(1 / 2) ≤ u) : theta u ≤ 2 := by
  have := Real.antitone_arccos h
  rw [arccos_neg_half] at this
  unfold theta
  rw [div_le_iff₀ Real.pi_pos]
  linarith

theorem two_le_theta {u : ℝ} (h : u ≤ -(1 / 2)) : 2 ≤ theta u := by
  have := Real.antitone_arccos h
  rw [arccos_neg_half] at this
  unfold theta
  rw [le_div_iff₀ Real.pi_pos]
  linarith

theorem theta_nonneg (u : ℝ) : 0 ≤ theta u :=
  div_nonneg (mul_nonneg (by norm_num) (Real.arccos_nonneg u)) Real.pi_pos.le

theorem theta_le_three (u : ℝ) : theta u ≤ 3 := by
  unfold theta
  rw [div_le_iff₀ Real.pi_pos]
  linarith [Real.arccos_le_pi u]

theorem theta_one : theta 1 = 0 := by simp [theta]

theorem theta_neg_one : theta (-1) = 3 := by
  unfold theta
  rw [Real.arccos_neg_one]
  field_simp

theorem theta_pos {u : ℝ} (h : u < 1) : 0 < theta u :=
  div_pos (mul_pos (by norm_num) (Real.arccos_pos.2 h)) Real.pi_pos

/-- The cosine of the hue angle. -/
noncomputable def hueCos (r g b : ℝ) : ℝ :=
  0.5 * ((r - g) + (r - b)) / Real.sqrt ((r - g) ^ 2 + (r - b) * (g - b))

theorem hueH1_eq (r g b : ℝ) : hueH1 r g b / 60 = theta (hueCos r g b) := by
  unfold hueH1 theta hueCos
  have := Real.pi_pos.ne'
  norm_num
  field_simp
  ring

variable {r g b : ℝ}

theorem hueQ_pos (h : ¬ (r = g ∧ g = b)) : 0 < (r - g) ^ 2 + (r - b) * (g - b) := by
  by_contra hc
  apply h
  have e : 4 * ((r - g) ^ 2 + (r - b) * (g - b)) = (2 * r - g - b) ^ 2 + 3 * (g - b) ^ 2 := by ring
  have h1 : (g - b) ^ 2 = 0 := by nlinarith [sq_nonneg (2 * r - g - b), sq_nonneg (g - b)]
  have h2 : (2 * r - g - b) ^ 2 = 0 := by nlinarith [sq_nonneg (2 * r - g - b), sq_nonneg (g - b)]
  have h3 : g - b = 0 := by simpa using h1
  have h4 : 2 * r - g - b = 0 := by simpa using h2
  exact ⟨by linarith, by linarith⟩

theorem hueCos_max (h : ¬ (r = g ∧ g = b)) (h1 : g ≤ r) (h2 : b ≤ r) : 1 / 2 ≤ hueCos r g b := by
  have hD := Real.sqrt_pos.2 (hueQ_pos h)
  unfold hueCos
  rw [le_div_iff₀ hD]
  have : Real.sqrt ((r - g) ^ 2 + (r - b) * (g - b)) ≤ (r - g) + (r - b) := by
    refine Real.sqrt_le_iff.2 ⟨by linarith, ?_⟩
    nlinarith [mul_nonneg (sub_nonneg.2 h1) (sub_nonneg.2 h2)]
  norm_num
  linarith

theorem hueCos_min (h : ¬ (r = g ∧ g = b)) (h1 : r ≤ g) (h2 : r ≤ b) : hueCos r g b ≤ -(1 / 2) := by
  have hD := Real.sqrt_pos.2 (hueQ_pos h)
  unfold hueCos
  rw [div_le_iff₀ hD]
  have : Real.sqrt ((r - g) ^ 2 + (r - b) * (g - b)) ≤ (g - r) + (b - r) := by
    refine Real.sqrt_le_iff.2 ⟨by linarith, ?_⟩
    nlinarith [mul_nonneg (sub_nonneg.2 h1) (sub_nonneg.2 h2)]
  norm_num
  linarith

theorem hueCos_mid (h : ¬ (r = g ∧ g = b)) (h1 : (r - g) * (r - b) ≤ 0) :
    -(1 / 2) ≤ hueCos r g b ∧ hueCos r g b ≤ 1 / 2 := by
  have hD := Real.sqrt_pos.2 (hueQ_pos h)
  have habs : |(r - g) + (r - b)| ≤ Real.sqrt ((r - g) ^ 2 + (r - b) * (g - b)) := by
    refine Real.abs_le_sqrt ?_
    nlinarith
  have := abs_le.1 habs
  unfold hueCos
  rw [le_div_iff₀ hD, div_le_iff₀ hD]
  norm_num
  constructor <;> linarith

theorem hueCos_lt_one (h : g ≠ b) : hueCos r g b < 1 := by
  have hD := Real.sqrt_pos.2 (hueQ_pos (r := r) (g := g) (b := b) fun hh => h hh.2)
  unfold hueCos
  rw [div_lt_one hD]
  refine Real.lt_sqrt_of_sq_lt ?_
  have : 0 < (g - b) ^ 2 := by
    have : g - b ≠ 0 := sub_ne_zero.2 h
    positivity
  norm_num
  nlinarith

/-- Value when the first two channels agree, etc. -/
theorem hueCos_rg (h : b < r) : hueCos r r b = 1 / 2 := by
  unfold hueCos
  rw [show (r - r) ^ 2 + (r - b) * (r - b) = (r - b) ^ 2 by ring, Real.sqrt_sq (by linarith)]
  have : r - b ≠ 0 := by linarith
  norm_num
  field_simp

theorem hueCos_rg' (h : r < b) : hueCos r r b = -(1 / 2) := by
  unfold hueCos
  rw [show (r - r) ^ 2 + (r - b) * (r - b) = (b - r) ^ 2 by ring, Real.sqrt_sq (by linarith)]
  have : b - r ≠ 0 := by linarith
  norm_num
  field_simp
  ring

theorem hueCos_gb (h : g < r) : hueCos r g g = 1 := by
  unfold hueCos
  rw [show (r - g) ^ 2 + (r - g) * (g - g) = (r - g) ^ 2 by ring, Real.sqrt_sq (by linarith)]
  have : r - g ≠ 0 := by linarith
  norm_num
  field_simp
  ring

theorem hueCos_gb' (h : r < g) : hueCos r g g = -1 := by
  unfold hueCos
  rw [show (r - g) ^ 2 + (r - g) * (g - g) = (g - r) ^ 2 by ring, Real.sqrt_sq (by linarith)]
  have : g - r ≠ 0 := by linarith
  norm_num
  field_simp
  ring

theorem hueCos_rb (h : g < r) : hueCos r g r = 1 / 2 := by
  unfold hueCos
  rw [show (r - g) ^ 2 + (r - r) * (g - r) = (r - g) ^ 2 by ring, Real.sqrt_sq (by linarith)]
  have : r - g ≠ 0 := by linarith
  norm_num
  field_simp

theorem hueCos_rb' (h : r < g) : hueCos r g r = -(1 / 2) := by
  unfold hueCos
  rw [show (r - g) ^ 2 + (r - r) * (g - r) = (g - r) ^ 2 by ring, Real.sqrt_sq (by linarith)]
  have : g - r ≠ 0 := by linarith
  norm_num
  field_simp
  ring

theorem theta_half : theta (1 / 2) = 1 :=
  le_antisymm (theta_le_one le_rfl) (one_le_theta le_rfl)

theorem theta_neg_half : theta (-(1 / 2)) = 2 :=
  le_antisymm (theta_le_two le_rfl) (two_le_theta le_rfl)


/-! ### From hue, saturation and value to channels -/

theorem toU8_ok {a : ℝ} (h0 : 0 ≤ a) (h1 : a < 256) :
    toU8 a = .ok (BitVec.ofNat 8 ⌊a⌋₊) ∧ (BitVec.ofNat 8 ⌊a⌋₊).toNat = ⌊a⌋₊ := by
  have : ⌊a⌋₊ < 256 := (Nat.floor_lt h0).2 (by exact_mod_cast h1)
  refine ⟨if_pos ⟨by linarith, h1⟩, ?_⟩
  rw [BitVec.toNat_ofNat]
  exact Nat.mod_eq_of_lt this

theorem toU8_nat {n : Nat} (h : n < 256) : toU8 (n : ℝ) = .ok (BitVec.ofNat 8 n) := by
  have := (toU8_ok (a := (n : ℝ)) (Nat.cast_nonneg n) (by exact_mod_cast h)).1
  rwa [Nat.floor_natCast] at this

theorem toU8_real8 (x : BitVec 8) : toU8 (real8 x) = .ok x := by
  have := toU8_nat x.isLt
  unfold real8
  rw [this, BitVec.ofNat_toNat]
  simp

theorem pack_ok {a b c : ℝ} (ha : 0 ≤ a) (ha' : a < 256) (hb : 0 ≤ b) (hb' : b < 256)
    (hc : 0 ≤ c) (hc' : c < 256) :
    ∃ q, pack a b c = .ok q ∧ chan q 0 = ⌊a⌋₊ ∧ chan q 1 = ⌊b⌋₊ ∧ chan q 2 = ⌊c⌋₊ := by
  obtain ⟨e1, f1⟩ := toU8_ok ha ha'
  obtain ⟨e2, f2⟩ := toU8_ok hb hb'
  obtain ⟨e3, f3⟩ := toU8_ok hc hc'
  refine ⟨⟨BitVec.ofNat 8 ⌊a⌋₊, BitVec.ofNat 8 ⌊b⌋₊, BitVec.ofNat 8 ⌊c⌋₊⟩, ?_, f1, f2, f3⟩
  simp only [pack, e1, e2, e3, Res.ok_bind]

/-- The six formulas. -/
noncomputable def sextant (k : Nat) (e S V : ℝ) : Res RGB :=
  match k with
  | 0 => pack V (V * (1 - (1 - e) * S)) (V * (1 - S))
  | 1 => pack (V * (1 - e * S)) V (V * (1 - S))
  | 2 => pack (V * (1 - S)) V (V * (1 - (1 - e) * S))
  | 3 => pack (V * (1 - S)) (V * (1 - e * S)) V
  | 4 => pack (V * (1 - (1 - e) * S)) (V * (1 - S)) V
  | 5 => pack V (V * (1 - S)) (V * (1 - e * S))
  | _ => .ok ⟨0, 0, 0⟩

theorem hsv2rgb_lt {k : Nat} (hk : k < 6) {e S V H : ℝ} (h0 : 0 ≤ e) (h1 : e < 1)
    (hH : H / 60 = k + e) : hsv2rgb ⟨H, S, V⟩ = sextant k e S V := by
  have hf : ⌊H / 60⌋ = (k : ℤ) := by
    rw [Int.floor_eq_iff]
    constructor
    · rw [hH]; push_cast; linarith
    · rw [hH]; push_cast; linarith
  have e60 : (60.0 : ℝ) = 60 := by norm_num
  have e1 : (1.0 : ℝ) = 1 := by norm_num
  have hn : (BitVec.ofNat 8 k).toNat = k := by
    rw [BitVec.toNat_ofNat]; exact Nat.mod_eq_of_lt (by omega)
  unfold hsv2rgb
  simp only [e60, e1, hf, Int.cast_natCast, toU8_nat (show k < 256 by omega), Res.ok_bind, hn]
  rw [hH, show (k : ℝ) + e - k = e by ring]
  rfl

theorem sextant_succ {k : Nat} (hk : k < 5) (S V : ℝ) :
    sextant k 1 S V = sextant (k + 1) 0 S V := by
  have a : V * (1 - (1 - (1 : ℝ)) * S) = V := by ring
  have b : V * (1 - (0 : ℝ) * S) = V := by ring
  have c : V * (1 - (1 : ℝ) * S) = V * (1 - S) := by ring
  have d : V * (1 - (1 - (0 : ℝ)) * S) = V * (1 - S) := by ring
  match k, hk with
  | 0, _ => simp only [sextant, a, b]
  | 1, _ => simp only [sextant, c, d]
  | 2, _ => simp only [sextant, a, b]
  | 3, _ => simp only [sextant, c, d]
  | 4, _ => simp only [sextant, a, b]

theorem hsv2rgb_sector {k : Nat} (hk : k < 6) {e S V H : ℝ} (h0 : 0 ≤ e) (h1 : e ≤ 1)
    (h5 : k = 5 → e < 1) (hH : H / 60 = k + e) : hsv2rgb ⟨H, S, V⟩ = sextant k e S V := by
  rcases lt_or_eq_of_le h1 with h | h
  · exact hsv2rgb_lt hk h0 h hH
  · have hk5 : k < 5 := by
      rcases Nat.lt_or_ge k 5 with h' | h'
      · exact h'
      · have := h5 (by omega); linarith
    rw [h, sextant_succ hk5]
    refine hsv2rgb_lt (by omega) le_rfl one_pos ?_
    rw [hH, h]; push_cast; ring

/-! ### The two extreme channels -/

theorem keeps_of {t : ℝ} {p q : RGB} {i j k : Fin 3} (hall : ∀ l, l = i ∨ l = j ∨ l = k)
    (hi : chan p i = brightest p) (hk : chan p k = darkest p)
    {x y z : ℝ} (qi : chan q i = ⌊x⌋₊) (qj : chan q j = ⌊y⌋₊) (qk : chan q k = ⌊z⌋₊)
    (hx : x = t * brightest p) (hz : z = t * darkest p)
    (lo : t * darkest p ≤ y) (up : y ≤ t * brightest p)
    (jb : chan p j = brightest p → y = t * brightest p)
    (jd : chan p j = darkest p → y = t * darkest p) :
    KeepsExtremes (fun n => ⌊t * n⌋₊) p q := by
  have hxz : ⌊t * (darkest p : ℝ)⌋₊ ≤ ⌊t * (brightest p : ℝ)⌋₊ := Nat.floor_mono (lo.trans up)
  intro l
  rcases hall l with rfl | rfl | rfl
  · refine ⟨fun _ => by rw [qi, hx], fun h => ?_, by rw [qi, hx]; exact hxz, by rw [qi, hx]⟩
    rw [qi, hx, ← hi, h]
  · refine ⟨fun h => by rw [qj, jb h], fun h => by rw [qj, jd h], by
      rw [qj]; exact Nat.floor_mono lo, by rw [qj]; exact Nat.floor_mono up⟩
  · refine ⟨fun h => ?_, fun _ => by rw [qk, hz], by rw [qk, hz], by rw [qk, hz]; exact hxz⟩
    rw [qk, hz, ← hk, h]

theorem rgb2hsv_val (p : RGB) : (rgb2hsv p).c2 = brightest p := rfl

theorem darkest_le (p : RGB) : darkest p ≤ brightest p :=
  (min_le_left _ _).trans (le_max_left _ _)

theorem chan_le (p : RGB) (i : Fin 3) : chan p i ≤ brightest p := by
  match i with
  | 0 => exact le_max_left _ _
  | 1 => exact (le_max_left _ _).trans (le_max_right _ _)
  | 2 => exact (le_max_right _ _).trans (le_max_right _ _)

theorem le_chan (p : RGB) (i : Fin 3) : darkest p ≤ chan p i := by
  match i with
  | 0 => exact min_le_left _ _
  | 1 => exact (min_le_right _ _).trans (min_le_left _ _)
  | 2 => exact (min_le_right _ _).trans (min_le_right _ _)

theorem brightest_lt (p : RGB) : brightest p < 256 :=
  max_lt p.c0.isLt (max_lt p.c1.isLt p.c2.isLt)

theorem rgb2hsv_sat (p : RGB) :
    (rgb2hsv p).c1 = if brightest p = 0 then 0 else 1.0 - ((darkest p : ℝ) / (brightest p : ℝ)) :=
  rfl

theorem sat_spec (p : RGB) : (brightest p : ℝ) * (1 - (rgb2hsv p).c1) = darkest p ∧
    0 ≤ (rgb2hsv p).c1 ∧ (rgb2hsv p).c1 ≤ 1 := by
  have hle := darkest_le p
  rw [rgb2hsv_sat]
  by_cases h : brightest p = 0
  · have h' : darkest p = 0 := by omega
    rw [if_pos h, h, h']
    norm_num
  · rw [if_neg h]
    have hb : (0 : ℝ) < brightest p := by exact_mod_cast Nat.pos_of_ne_zero h
    have hd : (darkest p : ℝ) ≤ brightest p := by exact_mod_cast hle
    refine ⟨?_, ?_, ?_⟩
    · norm_num
      field_simp
    · norm_num
      exact (div_le_one hb).2 hd
    · norm_num
      positivity

theorem rgb2hsv_hue (p : RGB) :
    (rgb2hsv p).c0 = if brightest p = darkest p then 0 else
      if p.c2.toNat ≤ p.c1.toNat then hueH1 (chan p 0) (chan p 1) (chan p 2)
      else 360.0 - hueH1 (chan p 0) (chan p 1) (chan p 2) :=
  rfl

/-- The hue of a pixel whose channels are not all equal, in sixths of a turn. -/
theorem hue_div (p : RGB) (h : brightest p ≠ darkest p) :
    (rgb2hsv p).c0 / 60 =
      if chan p 2 ≤ chan p 1 then theta (hueCos (chan p 0) (chan p 1) (chan p 2))
      else 6 - theta (hueCos (chan p 0) (chan p 1) (chan p 2)) := by
  rw [rgb2hsv_hue, if_neg h, ← hueH1_eq]
  by_cases hc : chan p 2 ≤ chan p 1
  · rw [if_pos hc, if_pos (show p.c2.toNat ≤ p.c1.toNat from hc)]
  · rw [if_neg hc, if_neg (show ¬ p.c2.toNat ≤ p.c1.toNat from hc)]
    norm_num
    ring

/-- The middle channel of the sextant formulas lies between the extremes. -/
theorem mid_bounds {t M m S α : ℝ} (ht : 0 ≤ t) (hM : 0 ≤ M) (hm : M * (1 - S) = m)
    (hS0 : 0 ≤ S) (h0 : 0 ≤ α) (h1 : α ≤ 1) :
    t * m ≤ t * M * (1 - α * S) ∧ t * M * (1 - α * S) ≤ t * M := by
  have e : t * M * (1 - α * S) = t * (M - α * (M * S)) := by ring
  have hMS : 0 ≤ M * S := mul_nonneg hM hS0
  rw [e]
  constructor
  · apply mul_le_mul_of_nonneg_left _ ht
    nlinarith
  · apply mul_le_mul_of_nonneg_left _ ht
    nlinarith

theorem brightest_eq {p : RGB} {i : Fin 3} (h : ∀ j, chan p j ≤ chan p i) :
    chan p i = brightest p :=
  le_antisymm (chan_le p i) (max_le (h 0) (max_le (h 1) (h 2)))

theorem darkest_eq {p : RGB} {i : Fin 3} (h : ∀ j, chan p i ≤ chan p j) :
    chan p i = darkest p :=
  le_antisymm (le_min (h 0) (le_min (h 1) (h 2))) (le_chan p i)


/-- The three channels after the sextant formula, once the sextant is known. -/
theorem scaled_of {p : RGB} {t : ℝ} (ht : 0 ≤ t) (hb : t * brightest p < 256)
    {i j l : Fin 3} (hall : ∀ n, n = i ∨ n = j ∨ n = l)
    (hi : chan p i = brightest p) (hl : chan p l = darkest p) {α : ℝ} (h0 : 0 ≤ α) (h1 : α ≤ 1)
    (jb : brightest p ≠ darkest p → chan p j = brightest p → α = 0)
    (jd : brightest p ≠ darkest p → chan p j = darkest p → α = 1)
    {out : Res RGB}
    (hout : ∀ x y z : ℝ, 0 ≤ x → x < 256 → 0 ≤ y → y < 256 → 0 ≤ z → z < 256 →
      x = t * brightest p → y = t * brightest p * (1 - α * (rgb2hsv p).c1) →
      z = t * brightest p * (1 - (rgb2hsv p).c1) →
      ∃ q, out = .ok q ∧ chan q i = ⌊x⌋₊ ∧ chan q j = ⌊y⌋₊ ∧ chan q l = ⌊z⌋₊) :
    ∃ q, out = .ok q ∧ KeepsExtremes (fun n => ⌊t * n⌋₊) p q := by
  obtain ⟨hS, hS0, hS1⟩ := sat_spec p
  have hM : (0 : ℝ) ≤ brightest p := Nat.cast_nonneg _
  have hm : (0 : ℝ) ≤ darkest p := Nat.cast_nonneg _
  obtain ⟨lo, up⟩ := mid_bounds ht hM hS hS0 h0 h1
  have ez : t * (brightest p : ℝ) * (1 - (rgb2hsv p).c1) = t * darkest p := by
    rw [mul_assoc, hS]
  have hmM : t * (darkest p : ℝ) ≤ t * brightest p := lo.trans up
  have htm : 0 ≤ t * (darkest p : ℝ) := mul_nonneg ht hm
  obtain ⟨q, hq, qi, qj, ql⟩ := hout _ _ _ (mul_nonneg ht hM) hb (htm.trans lo)
    (lt_of_le_of_lt up hb) (by rw [ez]; exact htm) (by rw [ez]; exact lt_of_le_of_lt hmM hb)
    rfl rfl rfl
  refine ⟨q, hq, keeps_of hall hi hl qi qj ql rfl ez lo up ?_ ?_⟩
  · intro h
    by_cases hg : brightest p = darkest p
    · exact le_antisymm up (by rw [hg] at lo ⊢; exact lo)
    · rw [jb hg h]; ring
  · intro h
    by_cases hg : brightest p = darkest p
    · exact le_antisymm (by rw [hg] at up ⊢; exact up) lo
    · rw [jd hg h, one_mul, ez]

/-- Converting to hue, saturation and value, scaling the value and converting back. -/
theorem scaled (p : RGB) (t : ℝ) (ht : 0 ≤ t) (hb : t * brightest p < 256) :
    ∃ q, hsv2rgb ⟨(rgb2hsv p).c0, (rgb2hsv p).c1, t * (rgb2hsv p).c2⟩ = .ok q ∧
      KeepsExtremes (fun n => ⌊t * n⌋₊) p q := by
  rw [rgb2hsv_val]
  by_cases hgrey : brightest p = darkest p
  · have hc : ∀ i, chan p i = brightest p := fun i =>
      le_antisymm (chan_le p i) (hgrey ▸ le_chan p i)
    have hH : (rgb2hsv p).c0 / 60 = ((0 : Nat) : ℝ) + 0 := by
      rw [rgb2hsv_hue, if_pos hgrey]; norm_num
    rw [hsv2rgb_sector (k := 0) (by omega) le_rfl (by norm_num) (by omega) hH]
    refine scaled_of (i := 0) (j := 1) (l := 2) (α := 1 - 0) ht hb (by decide) (hc 0)
      ((hc 2).trans hgrey) (by norm_num) (by norm_num) (fun h => absurd hgrey h)
      (fun h => absurd hgrey h) ?_
    intro x y z x0 x1 y0 y1 z0 z1 hx hy hz
    subst hx hy hz
    obtain ⟨q, hq, q0, q1, q2⟩ := pack_ok x0 x1 y0 y1 z0 z1
    exact ⟨q, hq, q0, q1, q2⟩
  · have hne : ¬ ((chan p 0 : ℝ) = chan p 1 ∧ (chan p 1 : ℝ) = chan p 2) := by
      rintro ⟨h1, h2⟩
      have h1' : chan p 0 = chan p 1 := by exact_mod_cast h1
      have h2' : chan p 1 = chan p 2 := by exact_mod_cast h2
      apply hgrey
      unfold brightest darkest
      rw [h1', h2']; simp
    have hH := hue_div p hgrey
    obtain ⟨R, hR⟩ : ∃ R, chan p 0 = R := ⟨_, rfl⟩
    obtain ⟨G, hG⟩ : ∃ G, chan p 1 = G := ⟨_, rfl⟩
    obtain ⟨B, hB⟩ : ∃ B, chan p 2 = B := ⟨_, rfl⟩
    have hf : ∀ (P : Fin 3 → Prop), P 0 → P 1 → P 2 → ∀ i, P i := by
      intro P h0 h1 h2 i
      match i with
      | 0 => exact h0
      | 1 => exact h1
      | 2 => exact h2
    rw [hR, hG, hB] at hH hne
    obtain ⟨θ, hθ⟩ : ∃ θ, theta (hueCos (R : ℝ) G B) = θ := ⟨_, rfl⟩
    rw [hθ] at hH
    have case0 : B ≤ G ∧ G ≤ R → ∃ q, hsv2rgb ⟨(rgb2hsv p).c0, (rgb2hsv p).c1, t * (brightest p : ℝ)⟩ = .ok q ∧
        KeepsExtremes (fun n => ⌊t * n⌋₊) p q := by
      intro hc
      have t0 : 0 ≤ θ := hθ ▸ theta_nonneg _
      have t1 : θ ≤ 1 := hθ ▸ theta_le_one (hueCos_max hne (by exact_mod_cast hc.2) (by exact_mod_cast hc.1.trans hc.2))
      have hbr : chan p 0 = brightest p := brightest_eq (hf _ (by omega) (by omega) (by omega))
      have hdk : chan p 2 = darkest p := darkest_eq (hf _ (by omega) (by omega) (by omega))
      rw [if_pos (by omega)] at hH
      rw [hsv2rgb_sector (k := 0) (e := θ) (by omega) (by linarith) (by linarith) (by omega)
        (by rw [hH]; push_cast; ring)]
      refine scaled_of (i := 0) (j := 1) (l := 2) (α := 1 - θ) ht hb (by decide) hbr hdk
        (by linarith) (by linarith) ?_ ?_ ?_
      · intro hg h
        have h1 : G = R := by omega
        have h2 : B < R := by omega
        have : θ = 1 := by
          rw [← hθ, h1, hueCos_rg (r := (R : ℝ)) (b := B) (by exact_mod_cast h2), theta_half]
        rw [this]; norm_num
      · intro hg h
        have h1 : G = B := by omega
        have h2 : B < R := by omega
        have : θ = 0 := by
          rw [← hθ, h1, hueCos_gb (r := (R : ℝ)) (g := B) (by exact_mod_cast h2), theta_one]
        rw [this]; norm_num
      · intro x y z x0 x1 y0 y1 z0 z1 hx hy hz
        subst hx hy hz
        obtain ⟨q, hq, q0, q1, q2⟩ := pack_ok x0 x1 y0 y1 z0 z1
        exact ⟨q, hq, q0, q1, q2⟩
    have case1 : B ≤ R ∧ R ≤ G → ∃ q, hsv2rgb ⟨(rgb2hsv p).c0, (rgb2hsv p).c1, t * (brightest p : ℝ)⟩ = .ok q ∧
        KeepsExtremes (fun n => ⌊t * n⌋₊) p q := by
      intro hc
      have t0 : 1 ≤ θ := hθ ▸ one_le_theta (hueCos_mid hne (mul_nonpos_of_nonpos_of_nonneg (sub_nonpos.2 (by exact_mod_cast hc.2)) (sub_nonneg.2 (by exact_mod_cast hc.1)))).2
      have t1 : θ ≤ 2 := hθ ▸ theta_le_two (hueCos_mid hne (mul_nonpos_of_nonpos_of_nonneg (sub_nonpos.2 (by exact_mod_cast hc.2)) (sub_nonneg.2 (by exact_mod_cast hc.1)))).1
      have hbr : chan p 1 = brightest p := brightest_eq (hf _ (by omega) (by omega) (by omega))
      have hdk : chan p 2 = darkest p := darkest_eq (hf _ (by omega) (by omega) (by omega))
      rw [if_pos (by omega)] at hH
      rw [hsv2rgb_sector (k := 1) (e := θ - 1) (by omega) (by linarith) (by linarith) (by omega)
        (by rw [hH]; push_cast; ring)]
      refine scaled_of (i := 1) (j := 0) (l := 2) (α := θ - 1) ht hb (by decide) hbr hdk
        (by linarith) (by linarith) ?_ ?_ ?_
      · intro hg h
        have h1 : R = G := by omega
        have h2 : B < G := by omega
        have : θ = 1 := by
          rw [← hθ, h1, hueCos_rg (r := (G : ℝ)) (b := B) (by exact_mod_cast h2), theta_half]
        rw [this]; norm_num
      · intro hg h
        have h1 : R = B := by omega
        have h2 : B < G := by omega
        have : θ = 2 := by
          rw [← hθ, h1, hueCos_rb' (r := (B : ℝ)) (g := G) (by exact_mod_cast h2), theta_neg_half]
        rw [this]; norm_num
      · intro x y z x0 x1 y0 y1 z0 z1 hx hy hz
        subst hx hy hz
        obtain ⟨q, hq, q0, q1, q2⟩ := pack_ok y0 y1 x0 x1 z0 z1
        exact ⟨q, hq, q1, q0, q2⟩
    have case2 : R ≤ B ∧ B ≤ G → ∃ q, hsv2rgb ⟨(rgb2hsv p).c0, (rgb2hsv p).c1, t * (brightest p : ℝ)⟩ = .ok q ∧
        KeepsExtremes (fun n => ⌊t * n⌋₊) p q := by
      intro hc
      have t0 : 2 ≤ θ := hθ ▸ two_le_theta (hueCos_min hne (by exact_mod_cast hc.1.trans hc.2) (by exact_mod_cast hc.1))
      have t1 : θ ≤ 3 := hθ ▸ theta_le_three _
      have hbr : chan p 1 = brightest p := brightest_eq (hf _ (by omega) (by omega) (by omega))
      have hdk : chan p 0 = darkest p := darkest_eq (hf _ (by omega) (by omega) (by omega))
      rw [if_pos (by omega)] at hH
      rw [hsv2rgb_sector (k := 2) (e := θ - 2) (by omega) (by linarith) (by linarith) (by omega)
        (by rw [hH]; push_cast; ring)]
      refine scaled_of (i := 1) (j := 2) (l := 0) (α := 1 - (θ - 2)) ht hb (by decide) hbr hdk
        (by linarith) (by linarith) ?_ ?_ ?_
      · intro hg h
        have h1 : B = G := by omega
        have h2 : R < G := by omega
        have : θ = 3 := by
          rw [← hθ, h1, hueCos_gb' (r := (R : ℝ)) (g := G) (by exact_mod_cast h2), theta_neg_one]
        rw [this]; norm_num
      · intro hg h
        have h1 : B = R := by omega
        have h2 : R < G := by omega
        have : θ = 2 := by
          rw [← hθ, h1, hueCos_rb' (r := (R : ℝ)) (g := G) (by exact_mod_cast h2), theta_neg_half]
        rw [this]; norm_num
      · intro x y z x0 x1 y0 y1 z0 z1 hx hy hz
        subst hx hy hz
        obtain ⟨q, hq, q0, q1, q2⟩ := pack_ok z0 z1 x0 x1 y0 y1
        exact ⟨q, hq, q1, q2, q0⟩
    have case3 : R ≤ G ∧ G < B → ∃ q, hsv2rgb ⟨(rgb2hsv p).c0, (rgb2hsv p).c1, t * (brightest p : ℝ)⟩ = .ok q ∧
        KeepsExtremes (fun n => ⌊t * n⌋₊) p q := by
      intro hc
      have t0 : 2 ≤ θ := hθ ▸ two_le_theta (hueCos_min hne (by exact_mod_cast hc.1) (by exact_mod_cast hc.1.trans hc.2.le))
      have t1 : θ ≤ 3 := hθ ▸ theta_le_three _
      have hbr : chan p 2 = brightest p := brightest_eq (hf _ (by omega) (by omega) (by omega))
      have hdk : chan p 0 = darkest p := darkest_eq (hf _ (by omega) (by omega) (by omega))
      rw [if_neg (by omega)] at hH
      rw [hsv2rgb_sector (k := 3) (e := 3 - θ) (by omega) (by linarith) (by linarith) (by omega)
        (by rw [hH]; push_cast; ring)]
      refine scaled_of (i := 2) (j := 1) (l := 0) (α := 3 - θ) ht hb (by decide) hbr hdk
        (by linarith) (by linarith) ?_ ?_ ?_
      · intro hg h
        omega
      · intro hg h
        have h1 : G = R := by omega
        have h2 : R < B := by omega
        have : θ = 2 := by
          rw [← hθ, h1, hueCos_rg' (r := (R : ℝ)) (b := B) (by exact_mod_cast h2), theta_neg_half]
        rw [this]; norm_num
      · intro x y z x0 x1 y0 y1 z0 z1 hx hy hz
        subst hx hy hz
        obtain ⟨q, hq, q0, q1, q2⟩ := pack_ok z0 z1 y0 y1 x0 x1
        exact ⟨q, hq, q2, q1, q0⟩
    have case4 : (G ≤ R ∧ R ≤ B) ∧ G < B → ∃ q, hsv2rgb ⟨(rgb2hsv p).c0, (rgb2hsv p).c1, t * (brightest p : ℝ)⟩ = .ok q ∧
        KeepsExtremes (fun n => ⌊t * n⌋₊) p q := by
      intro hc
      have t0 : 1 ≤ θ := hθ ▸ one_le_theta (hueCos_mid hne (mul_nonpos_of_nonneg_of_nonpos (sub_nonneg.2 (by exact_mod_cast hc.1.1)) (sub_nonpos.2 (by exact_mod_cast hc.1.2)))).2
      have t1 : θ ≤ 2 := hθ ▸ theta_le_two (hueCos_mid hne (mul_nonpos_of_nonneg_of_nonpos (sub_nonneg.2 (by exact_mod_cast hc.1.1)) (sub_nonpos.2 (by exact_mod_cast hc.1.2)))).1
      have hbr : chan p 2 = brightest p := brightest_eq (hf _ (by omega) (by omega) (by omega))
      have hdk : chan p 1 = darkest p := darkest_eq (hf _ (by omega) (by omega) (by omega))
      rw [if_neg (by omega)] at hH
      rw [hsv2rgb_sector (k := 4) (e := 2 - θ) (by omega) (by linarith) (by linarith) (by omega)
        (by rw [hH]; push_cast; ring)]
      refine scaled_of (i := 2) (j := 0) (l := 1) (α := 1 - (2 - θ)) ht hb (by decide) hbr hdk
        (by linarith) (by linarith) ?_ ?_ ?_
      · intro hg h
        have h1 : R = B := by omega
        have h2 : G < B := by omega
        have : θ = 1 := by
          rw [← hθ, h1, hueCos_rb (r := (B : ℝ)) (g := G) (by exact_mod_cast h2), theta_half]
        rw [this]; norm_num
      · intro hg h
        have h1 : R = G := by omega
        have h2 : G < B := by omega
        have : θ = 2 := by
          rw [← hθ, h1, hueCos_rg' (r := (G : ℝ)) (b := B) (by exact_mod_cast h2), theta_neg_half]
        rw [this]; norm_num
      · intro x y z x0 x1 y0 y1 z0 z1 hx hy hz
        subst hx hy hz
        obtain ⟨q, hq, q0, q1, q2⟩ := pack_ok y0 y1 z0 z1 x0 x1
        exact ⟨q, hq, q2, q0, q1⟩
    have case5 : G < B ∧ B ≤ R → ∃ q, hsv2rgb ⟨(rgb2hsv p).c0, (rgb2hsv p).c1, t * (brightest p : ℝ)⟩ = .ok q ∧
        KeepsExtremes (fun n => ⌊t * n⌋₊) p q := by
      intro hc
      have t0 : 0 ≤ θ := hθ ▸ theta_nonneg _
      have t1 : θ ≤ 1 := hθ ▸ theta_le_one (hueCos_max hne (by exact_mod_cast hc.1.le.trans hc.2) (by exact_mod_cast hc.2))
      have hbr : chan p 0 = brightest p := brightest_eq (hf _ (by omega) (by omega) (by omega))
      have hdk : chan p 1 = darkest p := darkest_eq (hf _ (by omega) (by omega) (by omega))
      rw [if_neg (by omega)] at hH
      have tp : 0 < θ := by
        rw [← hθ]
        refine theta_pos (hueCos_lt_one ?_)
        have : G ≠ B := by omega
        exact_mod_cast this
      rw [hsv2rgb_sector (k := 5) (e := 1 - θ) (by omega) (by linarith) (by linarith) (fun _ => by linarith)
        (by rw [hH]; push_cast; ring)]
      refine scaled_of (i := 0) (j := 2) (l := 1) (α := 1 - θ) ht hb (by decide) hbr hdk
        (by linarith) (by linarith) ?_ ?_ ?_
      · intro hg h
        have h1 : B = R := by omega
        have h2 : G < R := by omega
        have : θ = 1 := by
          rw [← hθ, h1, hueCos_rb (r := (R : ℝ)) (g := G) (by exact_mod_cast h2), theta_half]
        rw [this]; norm_num
      · intro hg h
        omega
      · intro x y z x0 x1 y0 y1 z0 z1 hx hy hz
        subst hx hy hz
        obtain ⟨q, hq, q0, q1, q2⟩ := pack_ok x0 x1 z0 z1 y0 y1
        exact ⟨q, hq, q0, q2, q1⟩
    rcases Nat.lt_or_ge G B with h | h
    · rcases Nat.lt_or_ge R G with h' | h'
      · exact case3 ⟨h'.le, h⟩
      · rcases Nat.lt_or_ge R B with h'' | h''
        · exact case4 ⟨⟨h', h''.le⟩, h⟩
        · exact case5 ⟨h, h''⟩
    · rcases Nat.lt_or_ge R G with h' | h'
      · rcases Nat.lt_or_ge R B with h'' | h''
        · exact case2 ⟨h''.le, h⟩
        · exact case1 ⟨h'', h'.le⟩
      · exact case0 ⟨h, h'⟩


/-! ### Whole images -/

theorem mapM_ok {α β : Type} (op : α → Res β) (f : α → β) (l : List α)
    (h : ∀ v ∈ l, op v = .ok (f v)) : l.mapM op = .ok (l.map f) := by
  induction l with
  | nil => rfl
  | cons a l ih =>
    rw [List.mapM_cons, h a (by simp), Res.ok_bind, ih fun v hv => h v (by simp [hv]), Res.ok_bind]
    rfl

theorem mapM_ub {α β : Type} (op : α → Res β) (l : List α)
    (h : ∀ v ∈ l, (∃ w, op v = .ok w) ∨ op v = .ub) (hu : ∃ v ∈ l, op v = .ub) :
    l.mapM op = .ub := by
  induction l with
  | nil => simp at hu
  | cons a l ih =>
    rw [List.mapM_cons]
    rcases h a (by simp) with ⟨w, hw⟩ | hw
    · rw [hw, Res.ok_bind, ih (fun v hv => h v (by simp [hv])) ?_, Res.ub_bind]
      obtain ⟨v, hv, e⟩ := hu
      rcases List.mem_cons.1 hv with rfl | hv
      · rw [hw] at e; simp at e
      · exact ⟨v, hv, e⟩
    · rw [hw, Res.ub_bind]

theorem convertAll_ok {α β : Type} {op : α → Res β} (f : α → β) {im : Image α} (wf : im.WF)
    (h0 : 0 < im.size.prod) (h : ∀ v ∈ im.data, op v = .ok (f v)) :
    convertAll op im = .ok ⟨im.size, im.data.map f⟩ := by
  rw [convertAll, mapM_ok op f _ h, Res.ok_bind]
  exact ofData_ok (by simpa using wf.len) wf.fits h0

theorem mem_of_at {α : Type} {im : Image α} (wf : im.WF) {idx : List Nat} {v : α}
    (h : im.at' idx = .ok v) : v ∈ im.data := by
  have hb := inBounds_of_at'_ok h
  rw [wf.at' hb] at h
  injection h with h
  rw [← h]
  exact List.getElem_mem _

theorem convertAll_pixelwise {α β : Type} {op : α → Res β} {im : Image α} (wf : im.WF)
    (h0 : 0 < im.size.prod) (h : ∀ v ∈ im.data, ∃ w, op v = .ok w) :
    ∃ out, convertAll op im = .ok out ∧ Pixelwise op im out := by
  classical
  have hne : im.data ≠ [] := by
    intro e
    have := wf.len
    rw [e] at this
    simp at this
    omega
  obtain ⟨v0, hv0⟩ := List.exists_mem_of_ne_nil _ hne
  obtain ⟨w0, -⟩ := h v0 hv0
  obtain ⟨f, hf⟩ : ∃ f : α → β, ∀ v ∈ im.data, op v = .ok (f v) := by
    refine ⟨fun v => if hv : ∃ w, op v = .ok w then hv.choose else w0, fun v hv => ?_⟩
    have := h v hv
    simp only [dif_pos this]
    exact this.choose_spec
  refine ⟨_, convertAll_ok f wf h0 hf, wf.map f, rfl, fun idx v hv => ?_⟩
  rw [wf.map_at f hv, hf v (mem_of_at wf hv)]

theorem toU8_cases (a : ℝ) : (∃ w, toU8 a = .ok w) ∨ toU8 a = .ub := by
  unfold toU8
  split_ifs
  · exact Or.inl ⟨_, rfl⟩
  · exact Or.inr rfl

theorem pack_cases (a b c : ℝ) : (∃ w, pack a b c = .ok w) ∨ pack a b c = .ub := by
  unfold pack
  rcases toU8_cases a with ⟨x, hx⟩ | hx <;> rcases toU8_cases b with ⟨y, hy⟩ | hy <;>
    rcases toU8_cases c with ⟨z, hz⟩ | hz <;> simp [hx, hy, hz]

theorem toU8_ub {a : ℝ} (h : 256 ≤ a) : toU8 a = .ub := if_neg (by push Not; intro; exact h)

theorem pack_ub {a b c : ℝ} (h : 256 ≤ a ∨ 256 ≤ b ∨ 256 ≤ c) : pack a b c = .ub := by
  unfold pack
  rcases h with h | h | h
  · rw [toU8_ub h]; rfl
  · rcases toU8_cases a with ⟨x, hx⟩ | hx <;> simp [hx, toU8_ub h]
  · rcases toU8_cases a with ⟨x, hx⟩ | hx <;> rcases toU8_cases b with ⟨y, hy⟩ | hy <;>
      simp [hx, hy, toU8_ub h]

theorem hsv2rgb_cases (p : Px3 ℝ) : (∃ w, hsv2rgb p = .ok w) ∨ hsv2rgb p = .ub := by
  unfold hsv2rgb
  rcases toU8_cases (⌊p.c0 / 60.0⌋ : ℝ) with ⟨x, hx⟩ | hx
  · simp only [hx, Res.ok_bind]
    split
    all_goals first | exact pack_cases _ _ _ | exact Or.inl ⟨_, rfl⟩
  · simp only [hx, Res.ub_bind]
    exact Or.inr trivial

/-- The hue of every pixel is at least 0 and below a full turn. -/
theorem hue_range (p : RGB) : 0 ≤ (rgb2hsv p).c0 / 60 ∧ (rgb2hsv p).c0 / 60 < 6 := by
  by_cases h : brightest p = darkest p
  · rw [rgb2hsv_hue, if_pos h]; norm_num
  · rw [hue_div p h]
    have t3 := theta_le_three (hueCos (chan p 0) (chan p 1) (chan p 2))
    have t0 := theta_nonneg (hueCos (chan p 0) (chan p 1) (chan p 2))
    by_cases hc : chan p 2 ≤ chan p 1
    · rw [if_pos hc]; constructor <;> linarith
    · rw [if_neg hc]
      have : (chan p 1 : ℝ) ≠ chan p 2 := by
        have : chan p 1 ≠ chan p 2 := by omega
        exact_mod_cast this
      have := theta_pos (hueCos_lt_one (r := (chan p 0 : ℝ)) this)
      constructor <;> linarith

theorem hsv2rgb_large {H S V : ℝ} (h0 : 0 ≤ H / 60) (h6 : H / 60 < 6) (hV : 256 ≤ V) :
    hsv2rgb ⟨H, S, V⟩ = .ub := by
  obtain ⟨k, hk⟩ : ∃ k, ⌊H / 60⌋₊ = k := ⟨_, rfl⟩
  have hk6 : k < 6 := by rw [← hk]; exact (Nat.floor_lt h0).2 (by exact_mod_cast h6)
  have hl : (k : ℝ) ≤ H / 60 := by rw [← hk]; exact Nat.floor_le h0
  have hu : H / 60 < k + 1 := by rw [← hk]; exact Nat.lt_floor_add_one _
  rw [hsv2rgb_lt hk6 (e := H / 60 - k) (by linarith) (by linarith) (by ring)]
  match k, hk6 with
  | 0, _ => exact pack_ub (Or.inl hV)
  | 1, _ => exact pack_ub (Or.inr (Or.inl hV))
  | 2, _ => exact pack_ub (Or.inr (Or.inl hV))
  | 3, _ => exact pack_ub (Or.inr (Or.inr hV))
  | 4, _ => exact pack_ub (Or.inr (Or.inr hV))
  | 5, _ => exact pack_ub (Or.inl hV)

/-! ### The grey-to-hue scale -/

/-- The colour of grey level `g`, in whole numbers. -/
def grayColour (g : Nat) : RGB :=
  let k := 6 * g / 256
  let r := 6 * g % 256
  let up := BitVec.ofNat 8 (255 * r / 256)
  let down := BitVec.ofNat 8 (255 * (256 - r) / 256)
  match k with
  | 0 => ⟨255, up, 0⟩
  | 1 => ⟨down, 255, 0⟩
  | 2 => ⟨0, 255, up⟩
  | 3 => ⟨0, down, 255⟩
  | 4 => ⟨up, 0, 255⟩
  | _ => ⟨255, 0, down⟩

theorem grayscale2RGB_eq (g : BitVec 8) : grayscale2RGB g = .ok (grayColour g.toNat) := by
  have hg := g.isLt
  obtain ⟨n, hn⟩ : ∃ n, g.toNat = n := ⟨_, rfl⟩
  rw [hn] at hg
  obtain ⟨k, hk⟩ : ∃ k, 6 * n / 256 = k := ⟨_, rfl⟩
  obtain ⟨r, hr⟩ : ∃ r, 6 * n % 256 = r := ⟨_, rfl⟩
  have hkr : 6 * n = 256 * k + r := by rw [← hk, ← hr]; exact (Nat.div_add_mod _ _).symm
  have hr256 : r < 256 := by rw [← hr]; exact Nat.mod_lt _ (by norm_num)
  have hk6 : k < 6 := by omega
  have hkr' : (6 : ℝ) * n = 256 * k + r := by exact_mod_cast hkr
  have hr' : (r : ℝ) < 256 := by exact_mod_cast hr256
  have hr0 : (0 : ℝ) ≤ r := Nat.cast_nonneg r
  unfold grayscale2RGB
  rw [hn]
  have e1 : (1.0 : ℝ) = 1 := by norm_num
  have e2 : (255.0 : ℝ) = ((255 : Nat) : ℝ) := by norm_num
  rw [e1, hsv2rgb_lt hk6 (e := (r : ℝ) / 256) (by positivity) (by
    rw [div_lt_one (by norm_num)]; exact hr') (by
      norm_num
      linarith)]
  have hup : (255.0 : ℝ) * (1 - (1 - (r : ℝ) / 256) * 1) = ((255 * r : Nat) : ℝ) / ((256 : Nat) : ℝ) := by
    push_cast; norm_num; ring
  have hdn : (255.0 : ℝ) * (1 - (r : ℝ) / 256 * 1) = ((255 * (256 - r) : Nat) : ℝ) / ((256 : Nat) : ℝ) := by
    rw [Nat.cast_mul, Nat.cast_sub hr256.le]; push_cast; norm_num; ring
  have h0 : (255.0 : ℝ) * (1 - 1) = ((0 : Nat) : ℝ) := by norm_num
  have u1 : toU8 ((255.0 : ℝ) * (1 - (1 - (r : ℝ) / 256) * 1)) = .ok (BitVec.ofNat 8 (255 * r / 256)) := by
    rw [hup, (toU8_ok (by positivity) ?_).1, Nat.floor_div_eq_div]
    rw [div_lt_iff₀ (by norm_num)]
    push_cast
    linarith
  have u2 : toU8 ((255.0 : ℝ) * (1 - (r : ℝ) / 256 * 1)) = .ok (BitVec.ofNat 8 (255 * (256 - r) / 256)) := by
    rw [hdn, (toU8_ok (by positivity) ?_).1, Nat.floor_div_eq_div]
    rw [div_lt_iff₀ (by norm_num)]
    norm_cast
    omega
  have u3 : toU8 (255.0 : ℝ) = .ok 255 := by rw [e2, toU8_nat (by norm_num)]; rfl
  have u4 : toU8 ((255.0 : ℝ) * (1 - 1)) = .ok 0 := by rw [h0, toU8_nat (by norm_num)]; rfl
  unfold grayColour
  simp only [hk, hr]
  match k, hk6 with
  | 0, _ => simp only [sextant, pack, u1, u2, u3, u4, Res.ok_bind]
  | 1, _ => simp only [sextant, pack, u1, u2, u3, u4, Res.ok_bind]
  | 2, _ => simp only [sextant, pack, u1, u2, u3, u4, Res.ok_bind]
  | 3, _ => simp only [sextant, pack, u1, u2, u3, u4, Res.ok_bind]
  | 4, _ => simp only [sextant, pack, u1, u2, u3, u4, Res.ok_bind]
  | 5, _ => simp only [sextant, pack, u1, u2, u3, u4, Res.ok_bind]

/-- The hue of the pixel `(252, 63, 0)` is less than a quarter of the way round the first sextant. -/
theorem theta_orange : theta (hueCos 252 63 0) < 1 / 4 := by
  have hc : Real.cos (Real.pi / 12) < hueCos 252 63 0 := by
    unfold hueCos
    have hQ : (0 : ℝ) < (252 - 63) ^ 2 + (252 - 0) * (63 - 0) := by norm_num
    rw [lt_div_iff₀ (Real.sqrt_pos.2 hQ)]
    refine lt_of_pow_lt_pow_left₀ 2 (by norm_num) ?_
    rw [mul_pow, Real.sq_sqrt hQ.le, Real.cos_sq, show 2 * (Real.pi / 12) = Real.pi / 6 by ring,
      Real.cos_pi_div_six]
    have h3 : Real.sqrt 3 < 1.7321 := by
      rw [Real.sqrt_lt' (by norm_num)]; norm_num
    norm_num at h3 ⊢
    linarith
  have hle : hueCos 252 63 0 ≤ 1 := (hueCos_lt_one (r := (252 : ℝ)) (g := 63) (b := 0) (by norm_num)).le
  have hlt := Real.strictAntiOn_arccos ⟨Real.neg_one_le_cos _, Real.cos_le_one _⟩
    ⟨(Real.neg_one_le_cos _).trans hc.le, hle⟩ hc
  rw [Real.arccos_cos (by positivity) (by linarith [Real.pi_pos])] at hlt
  unfold theta
  rw [div_lt_iff₀ Real.pi_pos]
  linarith

end TinyDIP.Color
