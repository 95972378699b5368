import Verif.Model.HueFlt
import Verif.Props.Rounded
import Verif.Props.Color

/-!
# Property theorems: grey levels as hues in floating arithmetic (C209)
-/

namespace TinyDIP.Props

open TinyDIP Image Rnd Color

/-! ## C209 -/

theorem fl_eighth {p : Nat} (hp : 53 ≤ p) {a : Nat} (ha : a ≤ 2 ^ 53) : fl p ((a : ℝ) / 128) = a / 128 := by
  have e : (a : ℝ) / 128 = (a : ℝ) * (2 : ℝ) ^ (-7 : ℤ) := by norm_num [div_eq_mul_inv]
  rw [e]
  exact fl_of_rep (by omega) ((rep_nat (ha.trans (Nat.pow_le_pow_right (by norm_num) hp))).mul_pow _)

/-- `Grayscale2RGB` in floating arithmetic (`double`, and `long double` of any precision from that of `double`): every
grey level is turned into a colour with brightest channel 255 and darkest channel 0, different grey levels into
different colours, and the colours are those of exact arithmetic. -/
theorem C209_levels (p : Nat) (hp : 53 ≤ p) :
    ∃ colour : BitVec 8 → RGB, Function.Injective colour ∧ ∀ g, grayscale2RGBD p g = .ok (colour g) ∧
      grayscale2RGB g = .ok (colour g) ∧ brightest (colour g) = 255 ∧ darkest (colour g) = 0 := by
  have key : ∀ g, grayscale2RGBD p g = grayscale2RGB g := by
    intro g
    have hg := g.isLt
    unfold grayscale2RGBD grayscale2RGB
    generalize g.toNat = n at hg
    have d1 : dbl ((n : ℝ) / 256) = n / 256 := by
      have e : (n : ℝ) / 256 = (n : ℝ) * (2 : ℝ) ^ (-8 : ℤ) := by norm_num [div_eq_mul_inv]
      rw [e]
      exact fl_of_rep (by norm_num) ((rep_nat (by omega)).mul_pow _)
    have d2 : dbl ((n : ℝ) / 256 * 360) = n / 256 * 360 := by
      have e : (n : ℝ) / 256 * 360 = ((n * 45 : Nat) : ℝ) * (2 : ℝ) ^ (-5 : ℤ) := by push_cast; norm_num; ring
      rw [e]
      exact fl_of_rep (by norm_num) ((rep_nat (by omega)).mul_pow _)
    rw [d1, d2]
    have hH : (n : ℝ) / 256 * 360 / 60 = ((3 * n : Nat) : ℝ) / 128 := by push_cast; ring
    have hf : ⌊((3 * n : Nat) : ℝ) / 128⌋ = ((3 * n / 128 : Nat) : ℤ) := by
      rw [Int.floor_eq_iff]
      have h1 := Nat.div_mul_le_self (3 * n) 128
      have h2 := Nat.lt_div_mul_add (by norm_num : 0 < 128) (a := 3 * n)
      constructor
      · rw [le_div_iff₀ (by norm_num)]; exact_mod_cast h1
      · rw [div_lt_iff₀ (by norm_num), add_mul, one_mul]; exact_mod_cast h2
    have hk := Nat.div_add_mod (3 * n) 128
    have hlt := Nat.mod_lt (3 * n) (by norm_num : 0 < 128)
    set k := 3 * n % 128 with hkd
    have hi : 3 * n / 128 < 256 := by omega
    have fe : ((3 * n : Nat) : ℝ) / 128 - ((3 * n / 128 : Nat) : ℝ) = (k : ℝ) / 128 := by
      have : ((3 * n : Nat) : ℝ) = 128 * ((3 * n / 128 : Nat) : ℝ) + k := by exact_mod_cast hk.symm
      rw [this]; ring
    have one_sub : (1 : ℝ) - (k : ℝ) / 128 = ((128 - k : Nat) : ℝ) / 128 := by
      rw [Nat.cast_sub hlt.le]; push_cast; ring
    have sub_one : (1 : ℝ) - ((128 - k : Nat) : ℝ) / 128 = (k : ℝ) / 128 := by
      rw [← one_sub]; ring
    have big : ∀ a : Nat, (255 : ℝ) * ((a : ℝ) / 128) = ((255 * a : Nat) : ℝ) / 128 := by intro a; push_cast; ring
    have bn : ((BitVec.ofNat 8 (3 * n / 128)).toNat) = 3 * n / 128 := by
      rw [BitVec.toNat_ofNat]; exact Nat.mod_eq_of_lt hi
    unfold hsv2rgbD hsv2rgb
    simp only
    rw [show (60.0 : ℝ) = 60 by norm_num, show (256.0 : ℝ) = 256 by norm_num, show (1.0 : ℝ) = 1 by norm_num,
      show (255.0 : ℝ) = 255 by norm_num, hH, fl_eighth hp (by omega), hf, Int.cast_natCast, toU8_nat hi]
    simp only [Res.ok_bind, bn]
    rw [fe, fl_eighth hp (by omega), mul_one, mul_one, mul_one, fl_eighth hp (by omega), one_sub, fl_eighth hp (by omega),
      sub_self, fl_zero, mul_zero, fl_zero, fl_eighth (a := 128 - k) hp (by omega), sub_one,
      fl_eighth (a := k) hp (by omega), big k, big (128 - k),
      fl_eighth (a := 255 * k) hp (by omega), fl_eighth (a := 255 * (128 - k)) hp (by omega)]
    rfl
  have hv := fun g => C104_vivid g
  choose c hc h1 h2 using hv
  refine ⟨c, fun a b hab => C104_injective a b (by rw [hc, hc, hab]), fun g => ⟨by rw [key, hc], hc g, h1 g, h2 g⟩⟩

example := C209_levels 53 (le_refl _)
example := C209_levels 64 (by norm_num)

/-- Whole pictures, pixel by pixel. -/
theorem C209_image (p : Nat) (hp : 53 ≤ p) (im : Image (BitVec 8)) (wf : im.WF) (h0 : 0 < im.size.prod) :
    ∃ out, grayscale2RGBImageD p im = .ok out ∧ out.WF ∧ out.size = im.size ∧
      ∀ idx g, im.at' idx = .ok g → ∃ q, out.at' idx = .ok q ∧ grayscale2RGB g = .ok q := by
  obtain ⟨c, -, h⟩ := C209_levels p hp
  obtain ⟨out, e2, w2, s2, p2⟩ := convertAll_pixelwise (op := grayscale2RGBD p) wf h0 fun g _ => ⟨_, (h g).1⟩
  exact ⟨out, e2, w2, s2, fun idx g hg => ⟨c g, by rw [p2 idx g hg, (h g).1], (h g).2.1⟩⟩

example := C209_image 64 (by norm_num) (picture 3 2 fun x y => BitVec.ofNat 8 (100 * x + y)) (picture_wf ..) (by decide)

end TinyDIP.Props
