import Verif.Model.IntensityFlt
import Verif.Props.Rounded
import Verif.Props.Color

/-!
# Property theorems: brightening in floating arithmetic (C211)

Full statement of C211: with every operation rounded to `double` or `long double`, `increase_intensity` multiplies the
brightest and the darkest channel of every pixel by the factor and cuts off the part after the whole number.

What is missing: the darkest channel is cut off after roundings of the whole computation, so that it can be one too
small even for the factor one.
-/

namespace TinyDIP.Props

open TinyDIP Image Rnd Color

/-! ## C211 -/

theorem chan_between_real {p : Nat} (hp : 53 ≤ p) {V S e : ℝ} (hV : Rep 53 V) (hV0 : 0 ≤ V) (hS : Rep 53 S) (hS1 : S ≤ 1)
    (hS0 : 0 ≤ S) (he0 : 0 ≤ e) (he1 : e ≤ 1) :
    fl p (V * fl p (1 - S)) ≤ fl p (V * fl p (1 - fl p (e * S))) ∧
      fl p (V * fl p (1 - fl p (e * S))) ≤ V ∧ 0 ≤ fl p (V * fl p (1 - S)) := by
  have hpp : 1 ≤ p := by omega
  have a1 : fl p (e * S) ≤ S := by
    have := fl_mono (p := p) hpp (show e * S ≤ S by nlinarith)
    rwa [fl_of_rep53 hp hS] at this
  have a0 : 0 ≤ fl p (e * S) := fl_nonneg (mul_nonneg he0 hS0)
  have b := one_sub_fl hp a0 (a1.trans hS1)
  have c := one_sub_fl hp hS0 hS1
  refine ⟨fl_mono hpp (mul_le_mul_of_nonneg_left (fl_mono hpp (by linarith)) hV0), ?_, ?_⟩
  · have := fl_mono (p := p) hpp (show V * fl p (1 - fl p (e * S)) ≤ V by nlinarith [b.2])
    rwa [fl_of_rep53 hp hV] at this
  · exact fl_nonneg (mul_nonneg hV0 c.1)

/-- `hsv2rgb` of a colour with value `V`: the brightest and the darkest channel. -/
theorem hsv2rgbD_value {p : Nat} (hp : 53 ≤ p) {V S H : ℝ} (hV : Rep 53 V) (hV0 : 0 ≤ V) (hV1 : V < 256) (hS : Rep 53 S)
    (hS0 : 0 ≤ S) (hS1 : S ≤ 1) (h0 : 0 ≤ H) (h1 : H ≤ 360 - 1 / 2 ^ 10) :
    ∃ q, hsv2rgbD p ⟨H, S, V⟩ = .ok q ∧ brightest q = ⌊V⌋₊ ∧ darkest q = ⌊fl p (V * fl p (1 - S))⌋₊ := by
  have hpp : 1 ≤ p := by omega
  have hpow : 2 ^ 53 ≤ 2 ^ p := Nat.pow_le_pow_right (by norm_num) hp
  set u := fl p (H / 60) with hu
  have u0 : 0 ≤ u := fl_nonneg (by positivity)
  have u6 : u < 6 := by
    have hr : Rep 53 ((6 * 2 ^ 17 - 1 : ℤ) * (2 : ℝ) ^ (-17 : ℤ)) := ⟨6 * 2 ^ 17 - 1, -17, by norm_num, rfl⟩
    have := fl_mono (p := p) hpp (show H / 60 ≤ ((6 * 2 ^ 17 - 1 : ℤ) * (2 : ℝ) ^ (-17 : ℤ)) by
      norm_num; norm_num at h1; linarith)
    rw [fl_of_rep53 hp hr] at this
    refine lt_of_le_of_lt this ?_
    norm_num
  have hfl : ⌊u⌋₊ < 6 := (Nat.floor_lt u0).2 (by exact_mod_cast u6)
  have hint : ((⌊u⌋ : ℤ) : ℝ) = ((⌊u⌋₊ : Nat) : ℝ) := (natCast_floor_eq_intCast_floor u0).symm
  have e1 : toU8 ((⌊u⌋ : ℤ) : ℝ) = .ok (BitVec.ofNat 8 ⌊u⌋₊) := by
    rw [hint]; exact toU8_nat (by omega)
  have e2 : (BitVec.ofNat 8 ⌊u⌋₊).toNat = ⌊u⌋₊ := by
    rw [BitVec.toNat_ofNat]; exact Nat.mod_eq_of_lt (by omega)
  have one : fl p 1 = 1 := by simpa using fl_nat (p := p) (n := 1) hpp (by omega)
  have f0 : 0 ≤ fl p (u - (⌊u⌋₊ : Nat)) := fl_nonneg (by linarith [Nat.floor_le u0])
  have f1 : fl p (u - (⌊u⌋₊ : Nat)) ≤ 1 := by
    have := fl_mono (p := p) hpp (show u - (⌊u⌋₊ : Nat) ≤ 1 by linarith [Nat.lt_floor_add_one u])
    rwa [one] at this
  obtain ⟨g0, g1⟩ := one_sub_fl hp f0 f1
  obtain ⟨q1, q2, q0⟩ := chan_between_real hp hV hV0 hS hS1 hS0 f0 f1
  obtain ⟨t1, t2, -⟩ := chan_between_real hp hV hV0 hS hS1 hS0 g0 g1
  simp only [hsv2rgbD, ← hu, e1, Res.ok_bind, e2]
  set mn := fl p (V * fl p (1 - S)) with hmn
  set qq := fl p (V * fl p (1 - fl p (fl p (u - (⌊u⌋₊ : Nat)) * S))) with hqq
  set tt := fl p (V * fl p (1 - fl p (fl p (1 - fl p (u - (⌊u⌋₊ : Nat))) * S))) with htt
  have fq1 := Nat.floor_le_floor q1
  have ft1 := Nat.floor_le_floor t1
  have fq2 := Nat.floor_le_floor q2
  have ft2 := Nat.floor_le_floor t2
  obtain h | h | h | h | h | h : ⌊u⌋₊ = 0 ∨ ⌊u⌋₊ = 1 ∨ ⌊u⌋₊ = 2 ∨ ⌊u⌋₊ = 3 ∨ ⌊u⌋₊ = 4 ∨ ⌊u⌋₊ = 5 := by omega
  all_goals rw [h]
  · obtain ⟨q, e, c0, c1, c2⟩ := pack_ok hV0 hV1 (q0.trans t1) (t2.trans_lt hV1) q0 ((t1.trans t2).trans_lt hV1)
    exact ⟨q, e, by unfold brightest; rw [c0, c1, c2]; omega, by unfold darkest; rw [c0, c1, c2]; omega⟩
  · obtain ⟨q, e, c0, c1, c2⟩ := pack_ok (q0.trans q1) (q2.trans_lt hV1) hV0 hV1 q0 ((t1.trans t2).trans_lt hV1)
    exact ⟨q, e, by unfold brightest; rw [c0, c1, c2]; omega, by unfold darkest; rw [c0, c1, c2]; omega⟩
  · obtain ⟨q, e, c0, c1, c2⟩ := pack_ok q0 ((t1.trans t2).trans_lt hV1) hV0 hV1 (q0.trans t1) (t2.trans_lt hV1)
    exact ⟨q, e, by unfold brightest; rw [c0, c1, c2]; omega, by unfold darkest; rw [c0, c1, c2]; omega⟩
  · obtain ⟨q, e, c0, c1, c2⟩ := pack_ok q0 ((t1.trans t2).trans_lt hV1) (q0.trans q1) (q2.trans_lt hV1) hV0 hV1
    exact ⟨q, e, by unfold brightest; rw [c0, c1, c2]; omega, by unfold darkest; rw [c0, c1, c2]; omega⟩
  · obtain ⟨q, e, c0, c1, c2⟩ := pack_ok (q0.trans t1) (t2.trans_lt hV1) q0 ((t1.trans t2).trans_lt hV1) hV0 hV1
    exact ⟨q, e, by unfold brightest; rw [c0, c1, c2]; omega, by unfold darkest; rw [c0, c1, c2]; omega⟩
  · obtain ⟨q, e, c0, c1, c2⟩ := pack_ok hV0 hV1 q0 ((t1.trans t2).trans_lt hV1) (q0.trans q1) (q2.trans_lt hV1)
    exact ⟨q, e, by unfold brightest; rw [c0, c1, c2]; omega, by unfold darkest; rw [c0, c1, c2]; omega⟩

/-- How far the darkest channel, before the cut, can be from the factor times the darkest channel. -/
theorem darkest_scaled {p : Nat} (hp : 53 ≤ p) {M m : Nat} (hm : m ≤ M) {t : ℝ} (ht : 0 ≤ t)
    (hV : dbl (M * t) < 256) :
    |fl p (dbl (M * t) * fl p (1 - satD M m)) - t * m| ≤ 1 / 2 ^ 42 := by
  obtain ⟨-, s0, s1, s2⟩ := satD_spec hm
  rcases Nat.eq_zero_or_pos M with h | h
  · have : m = 0 := by omega
    subst this h
    simp [fl_zero, dbl_zero]
  have s2 := s2 h
  have hM0 : (0 : ℝ) < M := by exact_mod_cast h
  have he := eps_pos
  have hMt : 0 ≤ (M : ℝ) * t := mul_nonneg hM0.le ht
  set V := dbl (M * t) with hVd
  have hV0 : 0 ≤ V := dbl_nonneg hMt
  have eV := dbl_err ((M : ℝ) * t)
  rw [abs_of_nonneg hMt, ← hVd] at eV
  have hMt2 : (M : ℝ) * t ≤ 257 := by
    have := (abs_le.1 eV).1
    have h2 : eps ≤ 1 / 2 ^ 10 := by unfold eps; norm_num
    nlinarith
  have c := one_sub_fl hp s0 s1
  have e1 := fl53_err hp (1 - satD M m)
  rw [abs_of_nonneg (show 0 ≤ 1 - satD M m by linarith)] at e1
  have hv0 : 0 ≤ V * fl p (1 - satD M m) := mul_nonneg hV0 c.1
  have e2 := fl53_err hp (V * fl p (1 - satD M m))
  rw [abs_of_nonneg hv0] at e2
  have e1' : eps * (1 - satD M m) ≤ eps := by nlinarith
  have hmid : |fl p (1 - satD M m) - (m : ℝ) / M| ≤ 3 * eps := by
    rw [abs_le] at *
    constructor <;> linarith [e1.1, e1.2, s2.1, s2.2]
  have hq0 : 0 ≤ (m : ℝ) / M := by positivity
  have hq1 : (m : ℝ) / M ≤ 1 := by rw [div_le_one hM0]; exact_mod_cast hm
  have em : t * m = (M * t) * ((m : ℝ) / M) := by field_simp
  have hmul : |V * fl p (1 - satD M m) - t * m| ≤ 256 * (3 * eps) + eps * 257 := by
    have : V * fl p (1 - satD M m) - t * m = V * (fl p (1 - satD M m) - (m : ℝ) / M) + (V - M * t) * ((m : ℝ) / M) := by
      rw [em]; ring
    rw [this]
    refine (abs_add_le _ _).trans (add_le_add ?_ ?_)
    · rw [abs_mul, abs_of_nonneg hV0]
      exact mul_le_mul hV.le hmid (abs_nonneg _) (by norm_num)
    · rw [abs_mul, abs_of_nonneg hq0]
      have : |V - M * t| ≤ eps * 257 := eV.trans (mul_le_mul_of_nonneg_left hMt2 he.le)
      nlinarith [abs_nonneg (V - M * t)]
  have e2' : eps * (V * fl p (1 - satD M m)) ≤ eps * 256 := by
    refine mul_le_mul_of_nonneg_left ?_ he.le
    nlinarith [c.2]
  have small : 256 * (3 * eps) + eps * 257 + eps * 256 ≤ 1 / 2 ^ 42 := by unfold eps; norm_num
  rw [abs_le] at hmul e2 ⊢
  constructor <;> linarith [hmul.1, hmul.2, e2.1, e2.2]

theorem increaseIntensityD_eq (acos : ℝ → ℝ) (p : Nat) (im : Image RGB) (wf : im.WF) (h0 : 0 < im.size.prod) (t : ℝ) :
    increaseIntensityD acos p im t = convertAll (hsv2rgbD p) ⟨im.size, im.data.map fun px =>
      (⟨(rgb2hsvD acos px).c0, (rgb2hsvD acos px).c1, dbl ((rgb2hsvD acos px).c2 * t)⟩ : Px3 ℝ)⟩ := by
  have e1 : convertAll (fun px => .ok (rgb2hsvD acos px)) im = .ok ⟨im.size, im.data.map (rgb2hsvD acos)⟩ :=
    convertAll_ok (rgb2hsvD acos) wf h0 fun v _ => rfl
  have wf' := wf.map (rgb2hsvD acos)
  have hr : (List.range (⟨im.size, im.data.map (rgb2hsvD acos)⟩ : Image (Px3 ℝ)).count).Perm
      (List.range (im.data.map (rgb2hsvD acos)).length) := by rw [wf'.count]
  have p0 := getPlaneOrd_ok (0 : ℝ) _ wf' h0 0 Px3.c0 (fun _ => rfl) _ hr
  have p1 := getPlaneOrd_ok (0 : ℝ) _ wf' h0 1 Px3.c1 (fun _ => rfl) _ hr
  have p2 := getPlaneOrd_ok (0 : ℝ) _ wf' h0 2 Px3.c2 (fun _ => rfl) _ hr
  have wv := wf'.map Px3.c2
  have m := C09_multiplies_scalar (fun a b => dbl (a * b)) (0 : ℝ) t _ wv h0
  rw [pixelwiseTransform_ok _ wv h0] at m
  have c := constructPx3Ord_ok (0 : ℝ) im.size (im.data.map fun px =>
    (⟨(rgb2hsvD acos px).c0, (rgb2hsvD acos px).c1, dbl ((rgb2hsvD acos px).c2 * t)⟩ : Px3 ℝ)) (by simpa using wf.len)
    wf.fits h0 (List.range im.data.length) (by simp)
  simp only [List.map_map] at c m
  unfold increaseIntensityD
  rw [e1, Res.ok_bind, getPlane, p0, Res.ok_bind, getPlane, p1, Res.ok_bind, getPlane, p2, Res.ok_bind]
  simp only [List.map_map]
  rw [m, Res.ok_bind, constructPx3, Image.count, prodW_of_lt wf.fits, ← wf.len]
  erw [c]
  rfl

/-- As long as no product of the factor and a brightest channel, rounded, reaches 256: the brightest channel of every
pixel becomes that product, cut off after the whole number, and the darkest channel a number at most `1 / 2 ^ 42` away
from the factor times the darkest channel, cut off after the whole number.
Missing: the darkest channel exactly, see `C211_one_violation`, and larger products, see `C211_overflow_violation`. -/
theorem C211_levels_partial (acos : ℝ → ℝ) (ha : GoodAcos (dbl Real.pi) acos) (p : Nat) (hp : 53 ≤ p) (im : Image RGB)
    (wf : im.WF) (h0 : 0 < im.size.prod) (t : ℝ) (ht : 0 ≤ t) (hfit : ∀ px ∈ im.data, fl 53 (brightest px * t) < 256) :
    ∃ out, increaseIntensityD acos p im t = .ok out ∧ out.WF ∧ out.size = im.size ∧
      ∀ idx px, im.at' idx = .ok px → ∃ q, out.at' idx = .ok q ∧ brightest q = ⌊fl 53 (brightest px * t)⌋₊ ∧
        ∃ x : ℝ, |x - t * darkest px| ≤ 1 / 2 ^ 42 ∧ darkest q = ⌊x⌋₊ := by
  have key : ∀ px : RGB, fl 53 (brightest px * t) < 256 →
      ∃ q, hsv2rgbD p ⟨(rgb2hsvD acos px).c0, (rgb2hsvD acos px).c1, dbl ((rgb2hsvD acos px).c2 * t)⟩ = .ok q ∧
        brightest q = ⌊fl 53 (brightest px * t)⌋₊ ∧ ∃ x : ℝ, |x - t * darkest px| ≤ 1 / 2 ^ 42 ∧ darkest q = ⌊x⌋₊ := by
    intro px hpx
    obtain ⟨e1, e2, r0, r1⟩ := rgb2hsvD_range ha px
    obtain ⟨sr, s0, s1, -⟩ := satD_spec (darkest_le px)
    rw [e1, e2]
    have hV0 : 0 ≤ dbl ((brightest px : ℝ) * t) := dbl_nonneg (mul_nonneg (by positivity) ht)
    obtain ⟨q, hq, hb, hd⟩ := hsv2rgbD_value hp (dbl_rep _) hV0 hpx sr s0 s1 r0 (r1.trans (by norm_num))
    exact ⟨q, hq, hb, _, darkest_scaled hp (darkest_le px) ht hpx, hd⟩
  rw [increaseIntensityD_eq acos p im wf h0 t]
  have wf' := wf.map fun px =>
    (⟨(rgb2hsvD acos px).c0, (rgb2hsvD acos px).c1, dbl ((rgb2hsvD acos px).c2 * t)⟩ : Px3 ℝ)
  obtain ⟨out, e2, w2, s2, p2⟩ := convertAll_pixelwise (op := hsv2rgbD p) wf' h0 (by
    intro v hv
    obtain ⟨px, hpx, rfl⟩ := List.mem_map.1 hv
    obtain ⟨q, hq, -⟩ := key px (hfit px hpx)
    exact ⟨q, hq⟩)
  refine ⟨out, e2, w2, s2, fun idx px hpx => ?_⟩
  obtain ⟨q, hq, hk⟩ := key px (hfit px (mem_of_at wf hpx))
  exact ⟨q, by rw [p2 idx _ (wf.map_at _ hpx), ← hq], hk⟩

example := C211_levels_partial (fun x => dbl (Real.arccos x)) goodAcos_rounded 64 (by norm_num)
  ⟨[2, 1], [⟨100, 50, 20⟩, ⟨0, 3, 120⟩]⟩ ⟨rfl, by decide, by decide⟩ (by decide) 2 (by norm_num) (by
    have a : brightest ⟨100, 50, 20⟩ = 100 := by decide
    have b : brightest ⟨0, 3, 120⟩ = 120 := by decide
    have f : ∀ n : Nat, n ≤ 120 → fl 53 ((n : ℝ) * 2) < 256 := by
      intro n hn
      rw [show (n : ℝ) * 2 = ((n * 2 : Nat) : ℝ) by push_cast; ring, fl_nat (by norm_num) (by omega)]
      exact_mod_cast (by omega : n * 2 < 256)
    intro p hp
    simp only [List.mem_cons, List.not_mem_nil, or_false] at hp
    rcases hp with rfl | rfl
    · rw [a]; exact f 100 (by norm_num)
    · rw [b]; exact f 120 (by norm_num))

/-- Even the factor one changes a picture: (3, 1, 1) becomes (3, 0, 0), whatever the precision of `long double`, if the
arc cosine of 1 is 0. -/
theorem C211_one_violation (acos : ℝ → ℝ) (ha : acos 1 = 0) (p : Nat) (hp : 53 ≤ p) :
    increaseIntensityD acos p ⟨[1, 1], [⟨3, 1, 1⟩]⟩ 1 = .ok ⟨[1, 1], [⟨3, 0, 0⟩]⟩ := by
  rw [increaseIntensityD_eq acos p _ ⟨rfl, by decide, by decide⟩ (by decide)]
  have e : (⟨(rgb2hsvD acos ⟨3, 1, 1⟩).c0, (rgb2hsvD acos ⟨3, 1, 1⟩).c1,
      dbl ((rgb2hsvD acos ⟨3, 1, 1⟩).c2 * 1)⟩ : Px3 ℝ) = rgb2hsvD acos ⟨3, 1, 1⟩ := by
    have h3 : (rgb2hsvD acos ⟨3, 1, 1⟩).c2 = ((3 : Nat) : ℝ) := by
      change ((brightest ⟨3, 1, 1⟩ : Nat) : ℝ) = _
      rw [show brightest ⟨3, 1, 1⟩ = 3 by decide]
    have hd : dbl ((rgb2hsvD acos ⟨3, 1, 1⟩).c2 * 1) = (rgb2hsvD acos ⟨3, 1, 1⟩).c2 := by
      rw [mul_one, h3, dbl_nat (by norm_num)]
    rw [hd]
  simp only [List.map_cons, List.map_nil, e]
  unfold convertAll
  simp only [List.mapM_cons, List.mapM_nil, C153_roundtrip_violation acos ha p hp, Res.ok_bind]
  rfl

theorem hsv2rgbD_cases (p : Nat) (x : Px3 ℝ) : (∃ w, hsv2rgbD p x = .ok w) ∨ hsv2rgbD p x = .ub := by
  unfold hsv2rgbD
  rcases toU8_cases (⌊fl p (x.c0 / 60)⌋ : ℝ) with ⟨y, hy⟩ | hy
  · simp only [hy, Res.ok_bind]
    split
    all_goals first | exact pack_cases _ _ _ | exact Or.inl ⟨_, rfl⟩
  · simp only [hy, Res.ub_bind]
    exact Or.inr trivial

theorem hsv2rgbD_large {p : Nat} (hp : 53 ≤ p) {V S H : ℝ} (hV : 256 ≤ V) (h0 : 0 ≤ H) (h1 : H ≤ 360 - 1 / 2 ^ 10) :
    hsv2rgbD p ⟨H, S, V⟩ = .ub := by
  have hpp : 1 ≤ p := by omega
  set u := fl p (H / 60) with hu
  have u0 : 0 ≤ u := fl_nonneg (by positivity)
  have u6 : u < 6 := by
    have hr : Rep 53 ((6 * 2 ^ 17 - 1 : ℤ) * (2 : ℝ) ^ (-17 : ℤ)) := ⟨6 * 2 ^ 17 - 1, -17, by norm_num, rfl⟩
    have := fl_mono (p := p) hpp (show H / 60 ≤ ((6 * 2 ^ 17 - 1 : ℤ) * (2 : ℝ) ^ (-17 : ℤ)) by
      norm_num; norm_num at h1; linarith)
    rw [fl_of_rep53 hp hr] at this
    refine lt_of_le_of_lt this ?_
    norm_num
  have hfl : ⌊u⌋₊ < 6 := (Nat.floor_lt u0).2 (by exact_mod_cast u6)
  have hint : ((⌊u⌋ : ℤ) : ℝ) = ((⌊u⌋₊ : Nat) : ℝ) := (natCast_floor_eq_intCast_floor u0).symm
  have e1 : toU8 ((⌊u⌋ : ℤ) : ℝ) = .ok (BitVec.ofNat 8 ⌊u⌋₊) := by
    rw [hint]; exact toU8_nat (by omega)
  have e2 : (BitVec.ofNat 8 ⌊u⌋₊).toNat = ⌊u⌋₊ := by
    rw [BitVec.toNat_ofNat]; exact Nat.mod_eq_of_lt (by omega)
  simp only [hsv2rgbD, ← hu, e1, Res.ok_bind, e2]
  obtain h | h | h | h | h | h : ⌊u⌋₊ = 0 ∨ ⌊u⌋₊ = 1 ∨ ⌊u⌋₊ = 2 ∨ ⌊u⌋₊ = 3 ∨ ⌊u⌋₊ = 4 ∨ ⌊u⌋₊ = 5 := by omega
  all_goals rw [h]
  · exact pack_ub (Or.inl hV)
  · exact pack_ub (Or.inr (Or.inl hV))
  · exact pack_ub (Or.inr (Or.inl hV))
  · exact pack_ub (Or.inr (Or.inr hV))
  · exact pack_ub (Or.inr (Or.inr hV))
  · exact pack_ub (Or.inl hV)

/-- Whenever the product of the factor and the brightest channel of some pixel, rounded, reaches 256, the behaviour is
undefined, instead of the value being clipped to 255. -/
theorem C211_overflow_violation (acos : ℝ → ℝ) (ha : GoodAcos (dbl Real.pi) acos) (p : Nat) (hp : 53 ≤ p) (im : Image RGB)
    (wf : im.WF) (t : ℝ) (hbad : ∃ px ∈ im.data, 256 ≤ fl 53 (brightest px * t)) :
    increaseIntensityD acos p im t = .ub := by
  have h0 : 0 < im.size.prod := by
    obtain ⟨px, hpx, -⟩ := hbad
    rw [← wf.len]
    exact List.length_pos_of_mem hpx
  rw [increaseIntensityD_eq acos p im wf h0 t, convertAll, mapM_ub, Res.ub_bind]
  · exact fun v _ => hsv2rgbD_cases p v
  · obtain ⟨px, hpx, h⟩ := hbad
    refine ⟨_, List.mem_map.2 ⟨px, hpx, rfl⟩, ?_⟩
    obtain ⟨-, e2, r0, r1⟩ := rgb2hsvD_range ha px
    refine hsv2rgbD_large hp ?_ r0 (r1.trans (by norm_num))
    rw [e2]
    exact h

/-- The hypothesis is met: channel 200 and factor two. -/
example : ∃ px ∈ (picture 2 2 fun _ _ => (⟨200, 3, 7⟩ : RGB)).data, 256 ≤ fl 53 (brightest px * 2) := by
  refine ⟨⟨200, 3, 7⟩, by decide, ?_⟩
  rw [show brightest ⟨200, 3, 7⟩ = 200 by decide, show ((200 : Nat) : ℝ) * 2 = ((400 : Nat) : ℝ) by norm_num,
    fl_nat (by norm_num) (by norm_num)]
  norm_num

end TinyDIP.Props
