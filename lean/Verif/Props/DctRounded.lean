import Verif.Lemmas.DctWitness
import Verif.Lemmas.Hist
import Verif.Props.CliTransform

/-!
# Property C175: cosine transforms in double precision
-/

namespace TinyDIP.Props

open TinyDIP TinyDIP.Rnd TinyDIP.Color TinyDIP.Resample

/-- What `im2uint8` makes of numbers close to 8-bit levels. -/
theorem near_level {r : ℝ} {v : Nat} (hv : v ≤ 255) (h : |r - v| < 1 / 2) :
    -1 < r ∧ r < 256 ∧ (⌊r⌋₊ = v ∨ ⌊r⌋₊ + 1 = v) := by
  rw [abs_lt] at h
  have hv' : (v : ℝ) ≤ 255 := by exact_mod_cast hv
  have hv0 : (0 : ℝ) ≤ v := Nat.cast_nonneg v
  refine ⟨by linarith [h.1], by linarith [h.2], ?_⟩
  rcases Nat.eq_zero_or_pos v with rfl | hp
  · left
    rw [Nat.floor_eq_zero]
    have := h.2
    simp at this
    linarith
  · have h1 : (1 : ℝ) ≤ v := by exact_mod_cast hp
    have r0 : 0 ≤ r := by linarith [h.1]
    have u : ⌊r⌋₊ < v + 1 := (Nat.floor_lt r0).2 (by push_cast; linarith [h.2])
    have l : v - 1 ≤ ⌊r⌋₊ := Nat.le_floor (by rw [Nat.cast_sub hp]; push_cast; linarith [h.1])
    omega

/-- For every 8-bit picture of at most 1024 x 1024 pixels and every order in which the pixels are computed: `dct2`
gives the exact coefficients up to `2 / 10 ^ 7`, `idct2` of them gives the picture back up to `4 / 10 ^ 7` per pixel,
and `im2uint8` of that is defined and makes each level the original level or one less. Missing: the picture itself,
see `C175_off_by_one_violation`. -/
theorem C175_round_trip_partial (cosine : ℝ → ℝ) (hc : GoodCos cosine) (im : Image (BitVec 8)) (w h : Nat)
    (f : Nat → Nat → BitVec 8) (s : im.Shows w h f) (hw : 0 < w) (hh : 0 < h) (hw' : w ≤ 1024) (hh' : h ≤ 1024)
    (o1 o2 : List (Nat × Nat)) (ho1 : o1.Perm (iterYX w h)) (ho2 : o2.Perm (iterYX w h)) :
    ∃ mid back out F R g, dct2D cosine o1 im = .ok mid ∧ mid.Shows w h F ∧
      (∀ x y, x < w → y < h → |F x y - dctVal w h 1 (fun _ x y => (f x y).toNat) 0 x y| ≤ 2 / 10 ^ 7) ∧
      idct2D cosine o2 mid = .ok back ∧ back.Shows w h R ∧
      (∀ x y, x < w → y < h → |R x y - (f x y).toNat| ≤ w * h * (4 / 10 ^ 7)) ∧
      im2uint8Gray back = .ok out ∧ out.Shows w h g ∧
      (∀ x y, x < w → y < h → (g x y).toNat = (f x y).toNat ∨ (g x y).toNat + 1 = (f x y).toNat) := by
  have sr := map_shows s real8
  obtain ⟨mid, F, e1, s1, b1⟩ := dct3OnePlaneD_shows hc sr hw hh hw' hh' (fun x y _ _ => by
    have := (f x y).isLt
    have h255 : (f x y).toNat ≤ 255 := by omega
    rw [real8, abs_of_nonneg (Nat.cast_nonneg _)]
    exact_mod_cast h255) o1 ho1
  obtain ⟨back, R, e2, s2, b2⟩ := idct3OnePlaneD_shows hc s1 hw' hh' b1 o2 ho2
  have near : ∀ x y, x < w → y < h → |R x y - (f x y).toNat| ≤ w * h * (4 / 10 ^ 7) := by
    intro x y hx hy
    have inv := idct_dct hw hh (d := 1) (by omega) (fun _ x y => real8 (f x y)) hx hy (z := 0) (by omega)
    have : idctVal w h 1 (fun _ => dctVal w h 1 (fun _ x y => real8 (f x y)) 0) 0 x y = real8 (f x y) := by
      rw [← inv]
      unfold idctVal
      simp
    have b3 := b2 x y hx hy
    rw [this, Nat.cast_mul] at b3
    exact b3
  have small : (w : ℝ) * h * (4 / 10 ^ 7) < 1 / 2 := by
    have a : (w : ℝ) ≤ 1024 := by exact_mod_cast hw'
    have b : (h : ℝ) ≤ 1024 := by exact_mod_cast hh'
    have : (w : ℝ) * h ≤ 1024 * 1024 := mul_le_mul a b (Nat.cast_nonneg _) (by norm_num)
    linarith
  have lev : ∀ x y, x < w → y < h → -1 < R x y ∧ R x y < 256 ∧
      (⌊R x y⌋₊ = (f x y).toNat ∨ ⌊R x y⌋₊ + 1 = (f x y).toNat) := fun x y hx hy =>
    near_level (by have := (f x y).isLt; omega) ((near x y hx hy).trans_lt small)
  have mem : ∀ v ∈ back.data, ∃ x y, x < w ∧ y < h ∧ v = R x y := by
    intro v hv
    rw [s2.data_eq, List.mem_map] at hv
    obtain ⟨p, hp, rfl⟩ := hv
    exact ⟨p.1, p.2, (mem_iterYX.mp hp).1, (mem_iterYX.mp hp).2, rfl⟩
  have e3 : im2uint8Gray back = .ok ⟨back.size, back.data.map fun r => BitVec.ofNat 8 ⌊r⌋₊⟩ :=
    convertAll_ok _ s2.wf (prod_of_shows s2 hw hh) fun v hv => by
      obtain ⟨x, y, hx, hy, rfl⟩ := mem v hv
      exact (toU8_in (lev x y hx hy).1 (lev x y hx hy).2.1).1
  refine ⟨mid, back, _, F, R, _, ?_, s1, fun x y hx hy => (b1 x y hx hy).1, ?_, s2, near, e3,
    map_shows s2 _, fun x y hx hy => ?_⟩
  · rw [dct2D, cast_byte s hw hh, Res.ok_bind, e1]
  · rw [idct2D, cast_id s1 hw hh, Res.ok_bind, e2]
  · rw [(toU8_in (lev x y hx hy).1 (lev x y hx hy).2.1).2]
    exact (lev x y hx hy).2.2

theorem goodCos_cosR : GoodCos cosR := by
  intro x
  have h1 := Real.abs_cos_le_one x
  constructor
  · rw [abs_le]
    constructor
    · have := dbl_mono (Real.neg_one_le_cos x)
      have h : dbl (-1 : ℝ) = -1 := by rw [dbl, fl_neg]; exact congrArg _ dbl_one
      rwa [h] at this
    · have := dbl_mono (Real.cos_le_one x)
      rwa [dbl_one] at this
  · refine (dbl_err _).trans ((mul_le_mul_of_nonneg_left h1 eps_pos.le).trans ?_)
    unfold eps
    norm_num

example : GoodCos cosR ∧ (⟨[2, 2], [1, 20, 7, 255]⟩ : Image (BitVec 8)).Shows 2 2
    (fun x y => if y = 0 then if x = 0 then 1 else 20 else if x = 0 then 7 else 255) ∧
    [(1, 1), (0, 0), (0, 1), (1, 0)].Perm (iterYX 2 2) := by
  refine ⟨goodCos_cosR, ⟨⟨rfl, by decide, by decide⟩, rfl, ?_⟩, by decide⟩
  intro x y hx hy
  obtain rfl | rfl : x = 0 ∨ x = 1 := by omega
  all_goals obtain rfl | rfl : y = 0 ∨ y = 1 := by omega
  all_goals rfl

/-- Violation: even with a correctly rounded cosine a level is lost. Of the 2 x 1 picture with levels 1 and 20 the
round trip leaves 0 and 20. -/
theorem C175_off_by_one_violation : GoodCos (fun x => dbl (Real.cos x)) ∧
    (dct2D (fun x => dbl (Real.cos x)) (iterYX 2 1) ⟨[2, 1], [1, 20]⟩ >>= fun mid =>
      idct2D (fun x => dbl (Real.cos x)) (iterYX 2 1) mid >>= im2uint8Gray) = .ok ⟨[2, 1], [0, 20]⟩ := by
  refine ⟨goodCos_cosR, ?_⟩
  change (dct2D cosR (iterYX 2 1) ⟨[2, 1], [1, 20]⟩ >>= fun mid =>
      idct2D cosR (iterYX 2 1) mid >>= im2uint8Gray) = .ok ⟨[2, 1], [0, 20]⟩
  have io : iterYX 2 1 = [(0, 0), (1, 0)] := rfl
  have e0 : (⟨[2, 1], [1, 20]⟩ : Image (BitVec 8)).cast real8 = .ok ⟨[2, 1], [1, 20]⟩ := by
    have h : (⟨[2, 1], [1, 20]⟩ : Image (BitVec 8)).cast real8 = .ok ⟨[2, 1], [real8 1, real8 20]⟩ := rfl
    have h1 : real8 1 = 1 := by
      rw [real8, show (1 : BitVec 8).toNat = 1 from rfl, Nat.cast_one]
    have h2 : real8 20 = 20 := by
      rw [real8, show (20 : BitVec 8).toNat = 20 from rfl, Nat.cast_ofNat]
    rw [h, h1, h2]
  have e1 : dct2D cosR (iterYX 2 1) ⟨[2, 1], [1, 20]⟩ =
      dct3OnePlaneD cosR [(0, 0), (1, 0)] [⟨[2, 1], [1, 20]⟩] 0 := by
    rw [dct2D, e0, Res.ok_bind, io]
  have e2 : ∀ a b : ℝ, idct2D cosR (iterYX 2 1) ⟨[2, 1], [a, b]⟩ =
      idct3OnePlaneD cosR [(0, 0), (1, 0)] [⟨[2, 1], [a, b]⟩] 0 := fun a b => by
    have h : (⟨[2, 1], [a, b]⟩ : Image ℝ).cast id = .ok ⟨[2, 1], [a, b]⟩ := rfl
    rw [idct2D, h, Res.ok_bind, io]
  rw [e1, dct_witness, Res.ok_bind, e2, idct_witness, Res.ok_bind]
  have f1 : ⌊(562949953421311 / 562949953421312 : ℝ)⌋₊ = 0 := by rw [Nat.floor_eq_zero]; norm_num
  have f2 : ⌊(2814749767106561 / 140737488355328 : ℝ)⌋₊ = 20 := by
    rw [Nat.floor_eq_iff (by norm_num)]; norm_num
  have g1 := (toU8_in (a := 562949953421311 / 562949953421312) (by norm_num) (by norm_num)).1
  have g2 := (toU8_in (a := 2814749767106561 / 140737488355328) (by norm_num) (by norm_num)).1
  rw [f1] at g1
  rw [f2] at g2
  generalize (562949953421311 / 562949953421312 : ℝ) = r1 at g1
  generalize (2814749767106561 / 140737488355328 : ℝ) = r2 at g2
  simp only [im2uint8Gray, convertAll, List.mapM_cons, List.mapM_nil, g1, g2]
  rfl

end TinyDIP.Props
