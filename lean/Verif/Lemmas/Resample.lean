import Verif.Model.Resample
import Verif.Spec.Resample
import Verif.Lemmas.Interp
import Verif.Lemmas.Pixelwise
import Mathlib.Analysis.Convex.SpecificFunctions.Deriv
import Mathlib.Tactic.IntervalCases
import Mathlib.Tactic.Positivity
import Mathlib.Tactic.FieldSimp

namespace TinyDIP.Resample

open TinyDIP Image Finset

/-! ### bicubic -/

theorem cubicInterpolate_eq (v0 v1 v2 v3 t : ℝ) :
    cubicInterpolate v0 v1 v2 v3 t =
      cubicWeight t 0 * v0 + cubicWeight t 1 * v1 + cubicWeight t 2 * v2 + cubicWeight t 3 * v3 := by
  simp only [cubicInterpolate, cubicWeight]; ring

theorem clampCoord_eq {n : Nat} (h0 : 0 < n) (hn : n < 2 ^ 64) (z : Int) :
    clampCoord (z : ℝ) n = .ok (Filter.clampInt n z) := by
  have h1 : ((n : ℝ) - 1) = ((n - 1 : Nat) : ℝ) := by rw [Nat.cast_sub h0]; simp
  have h2 : ((n : ℝ) - 1) = (((n : Int) - 1 : Int) : ℝ) := by push_cast; rfl
  rw [clampCoord, if_neg (by rw [h1]; simp)]
  unfold Filter.clampInt
  by_cases hz : z < 0
  · rw [if_pos (by exact_mod_cast hz), show ((0 : ℝ)) = ((0 : Nat) : ℝ) by simp, toSize_nat (by omega)]
    congr 1; omega
  · rw [if_neg (by exact_mod_cast hz)]
    by_cases hz' : (n : Int) - 1 < z
    · rw [if_pos (by rw [h2]; exact_mod_cast hz'), h1, toSize_nat (by omega)]
      congr 1; omega
    · rw [if_neg (by rw [h2]; exact_mod_cast hz')]
      obtain ⟨m, rfl⟩ := Int.eq_ofNat_of_zero_le (by omega : 0 ≤ z)
      rw [show (((m : Int)) : ℝ) = (m : ℝ) by simp, toSize_nat (by omega)]
      congr 1; omega

theorem clampInt_lt {n : Nat} (h0 : 0 < n) (z : Int) : Filter.clampInt n z < n := by
  unfold Filter.clampInt; omega

variable {α : Type}

theorem copyResizeBicubicOrd_shows {im : Image α} {w h : Nat} {f : Nat → Nat → α}
    (polate : List α → ℝ → ℝ → Res α) (zero : α) (s : im.Shows w h f) (hw : 0 < w) (hh : 0 < h)
    (nw nh : Nat) (hnw : nw < 2 ^ 64) (hnh : nh < 2 ^ 64) (hf : nw * nh < 2 ^ 64)
    (order : List (Nat × Nat)) (hp : order.Perm (iterYX nw nh)) (g : Nat → Nat → α)
    (hg : ∀ x y, x < nw → y < nh →
      polate ((List.range 16).map fun k => edge w h f (⌊(x : ℝ) * ((w : ℝ) / nw)⌋ + (((k % 4 : Nat) : Int) - 1))
          (⌊(y : ℝ) * ((h : ℝ) / nh)⌋ + (((k / 4 : Nat) : Int) - 1)))
        (Int.fract ((x : ℝ) * ((w : ℝ) / nw))) (Int.fract ((y : ℝ) * ((h : ℝ) / nh))) = .ok (g x y)) :
    ∃ out, copyResizeBicubicOrd polate zero order im nw nh = .ok out ∧ out.Shows nw nh g := by
  have s0 := ofSizes_shows zero hnw hnh hf
  unfold copyResizeBicubicOrd
  dsimp only
  refine loop_fill (id : Nat × Nat → Nat × Nat) g _ order ?_ ?_ _ _ s0
  · rintro ⟨x, y⟩ hb o q sq
    have hb := mem_iterYX.mp (hp.mem_iff.mp hb)
    simp only at hb
    simp only [s.width, s.height, id]
    have hnd : forUp 16 (fun nd k => do
        let cx ← clampCoord ((⌊(x : ℝ) * ((w : ℝ) / nw)⌋ : ℝ) + (((k % 4 : Nat) : ℝ) - 1)) w
        let cy ← clampCoord ((⌊(y : ℝ) * ((h : ℝ) / nh)⌋ : ℝ) + (((k / 4 : Nat) : ℝ) - 1)) h
        let v ← im.at2 cx cy
        vset nd k v) (List.replicate 16 zero) = .ok ((List.range 16).map fun k =>
          edge w h f (⌊(x : ℝ) * ((w : ℝ) / nw)⌋ + (((k % 4 : Nat) : Int) - 1))
          (⌊(y : ℝ) * ((h : ℝ) / nh)⌋ + (((k / 4 : Nat) : Int) - 1))) := by
      rw [forUp]
      refine loop_listSet _ _ _ ?_ _ (by simp) (fun i hi => List.mem_range.mpr hi)
      intro k hk d hd
      have hk := List.mem_range.mp hk
      have e1 : ((⌊(x : ℝ) * ((w : ℝ) / nw)⌋ : ℝ) + (((k % 4 : Nat) : ℝ) - 1))
          = ((⌊(x : ℝ) * ((w : ℝ) / nw)⌋ + (((k % 4 : Nat) : Int) - 1) : Int) : ℝ) := by
        rw [Int.cast_add, Int.cast_sub, Int.cast_one, Int.cast_natCast]
      have e2 : ((⌊(y : ℝ) * ((h : ℝ) / nh)⌋ : ℝ) + (((k / 4 : Nat) : ℝ) - 1))
          = ((⌊(y : ℝ) * ((h : ℝ) / nh)⌋ + (((k / 4 : Nat) : Int) - 1) : Int) : ℝ) := by
        rw [Int.cast_add, Int.cast_sub, Int.cast_one, Int.cast_natCast]
      rw [e1, e2, clampCoord_eq hw s.w_lt, Res.ok_bind, clampCoord_eq hh s.h_lt, Res.ok_bind,
        s.px _ _ (clampInt_lt hw _) (clampInt_lt hh _), Res.ok_bind, vset, if_pos (by omega)]
      rfl
    rw [hnd, Res.ok_bind]
    have := hg x y hb.1 hb.2
    rw [Int.fract, Int.fract] at this
    rw [this, Res.ok_bind]
    exact sq.set2 hb.1 hb.2 _
  · exact fun X Y hX hY => ⟨(X, Y), hp.mem_iff.mpr (mem_iterYX.mpr ⟨hX, hY⟩), rfl⟩

theorem bicubicPolate_eq {lo hi : ℝ} (hl : lo ≤ hi) (F : Nat → Nat → ℝ) (tx ty : ℝ) :
    bicubicPolate lo hi ((List.range 16).map fun k => F (k % 4) (k / 4)) tx ty = .ok (limit lo hi
      ((range 4).sum fun j => cubicWeight ty j * (range 4).sum fun i => cubicWeight tx i * F i j)) := by
  have hr : ((List.range 16).map fun k => F (k % 4) (k / 4)) =
      [F 0 0, F 1 0, F 2 0, F 3 0, F 0 1, F 1 1, F 2 1, F 3 1, F 0 2, F 1 2, F 2 2, F 3 2,
        F 0 3, F 1 3, F 2 3, F 3 3] := rfl
  rw [hr, bicubicPolate]
  simp only [vget, List.getElem?_cons_succ, List.getElem?_cons_zero, Res.ok_bind, Nat.mul_zero, Nat.zero_add,
    Nat.mul_one, Nat.reduceAdd, Nat.reduceMul]
  congr 1
  simp only [cubicInterpolate_eq, Finset.sum_range_succ, Finset.range_zero, Finset.sum_empty, zero_add]
  generalize cubicWeight ty 0 * _ + cubicWeight ty 1 * _ + cubicWeight ty 2 * _ + cubicWeight ty 3 * _ = v
  unfold limit
  split
  · next h => rw [min_eq_right (by linarith), max_eq_left h.le]
  · split
    · next h => rw [min_eq_left h.le, max_eq_right hl]
    · next h1 h2 => rw [min_eq_right (not_lt.mp h2), max_eq_right (not_lt.mp h1)]

theorem bicubicPolateU8_eq (F : Nat → Nat → BitVec 8) (tx ty : ℝ) (hx : 0 ≤ tx) (hx' : tx < 1) (hy : 0 ≤ ty)
    (hy' : ty < 1) :
    bicubicPolateU8 ((List.range 16).map fun k => F (k % 4) (k / 4)) tx ty = .ok (F 1 1) := by
  have hr : ((List.range 16).map fun k => F (k % 4) (k / 4)) =
      [F 0 0, F 1 0, F 2 0, F 3 0, F 0 1, F 1 1, F 2 1, F 3 1, F 0 2, F 1 2, F 2 2, F 3 2,
        F 0 3, F 1 3, F 2 3, F 3 3] := rfl
  have fx : ⌊tx⌋ = 0 := Int.floor_eq_zero_iff.mpr ⟨hx, hx'⟩
  have fy : ⌊ty⌋ = 0 := Int.floor_eq_zero_iff.mpr ⟨hy, hy'⟩
  rw [hr, bicubicPolateU8, fx, fy]
  simp only [vget, List.getElem?_cons_succ, List.getElem?_cons_zero, Res.ok_bind, Nat.mul_zero, Nat.zero_add,
    Nat.mul_one, Nat.reduceAdd, Nat.reduceMul, cubicInterpolate, zero_mul, add_zero]
  have := (F 1 1).isLt
  rw [if_neg (by omega), if_neg (by omega)]
  congr 1
  apply BitVec.eq_of_toNat_eq
  rw [BitVec.toNat_ofInt]
  omega

/-! ### The Lanczos kernel -/

/-- `sin x / x` decreases on `(0, π]`. -/
theorem sin_div_antitone {x y : ℝ} (hx : 0 < x) (hxy : x ≤ y) (hy : y ≤ Real.pi) :
    Real.sin y / y ≤ Real.sin x / x := by
  have hy0 : 0 < y := lt_of_lt_of_le hx hxy
  have h0 : (0 : ℝ) ∈ Set.Icc 0 Real.pi := ⟨le_refl _, Real.pi_pos.le⟩
  have h1 : y ∈ Set.Icc 0 Real.pi := ⟨hy0.le, hy⟩
  have ha : 0 ≤ 1 - x / y := by rw [sub_nonneg, div_le_one hy0]; exact hxy
  have hb : 0 ≤ x / y := by positivity
  have hc := strictConcaveOn_sin_Icc.concaveOn.2 h0 h1 ha hb (by ring)
  simp only [smul_eq_mul, Real.sin_zero, mul_zero, zero_add] at hc
  rw [div_mul_cancel₀ x hy0.ne'] at hc
  rw [div_le_div_iff₀ hy0 hx]
  have : x / y * Real.sin y * y = Real.sin y * x := by field_simp
  nlinarith

/-- The size of the `m`-th term at distance `u + m`, without the factor `sin (π u)`. -/
noncomputable def term (a : Nat) (x : ℝ) : ℝ := Real.sin (Real.pi * x / a) / (Real.pi * x / a) / (Real.pi * x)

theorem pix_bounds {a : Nat} (ha : 0 < a) {x : ℝ} (h0 : 0 < x) (h1 : x ≤ a) :
    0 < Real.pi * x / a ∧ Real.pi * x / a ≤ Real.pi := by
  have ha' : (0 : ℝ) < a := by exact_mod_cast ha
  have := Real.pi_pos
  refine ⟨by positivity, ?_⟩
  rw [div_le_iff₀ ha']
  exact mul_le_mul_of_nonneg_left h1 this.le

theorem term_nonneg {a : Nat} (ha : 0 < a) {x : ℝ} (h0 : 0 < x) (h1 : x ≤ a) : 0 ≤ term a x := by
  obtain ⟨p, q⟩ := pix_bounds ha h0 h1
  have := Real.pi_pos
  unfold term
  have := Real.sin_nonneg_of_nonneg_of_le_pi p.le q
  positivity

theorem term_pos {a : Nat} (ha : 0 < a) {x : ℝ} (h0 : 0 < x) (h1 : x < a) : 0 < term a x := by
  obtain ⟨p, -⟩ := pix_bounds ha h0 h1.le
  have ha' : (0 : ℝ) < a := by exact_mod_cast ha
  have hpi := Real.pi_pos
  have q : Real.pi * x / a < Real.pi := by
    rw [div_lt_iff₀ ha']; exact mul_lt_mul_of_pos_left h1 hpi
  unfold term
  have := Real.sin_pos_of_pos_of_lt_pi p q
  positivity

theorem term_le {a : Nat} (ha : 0 < a) {x y : ℝ} (h0 : 0 < x) (hxy : x ≤ y) (h1 : y ≤ a) :
    term a y ≤ (x / y) * term a x := by
  obtain ⟨p, q⟩ := pix_bounds ha h0 (hxy.trans h1)
  obtain ⟨p', q'⟩ := pix_bounds ha (lt_of_lt_of_le h0 hxy) h1
  have hpi := Real.pi_pos
  have hy0 : 0 < y := lt_of_lt_of_le h0 hxy
  have ha' : (0 : ℝ) < a := by exact_mod_cast ha
  have h := sin_div_antitone p (y := Real.pi * y / a)
    (div_le_div_of_nonneg_right (mul_le_mul_of_nonneg_left hxy hpi.le) ha'.le) q'
  have e : (x / y) * term a x = Real.sin (Real.pi * x / a) / (Real.pi * x / a) / (Real.pi * y) := by
    unfold term
    generalize Real.sin (Real.pi * x / a) / (Real.pi * x / a) = s
    field_simp
  rw [e]
  unfold term
  exact div_le_div_of_nonneg_right h (by positivity)

theorem term_antitone {a : Nat} (ha : 0 < a) {x y : ℝ} (h0 : 0 < x) (hxy : x ≤ y) (h1 : y ≤ a) :
    term a y ≤ term a x := by
  refine (term_le ha h0 hxy h1).trans ?_
  have h2 := term_nonneg ha h0 (hxy.trans h1)
  have h3 : x / y ≤ 1 := by rw [div_le_one (lt_of_lt_of_le h0 hxy)]; exact hxy
  nlinarith

theorem term_le_one {a : Nat} (ha : 0 < a) {x : ℝ} (h0 : 1 ≤ x) (h1 : x ≤ a) : term a x < 1 := by
  obtain ⟨p, q⟩ := pix_bounds ha (by linarith) h1
  have h2 : Real.sin (Real.pi * x / a) / (Real.pi * x / a) ≤ 1 := by
    rw [div_le_one p]; exact (Real.sin_lt p).le
  have h3 : 1 < Real.pi := by linarith [Real.two_le_pi]
  unfold term
  rw [div_lt_one (by positivity)]
  nlinarith

/-- Alternating sums of decreasing terms lie between zero and the first term. -/
theorem alt_sum (n : Nat) (T : Nat → ℝ) (h0 : ∀ m, m < n → 0 ≤ T m) (hd : ∀ m, m + 1 < n → T (m + 1) ≤ T m) :
    0 ≤ ((range n).sum fun m => (-1) ^ m * T m) ∧ ((range n).sum fun m => (-1) ^ m * T m) ≤ (if n = 0 then 0 else T 0) := by
  induction n generalizing T with
  | zero => simp
  | succ n ih =>
    obtain ⟨i1, i2⟩ := ih (fun m => T (m + 1)) (fun m hm => h0 (m + 1) (by omega)) (fun m hm => hd (m + 1) (by omega))
    have e : ((range (n + 1)).sum fun m => (-1) ^ m * T m) = T 0 - (range n).sum fun m => (-1) ^ m * T (m + 1) := by
      rw [Finset.sum_range_succ']
      have : ((range n).sum fun m => (-1 : ℝ) ^ (m + 1) * T (m + 1)) = - (range n).sum fun m => (-1) ^ m * T (m + 1) := by
        rw [← Finset.sum_neg_distrib]
        exact Finset.sum_congr rfl fun m _ => by rw [pow_succ]; ring
      rw [this]; simp; ring
    rw [e, if_neg (by omega)]
    have h00 := h0 0 (by omega)
    by_cases hn : n = 0
    · subst hn; simp; exact h00
    · rw [if_neg hn] at i2
      have := hd 0 (by omega)
      constructor <;> linarith

/-- The kernel at distance `u + m`. -/
theorem kernel_shift (eps : ℝ) {a : Nat} (ha : 0 < a) {u : ℝ} (m : Nat) (hx : 0 < u + m) (he : eps ≤ u + m) :
    lanczosKernel eps (u + m) a = if u + m < a then Real.sin (Real.pi * u) * ((-1) ^ m * term a (u + m)) else 0 := by
  rw [lanczosKernel, abs_of_pos hx, if_neg (not_lt.mpr he)]
  simp only [Int.cast_natCast]
  have hpi := Real.pi_pos
  have ha' : (0 : ℝ) < a := by exact_mod_cast ha
  split
  · have : Real.sin (Real.pi * (u + m)) = (-1) ^ m * Real.sin (Real.pi * u) := by
      rw [mul_add, mul_comm Real.pi (m : ℝ), Real.sin_add_nat_mul_pi]
    rw [this]
    unfold term
    generalize Real.sin (Real.pi * (u + m) / a) = s
    field_simp
  · rfl

theorem kernel_even (eps x : ℝ) (a : Int) : lanczosKernel eps (-x) a = lanczosKernel eps x a := by
  unfold lanczosKernel
  simp only [abs_neg, mul_neg, Real.sin_neg, neg_div, neg_mul, neg_neg]

/-- One side of the taps: the kernel at `u, u + 1, ..., u + (a - 1)`. -/
noncomputable def side (eps : ℝ) (a : Nat) (u : ℝ) : ℝ := (range a).sum fun m => lanczosKernel eps (u + (m : ℝ)) a

theorem side_eq (eps : ℝ) {a : Nat} (ha : 0 < a) {u : ℝ} (h0 : 0 < u) (h1 : u ≤ 1) (he : eps ≤ u) :
    side eps a u = Real.sin (Real.pi * u) * (range a).sum fun m => (-1) ^ m * term a (u + m) := by
  unfold side
  rw [Finset.mul_sum]
  refine Finset.sum_congr rfl fun m hm => ?_
  have hm := Finset.mem_range.mp hm
  have hm0 : (0 : ℝ) ≤ m := by positivity
  have hm1 : (m : ℝ) + 1 ≤ a := by exact_mod_cast hm
  rw [kernel_shift eps ha m (by linarith) (by linarith)]
  split
  · rfl
  · next h =>
    have e : u + m = a := le_antisymm (by linarith) (not_lt.mp h)
    have ha' : (a : ℝ) ≠ 0 := by
      have : (0 : ℝ) < a := by exact_mod_cast ha
      exact this.ne'
    rw [e, term, mul_div_assoc, div_self ha', mul_one, Real.sin_pi]
    simp

theorem side_nonneg (eps : ℝ) {a : Nat} (ha : 0 < a) {u : ℝ} (h0 : 0 < u) (h1 : u ≤ 1) (he : eps ≤ u) :
    0 ≤ side eps a u := by
  rw [side_eq eps ha h0 h1 he]
  refine mul_nonneg ?_ (alt_sum a _ ?_ ?_).1
  · have := Real.pi_pos
    exact Real.sin_nonneg_of_nonneg_of_le_pi (by positivity) (by nlinarith)
  · intro m hm
    have hm1 : (m : ℝ) + 1 ≤ a := by exact_mod_cast hm
    exact term_nonneg ha (by positivity) (by linarith)
  · intro m hm
    have hm1 : (m : ℝ) + 1 + 1 ≤ a := by exact_mod_cast hm
    push_cast
    exact term_antitone ha (by positivity) (by linarith) (by linarith)

theorem side_pos (eps : ℝ) {a : Nat} (ha : 0 < a) {u : ℝ} (h0 : 0 < u) (h1 : u < 1) (he : eps ≤ u) :
    0 < side eps a u := by
  rw [side_eq eps ha h0 h1.le he]
  have hpi := Real.pi_pos
  refine mul_pos (Real.sin_pos_of_pos_of_lt_pi (by positivity) (by nlinarith)) ?_
  obtain ⟨n, rfl⟩ := Nat.exists_eq_succ_of_ne_zero (by omega : a ≠ 0)
  have hs := alt_sum n (fun m => term (n + 1) (u + (m + 1 : Nat))) (fun m hm => ?_) (fun m hm => ?_)
  · rw [Finset.sum_range_succ']
    have e : ((range n).sum fun m => (-1 : ℝ) ^ (m + 1) * term (n + 1) (u + (m + 1 : Nat))) =
        - (range n).sum fun m => (-1) ^ m * term (n + 1) (u + (m + 1 : Nat)) := by
      rw [← Finset.sum_neg_distrib]
      exact Finset.sum_congr rfl fun m _ => by rw [pow_succ]; ring
    simp only [Nat.succ_eq_add_one]
    rw [e]
    have hu : u < ((n + 1 : Nat) : ℝ) := by
      have : (0 : ℝ) ≤ n := by positivity
      push_cast; linarith
    have hp := term_pos (a := n + 1) (by omega) h0 hu
    have hlt : (if n = 0 then 0 else term (n + 1) (u + (0 + 1 : Nat))) < term (n + 1) u := by
      split
      · exact hp
      · next hn =>
        have hn1 : (1 : ℝ) ≤ n := by exact_mod_cast (by omega : 1 ≤ n)
        have := term_le (a := n + 1) (x := u) (y := u + (0 + 1 : Nat)) (by omega) h0 (by simp)
          (by push_cast; linarith)
        refine lt_of_le_of_lt this ?_
        have h3 : u / (u + (0 + 1 : Nat)) < 1 := by
          rw [div_lt_one (by positivity)]; simp
        nlinarith
    simp only [pow_zero, one_mul, Nat.cast_zero, add_zero]
    linarith [hs.2]
  · have hm1 : (m : ℝ) + 1 ≤ n := by exact_mod_cast hm
    refine term_nonneg (by omega) (by positivity) (by push_cast; linarith)
  · have hm1 : (m : ℝ) + 1 + 1 ≤ n := by exact_mod_cast hm
    refine term_antitone (by omega) (by positivity) (by push_cast; linarith) (by push_cast; linarith)

/-- Close to a sample, where the code uses the value 1. -/
theorem side_near (eps : ℝ) {a : Nat} (ha : 0 < a) {u : ℝ} (h0 : 0 ≤ u) (h1 : u < eps) (he : eps ≤ 1) :
    0 < side eps a u := by
  obtain ⟨n, rfl⟩ := Nat.exists_eq_succ_of_ne_zero (by omega : a ≠ 0)
  unfold side
  rw [Finset.sum_range_succ']
  have hpi := Real.pi_pos
  have e0 : lanczosKernel eps (u + ((0 : Nat) : ℝ)) ((n.succ : Nat) : Int) = 1 := by
    rw [lanczosKernel, if_pos]
    simpa [abs_of_nonneg h0] using h1
  rw [e0]
  have e : ((range n).sum fun m => lanczosKernel eps (u + ((m + 1 : Nat) : ℝ)) ((n.succ : Nat) : Int)) =
      - (Real.sin (Real.pi * u) * (range n).sum fun m => (-1) ^ m * term (n + 1) (u + (m + 1 : Nat))) := by
    rw [Finset.mul_sum, ← Finset.sum_neg_distrib]
    refine Finset.sum_congr rfl fun m hm => ?_
    have hm := Finset.mem_range.mp hm
    have hm1 : (m : ℝ) + 1 ≤ n := by exact_mod_cast hm
    have hm0 : (0 : ℝ) ≤ m := by positivity
    rw [kernel_shift eps (by omega) (m + 1) (by push_cast; linarith) (by push_cast; linarith), if_pos
      (by push_cast; linarith), pow_succ]
    simp only [Nat.succ_eq_add_one]
    ring
  rw [e]
  have hs := alt_sum n (fun m => term (n + 1) (u + (m + 1 : Nat))) (fun m hm => ?_) (fun m hm => ?_)
  · have hlt : (if n = 0 then 0 else term (n + 1) (u + (0 + 1 : Nat))) < 1 := by
      split
      · exact one_pos
      · next hn =>
        have hn1 : (1 : ℝ) ≤ n := by exact_mod_cast (by omega : 1 ≤ n)
        exact term_le_one (by omega) (by push_cast; linarith) (by push_cast; linarith)
    have hs1 : 0 ≤ Real.sin (Real.pi * u) :=
      Real.sin_nonneg_of_nonneg_of_le_pi (by positivity) (by nlinarith)
    have hs2 := Real.sin_le_one (Real.pi * u)
    nlinarith [hs.1, hs.2]
  · have hm1 : (m : ℝ) + 1 ≤ n := by exact_mod_cast hm
    refine term_nonneg (by omega) (by positivity) (by push_cast; linarith)
  · have hm1 : (m : ℝ) + 1 + 1 ≤ n := by exact_mod_cast hm
    refine term_antitone (by omega) (by positivity) (by push_cast; linarith) (by push_cast; linarith)

theorem tap_sum (eps : ℝ) (a : Nat) (u : ℝ) :
    ((range (2 * a)).sum fun k => tap (fun x => lanczosKernel eps x a) a u k) =
      side eps a (Int.fract u) + side eps a (1 - Int.fract u) := by
  rw [two_mul, Finset.sum_range_add]
  congr 1
  · unfold side
    rw [← Finset.sum_range_reflect]
    refine Finset.sum_congr rfl fun m hm => ?_
    have hm := Finset.mem_range.mp hm
    unfold tap
    congr 1
    rw [Int.fract]
    have : ((a - 1 - m : Nat) : Int) = (a : Int) - 1 - m := by omega
    rw [this]
    push_cast
    ring
  · unfold side
    refine Finset.sum_congr rfl fun m hm => ?_
    unfold tap
    rw [← kernel_even]
    congr 1
    rw [Int.fract]
    push_cast
    ring

/-- The weights never cancel: their sum is positive at every point. -/
theorem tap_sum_pos {eps : ℝ} (he : 0 < eps) (he' : eps ≤ 1 / 2) {a : Nat} (ha : 0 < a) (u : ℝ) :
    0 < (range (2 * a)).sum fun k => tap (fun x => lanczosKernel eps x a) a u k := by
  rw [tap_sum]
  have h0 := Int.fract_nonneg u
  have h1 := Int.fract_lt_one u
  generalize Int.fract u = t at *
  by_cases c1 : t < eps
  · have := side_near eps ha h0 c1 (by linarith)
    have := side_nonneg eps ha (u := 1 - t) (by linarith) (by linarith) (by linarith)
    linarith
  · have c1 := not_lt.mp c1
    have p1 := side_pos eps ha (u := t) (by linarith) h1 c1
    by_cases c2 : 1 - t < eps
    · have := side_near eps ha (u := 1 - t) (by linarith) c2 (by linarith)
      linarith
    · have := side_nonneg eps ha (u := 1 - t) (by linarith) (by linarith) (not_lt.mp c2)
      linarith

/-! ### The sums -/

theorem loop_pair (n : Nat) (body : ℝ × ℝ → Nat → Res (ℝ × ℝ)) (p q : Nat → ℝ)
    (hb : ∀ k, k < n → ∀ acc, body acc k = .ok (acc.1 + p k, acc.2 + q k)) (acc : ℝ × ℝ) :
    loop body (List.range n) acc = .ok (acc.1 + (range n).sum p, acc.2 + (range n).sum q) := by
  induction n with
  | zero => simp [loop]
  | succ n ih =>
    rw [List.range_succ, loop_append, ih (fun k hk => hb k (by omega)), Res.ok_bind]
    simp only [loop, hb n (by omega), Finset.sum_range_succ, add_assoc]

theorem clampIdx_eq {n : Nat} (h0 : 0 < n) (hn : n < 2 ^ 31) (z : Int) :
    clampIdx z n = .ok (Filter.clampInt n z) := by
  unfold clampIdx i32 Filter.clampInt
  rw [if_pos (by omega), Res.ok_bind, if_neg (by omega)]
  congr 1
  split
  · omega
  · split <;> omega

theorem i32_ok {v : Int} (h0 : -(2 ^ 31) ≤ v) (h1 : v < 2 ^ 31) : i32 v = .ok v := if_pos ⟨h0, h1⟩

theorem lanczosSums_eq {α : Type} (cv : Conv α) (eps : ℝ) {a : Nat} {im : Image α} {w h : Nat}
    {f : Nat → Nat → α} (s : im.Shows w h f) (hw : 0 < w) (hh : 0 < h) (hwa : w + a < 2 ^ 31)
    (hha : h + a < 2 ^ 31) {u v : ℝ} (hu : -1 ≤ ⌊u⌋) (hu' : ⌊u⌋ < w) (hv : -1 ≤ ⌊v⌋) (hv' : ⌊v⌋ < h) :
    lanczosSums cv eps a im u v = .ok (
      (range (2 * a)).sum fun j => (range (2 * a)).sum fun i =>
        edge w h (fun x y => cv.toR (f x y)) (⌊u⌋ - (a : Int) + 1 + (i : Int)) (⌊v⌋ - (a : Int) + 1 + (j : Int)) *
          (tap (fun x => lanczosKernel eps x a) a u i * tap (fun x => lanczosKernel eps x a) a v j),
      (range (2 * a)).sum fun j => (range (2 * a)).sum fun i =>
        tap (fun x => lanczosKernel eps x a) a u i * tap (fun x => lanczosKernel eps x a) a v j) := by
  unfold lanczosSums
  rw [i32_ok (by omega) (by omega), Res.ok_bind, i32_ok (by omega) (by omega), Res.ok_bind,
    i32_ok (by omega) (by omega), Res.ok_bind, i32_ok (by omega) (by omega), Res.ok_bind,
    i32_ok (by omega) (by omega), Res.ok_bind, i32_ok (by omega) (by omega), Res.ok_bind]
  unfold intUp
  rw [show (⌊u⌋ + (a : Int) - (⌊u⌋ - a + 1) + 1).toNat = 2 * a by omega,
    show (⌊v⌋ + (a : Int) - (⌊v⌋ - a + 1) + 1).toNat = 2 * a by omega]
  rw [← loop_map]
  rw [loop_pair (2 * a) _ (fun j => (range (2 * a)).sum fun i =>
        edge w h (fun x y => cv.toR (f x y)) (⌊u⌋ - (a : Int) + 1 + (i : Int)) (⌊v⌋ - (a : Int) + 1 + (j : Int)) *
          (tap (fun x => lanczosKernel eps x a) a u i * tap (fun x => lanczosKernel eps x a) a v j))
      (fun j => (range (2 * a)).sum fun i =>
        tap (fun x => lanczosKernel eps x a) a u i * tap (fun x => lanczosKernel eps x a) a v j)]
  · simp
  intro j _ acc
  rw [← loop_map]
  refine loop_pair (2 * a) _ _ _ ?_ acc
  intro i _ acc
  rw [s.width, s.height, clampIdx_eq hw (by omega), Res.ok_bind, clampIdx_eq hh (by omega), Res.ok_bind]
  dsimp only [tap]
  split
  · rw [s.px _ _ (clampInt_lt hw _) (clampInt_lt hh _), Res.ok_bind]
    rfl
  · next hz =>
    have hz := not_not.mp hz
    rw [hz]; simp

end TinyDIP.Resample
