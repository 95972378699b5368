import Verif.Lemmas.Samples
import Verif.Lemmas.Interp
import Verif.Props.Core
import Mathlib.Topology.Order.IntermediateValue
import Mathlib.Algebra.Order.Floor.Semifield
import Mathlib.Analysis.Calculus.Deriv.MeanValue
import Mathlib.Analysis.SpecialFunctions.ExpDeriv

/-!
# Properties C21, C41–C44, C76, C77 and the resampling part of C27

Real arithmetic is exact. `im.Shows w h f` is defined in Spec/Grid.lean, `Conv.Lawful`, `turnSize`
and `turnPx` in Spec/Interp.lean.
-/

namespace TinyDIP.Props

open TinyDIP Image

variable {α : Type} {im : Image α} {w h : Nat} {f : Nat → Nat → α}

/-! ## The element types meet `Conv.Lawful` -/

theorem conv_real_lawful : Conv.real.Lawful := ⟨fun _ => rfl, fun _ _ h => h, fun _ _ h => h⟩

theorem conv_u8_lawful : Conv.u8.Lawful := by
  have hlt : ∀ a : BitVec 8, (a.toNat : ℝ) ≤ 255 := by
    intro a
    have := a.isLt
    have : a.toNat ≤ 255 := by omega
    exact_mod_cast this
  have hfl : ∀ v : ℝ, v ≤ 255 → 0 ≤ v → (BitVec.ofNat 8 ⌊v⌋₊).toNat = ⌊v⌋₊ := by
    intro v h1 h2
    have h3 : ⌊v⌋₊ ≤ 255 := by
      have : ((⌊v⌋₊ : Nat) : ℝ) ≤ 255 := le_trans (Nat.floor_le h2) h1
      exact_mod_cast this
    rw [BitVec.toNat_ofNat]; omega
  constructor
  · intro a
    have h1 := hlt a
    have h2 : (0 : ℝ) ≤ a.toNat := Nat.cast_nonneg _
    simp only [Conv.u8]
    rw [if_neg (not_lt.mpr h1), if_neg (not_lt.mpr h2), Nat.floor_natCast]
    simp
  · intro a v hv
    have h1 := hlt a
    have h2 : (0 : ℝ) ≤ a.toNat := Nat.cast_nonneg _
    simp only [Conv.u8] at hv ⊢
    split
    · simpa using h1
    · rename_i h3
      have h4 : 0 ≤ v := le_trans h2 hv
      rw [if_neg (not_lt.mpr h4), hfl v (not_lt.mp h3) h4]
      exact_mod_cast Nat.le_floor hv
  · intro a v hv
    have h1 := hlt a
    have h2 : (0 : ℝ) ≤ a.toNat := Nat.cast_nonneg _
    simp only [Conv.u8] at hv ⊢
    rw [if_neg (not_lt.mpr (le_trans hv h1))]
    split
    · simp
    · rename_i h4
      rw [hfl v (le_trans hv h1) (not_lt.mp h4)]
      exact le_trans (Nat.floor_le (not_lt.mp h4)) hv

/-! ## C41 bilinear sampling -/

/-- At integer positions inside the image the pixel itself is returned. -/
theorem C41_exact_on_grid (cv : Conv α) (hcv : cv.Lawful) (zero : α) (s : im.Shows w h f) (i j : Nat)
    (hi : i < w) (hj : j < h) : bilinear cv zero im (i : ℝ) (j : ℝ) = .ok (f i j) :=
  bilinear_grid hcv zero s hi hj

example : bilinear Conv.u8 0 (picture 3 2 fun x y => BitVec.ofNat 8 (50 * x + y)) 2 1 = .ok 101#8 := by
  simpa using C41_exact_on_grid Conv.u8 conv_u8_lawful 0 (picture_shows 3 2 fun x y => BitVec.ofNat 8 (50 * x + y)) 2 1
    (by decide) (by decide)

/-- Outside the image the result is 0. -/
theorem C41_zero_outside (cv : Conv α) (zero : α) (s : im.Shows w h f) (x y : ℝ)
    (ho : x < 0 ∨ x > (w : ℝ) - 1 ∨ y < 0 ∨ y > (h : ℝ) - 1) :
    bilinear cv zero im x y = .ok zero := by
  unfold bilinear
  simp only [s.width, s.height]
  rw [if_pos ho]

example : bilinear Conv.real 0 (picture 3 2 fun x y => (x : ℝ) + y) (5 / 2) 1 = .ok 0 :=
  C41_zero_outside Conv.real 0 (picture_shows ..) _ _ (by norm_num)

theorem between_mix {a b t lo hi : ℝ} (h0 : 0 ≤ t) (h1 : t ≤ 1) (ha : lo ≤ a) (hb : lo ≤ b)
    (ha' : a ≤ hi) (hb' : b ≤ hi) : lo ≤ a * (1 - t) + b * t ∧ a * (1 - t) + b * t ≤ hi := by
  constructor <;> nlinarith

/-- Everywhere inside the image the call returns (it never reads outside), and the result lies
between the smallest and the largest of the four surrounding pixels. -/
theorem C41_between_neighbours (cv : Conv α) (hcv : cv.Lawful) (zero : α) (s : im.Shows w h f)
    (x y : ℝ) (hx0 : 0 ≤ x) (hx : x ≤ (w : ℝ) - 1) (hy0 : 0 ≤ y) (hy : y ≤ (h : ℝ) - 1) :
    ∃ v, bilinear cv zero im x y = .ok v ∧
      ∃ i i' j j' : Nat, i < w ∧ i' < w ∧ j < h ∧ j' < h ∧
        (i ≤ x ∧ x < i + 1 ∧ i ≤ i' ∧ i' ≤ i + 1) ∧ (j ≤ y ∧ y < j + 1 ∧ j ≤ j' ∧ j' ≤ j + 1) ∧
        (∃ a ∈ [i, i'], ∃ b ∈ [j, j'], cv.toR (f a b) ≤ cv.toR v) ∧
        (∃ a ∈ [i, i'], ∃ b ∈ [j, j'], cv.toR v ≤ cv.toR (f a b)) := by
  refine ⟨_, bilinear_inside cv zero s hx0 hx hy0 hy, ⌊x⌋₊, min (⌊x⌋₊ + 1) (w - 1), ⌊y⌋₊,
    min (⌊y⌋₊ + 1) (h - 1), ?_⟩
  have hi := floor_lt_of_le hx0 hx
  have hj := floor_lt_of_le hy0 hy
  have x1 := Nat.floor_le hx0
  have x2 := Nat.lt_floor_add_one x
  have y1 := Nat.floor_le hy0
  have y2 := Nat.lt_floor_add_one y
  refine ⟨hi, by omega, hj, by omega, ⟨x1, x2, by omega, by omega⟩, ⟨y1, y2, by omega, by omega⟩, ?_⟩
  generalize hi' : min (⌊x⌋₊ + 1) (w - 1) = i'
  generalize hj' : min (⌊y⌋₊ + 1) (h - 1) = j'
  have tx0 : 0 ≤ x - ⌊x⌋₊ := by linarith
  have tx1 : x - ⌊x⌋₊ ≤ 1 := by linarith
  have ty0 : 0 ≤ y - ⌊y⌋₊ := by linarith
  have ty1 : y - ⌊y⌋₊ ≤ 1 := by linarith
  generalize x - (⌊x⌋₊ : ℝ) = tx at *
  generalize y - (⌊y⌋₊ : ℝ) = ty at *
  generalize ⌊x⌋₊ = i at *
  generalize ⌊y⌋₊ = j at *
  -- a corner with the least and one with the greatest value
  have key : ∀ (g : Nat → Nat → ℝ), ∃ a ∈ [i, i'], ∃ b ∈ [j, j'],
      ∀ a' ∈ [i, i'], ∀ b' ∈ [j, j'], g a b ≤ g a' b' := by
    intro g
    have row : ∀ a : Nat, ∃ b ∈ [j, j'], ∀ b' ∈ [j, j'], g a b ≤ g a b' := by
      intro a
      rcases le_total (g a j) (g a j') with hle | hle
      · exact ⟨j, by simp, by simp [hle]⟩
      · exact ⟨j', by simp, by simp [hle]⟩
    obtain ⟨b1, m1, l1⟩ := row i
    obtain ⟨b2, m2, l2⟩ := row i'
    rcases le_total (g i b1) (g i' b2) with hle | hle
    · refine ⟨i, by simp, b1, m1, ?_⟩
      intro a' ha' b' hb'
      simp only [List.mem_cons, List.not_mem_nil, or_false] at ha'
      rcases ha' with rfl | rfl
      · exact l1 b' hb'
      · exact le_trans hle (l2 b' hb')
    · refine ⟨i', by simp, b2, m2, ?_⟩
      intro a' ha' b' hb'
      simp only [List.mem_cons, List.not_mem_nil, or_false] at ha'
      rcases ha' with rfl | rfl
      · exact le_trans hle (l1 b' hb')
      · exact l2 b' hb'
  constructor
  · obtain ⟨a, ha, b, hb, hle⟩ := key fun a b => cv.toR (f a b)
    refine ⟨a, ha, b, hb, hcv.lower _ _ ?_⟩
    have q11 := hle i (by simp) j (by simp)
    have q21 := hle i' (by simp) j (by simp)
    have q12 := hle i (by simp) j' (by simp)
    have q22 := hle i' (by simp) j' (by simp)
    have r1 : cv.toR (f a b) ≤ cv.toR (f i j) * (1 - tx) + cv.toR (f i' j) * tx := by nlinarith
    have r2 : cv.toR (f a b) ≤ cv.toR (f i j') * (1 - tx) + cv.toR (f i' j') * tx := by nlinarith
    nlinarith
  · obtain ⟨a, ha, b, hb, hle⟩ := key fun a b => -cv.toR (f a b)
    refine ⟨a, ha, b, hb, hcv.upper _ _ ?_⟩
    have q11 := neg_le_neg_iff.mp (hle i (by simp) j (by simp))
    have q21 := neg_le_neg_iff.mp (hle i' (by simp) j (by simp))
    have q12 := neg_le_neg_iff.mp (hle i (by simp) j' (by simp))
    have q22 := neg_le_neg_iff.mp (hle i' (by simp) j' (by simp))
    have r1 : cv.toR (f i j) * (1 - tx) + cv.toR (f i' j) * tx ≤ cv.toR (f a b) := by nlinarith
    have r2 : cv.toR (f i j') * (1 - tx) + cv.toR (f i' j') * tx ≤ cv.toR (f a b) := by nlinarith
    nlinarith

example : ∃ (im : Image (BitVec 8)) (f : Nat → Nat → BitVec 8), im.Shows 3 2 f ∧
    (0 : ℝ) ≤ 3 / 2 ∧ (3 / 2 : ℝ) ≤ ((3 : Nat) : ℝ) - 1 :=
  ⟨_, _, ofSizes_shows 7#8 (by decide) (by decide) (by decide), by norm_num, by norm_num⟩

/-! ## C42 the bicubic kernel -/

/-- The kernel is even, 1 at 0 and 0 at every other integer; for every offset between two grid points
the four weights sum to 1 and reproduce linear functions. -/
theorem C42_kernel :
    (∀ x, cubicKernel (-x) = cubicKernel x) ∧ cubicKernel 0 = 1 ∧
    (∀ n : ℤ, n ≠ 0 → cubicKernel (n : ℝ) = 0) ∧
    (∀ t, 0 ≤ t → t ≤ 1 →
      cubicKernel (t + 1) + cubicKernel t + cubicKernel (t - 1) + cubicKernel (t - 2) = 1 ∧
      (-1) * cubicKernel (t + 1) + 0 * cubicKernel t + 1 * cubicKernel (t - 1) +
        2 * cubicKernel (t - 2) = t) := by
  refine ⟨fun x => by simp only [cubicKernel, abs_neg], cubicKernel_zero, ?_, ?_⟩
  · intro n hn
    have h1 : 1 ≤ |n| := Int.one_le_abs hn
    rcases eq_or_lt_of_le h1 with h | h
    · refine cubicKernel_one ?_
      rw [← Int.cast_abs, ← h]; simp
    · refine cubicKernel_far ?_
      rw [← Int.cast_abs]
      exact_mod_cast h
  · intro t h0 h1
    obtain ⟨e1, e2, e3, e4⟩ := cubicKernel_four h0 h1
    rw [e1, e2, e3, e4]
    constructor <;> ring

/-- The bicubic interpolator returns the pixel at every integer position inside the image (also next
to the border, where it falls back to bilinear sampling). -/
theorem C42_exact_on_grid (cv : Conv α) (hcv : cv.Lawful) (zero : α) (s : im.Shows w h f) (i j : Nat)
    (hi : i < w) (hj : j < h) : bicubic cv zero im (i : ℝ) (j : ℝ) = .ok (f i j) := by
  by_cases hb : (i : ℝ) < 1 ∨ (i : ℝ) ≥ (w : ℝ) - 2 ∨ (j : ℝ) < 1 ∨ (j : ℝ) ≥ (h : ℝ) - 2
  · unfold bicubic
    simp only [s.width, s.height]
    rw [if_pos hb]
    exact bilinear_grid hcv zero s hi hj
  · push Not at hb
    obtain ⟨hx0, hx, hy0, hy⟩ := hb
    obtain ⟨a, b, t, u, _, _, _, _, t0, t1, u0, u1, hxt, hyu, e⟩ :=
      bicubic_inside cv zero s hx0 hx hy0 hy
    have hia : (i : ℤ) = a := by
      have h1 : ((a : ℤ) : ℝ) ≤ ((i : ℤ) : ℝ) := by push_cast; linarith
      have h2 : ((i : ℤ) : ℝ) < ((a : ℤ) : ℝ) + 1 := by push_cast; linarith
      have h1' : (a : ℤ) ≤ i := by exact_mod_cast h1
      have h2' : (i : ℤ) < a + 1 := by exact_mod_cast h2
      omega
    have hia' : i = a := by exact_mod_cast hia
    have hjb : (j : ℤ) = b := by
      have h1 : ((b : ℤ) : ℝ) ≤ ((j : ℤ) : ℝ) := by push_cast; linarith
      have h2 : ((j : ℤ) : ℝ) < ((b : ℤ) : ℝ) + 1 := by push_cast; linarith
      have h1' : (b : ℤ) ≤ j := by exact_mod_cast h1
      have h2' : (j : ℤ) < b + 1 := by exact_mod_cast h2
      omega
    have hjb' : j = b := by exact_mod_cast hjb
    subst hia' hjb'
    have ht : t = 0 := by linarith
    have hu : u = 0 := by linarith
    subst ht hu
    simp only at e
    rw [e]
    obtain ⟨k1, k2, k3, k4⟩ := cubicKernel_four (le_refl (0 : ℝ)) (by norm_num)
    rw [k1, k2, k3, k4]
    norm_num
    exact hcv.exact _

example : bicubic Conv.u8 0 (picture 3 2 fun x y => BitVec.ofNat 8 (50 * x + y)) 2 1 = .ok 101#8 := by
  simpa using C42_exact_on_grid Conv.u8 conv_u8_lawful 0 (picture_shows 3 2 fun x y => BitVec.ofNat 8 (50 * x + y)) 2 1
    (by decide) (by decide)

/-- On a constant image every position inside returns the constant. -/
theorem C42_constants (cv : Conv α) (hcv : cv.Lawful) (zero c : α) (s : im.Shows w h fun _ _ => c)
    (x y : ℝ) (hx0 : 0 ≤ x) (hx : x ≤ (w : ℝ) - 1) (hy0 : 0 ≤ y) (hy : y ≤ (h : ℝ) - 1) :
    bicubic cv zero im x y = .ok c := by
  by_cases hb : x < 1 ∨ x ≥ (w : ℝ) - 2 ∨ y < 1 ∨ y ≥ (h : ℝ) - 2
  · unfold bicubic
    simp only [s.width, s.height]
    rw [if_pos hb, bilinear_inside cv zero s hx0 hx hy0 hy]
    congr 1
    rw [← hcv.exact c]
    congr 1
    simp only [hcv.exact]
    ring
  · push Not at hb
    obtain ⟨gx0, gx, gy0, gy⟩ := hb
    obtain ⟨a, b, t, u, _, _, _, _, t0, t1, u0, u1, hxt, hyu, e⟩ :=
      bicubic_inside cv zero s gx0 gx gy0 gy
    simp only at e
    rw [e]
    congr 1
    rw [← hcv.exact c]
    congr 1
    simp only [hcv.exact]
    have kt := (C42_kernel.2.2.2 t t0 t1.le).1
    have ku := (C42_kernel.2.2.2 u u0 u1.le).1
    have hrow : 0 + cv.toR c * cubicKernel (t + 1) + cv.toR c * cubicKernel t +
        cv.toR c * cubicKernel (t - 1) + cv.toR c * cubicKernel (t - 2) = cv.toR c := by
      rw [zero_add, ← mul_add, ← mul_add, ← mul_add, kt, mul_one]
    rw [hrow, zero_add, ← mul_add, ← mul_add, ← mul_add, ku, mul_one]

example : bicubic Conv.real 0 (picture 3 2 fun _ _ => (7 : ℝ)) (5 / 4) (1 / 3) = .ok 7 :=
  C42_constants Conv.real conv_real_lawful 0 7 (picture_shows ..) _ _ (by norm_num) (by norm_num) (by norm_num)
    (by norm_num)

/-- Inside the image the interpolator always returns: it never reads outside. -/
theorem C42_never_out_of_range (cv : Conv α) (zero : α) (s : im.Shows w h f) (x y : ℝ) :
    ∃ v, bicubic cv zero im x y = .ok v := by
  by_cases hb : x < 1 ∨ x ≥ (w : ℝ) - 2 ∨ y < 1 ∨ y ≥ (h : ℝ) - 2
  · unfold bicubic
    simp only [s.width, s.height]
    rw [if_pos hb]
    by_cases ho : x < 0 ∨ x > (w : ℝ) - 1 ∨ y < 0 ∨ y > (h : ℝ) - 1
    · exact ⟨_, C41_zero_outside cv zero s x y ho⟩
    · push Not at ho
      exact ⟨_, bilinear_inside cv zero s ho.1 ho.2.1 ho.2.2.1 ho.2.2.2⟩
  · push Not at hb
    obtain ⟨_, _, _, _, _, _, _, _, _, _, _, _, _, _, e⟩ :=
      bicubic_inside cv zero s hb.1 hb.2.1 hb.2.2.1 hb.2.2.2
    exact ⟨_, e⟩

example : ∃ (im : Image ℝ), im.Shows 6 6 (fun _ _ => (3 : ℝ)) ∧ (0 : ℝ) ≤ 5 / 2 ∧
    (5 / 2 : ℝ) ≤ ((6 : Nat) : ℝ) - 1 :=
  ⟨_, ofSizes_shows 3 (by decide) (by decide) (by decide), by norm_num, by norm_num⟩

/-! ## C43 nearest-neighbour resizing -/

theorem toSize_ratio {o n x : Nat} (ho : o < 2 ^ 64) (hx : x < n) :
    toSize ((x : ℝ) * ((o : ℝ) / (n : ℝ))) = .ok (x * o / n) := by
  have hn : (0 : ℝ) < n := by exact_mod_cast (by omega : 0 < n)
  have e : (x : ℝ) * ((o : ℝ) / (n : ℝ)) = ((x * o : Nat) : ℝ) / (n : ℝ) := by push_cast; ring
  rw [e, toSize_ok (by positivity) ?_, Nat.floor_div_natCast, Nat.floor_natCast]
  rw [div_lt_iff₀ hn]
  have : ((x * o : Nat) : ℝ) ≤ ((2 ^ 64 * n - 1 : Nat) : ℝ) := by
    have h1 : x * o ≤ n * 2 ^ 64 - 1 := by
      have : x * o < n * 2 ^ 64 := by
        calc x * o ≤ x * 2 ^ 64 := Nat.mul_le_mul_left _ ho.le
          _ < n * 2 ^ 64 := Nat.mul_lt_mul_of_pos_right hx (by decide)
      omega
    rw [Nat.mul_comm n] at h1
    exact_mod_cast h1
  have h2 : ((2 ^ 64 * n - 1 : Nat) : ℝ) < 2 ^ 64 * n := by
    have : 2 ^ 64 * n - 1 < 2 ^ 64 * n := by
      have : 0 < 2 ^ 64 * n := Nat.mul_pos (by decide) (by omega)
      omega
    exact_mod_cast this
  linarith

theorem ratio_lt {o n x : Nat} (h0 : 0 < o) (hx : x < n) : x * o / n < o := by
  rw [Nat.div_lt_iff_lt_mul (by omega), Nat.mul_comm o n]
  exact Nat.mul_lt_mul_of_pos_right hx h0

theorem resizeNearestOrd_shows (zero : α) (s : im.Shows w h f) (hw : 0 < w) (hh : 0 < h) (nw nh : Nat)
    (hnw : nw < 2 ^ 64) (hnh : nh < 2 ^ 64) (hf : nw * nh < 2 ^ 64) (order : List (Nat × Nat))
    (hp : order.Perm (iterYX nw nh)) :
    ∃ out, resizeNearestOrd zero order im nw nh = .ok out ∧
      out.Shows nw nh fun x y => f (x * w / nw) (y * h / nh) := by
  have s0 := ofSizes_shows zero hnw hnh hf
  have hstep : ∀ p ∈ order, ∀ (o : Image α) g, o.Shows nw nh g →
      ∃ o', (do
        let sx ← toSize ((p.1 : ℝ) * ((im.width : ℝ) / (nw : ℝ)))
        let sy ← toSize ((p.2 : ℝ) * ((im.height : ℝ) / (nh : ℝ)))
        let v ← im.at2u sx sy
        o.set2u p.1 p.2 v) = .ok o' ∧
        o'.Shows nw nh (updPx g p.1 p.2 (f (p.1 * w / nw) (p.2 * h / nh))) := by
    rintro ⟨x, y⟩ hb o g sg
    have hb := mem_iterYX.mp (hp.mem_iff.mp hb)
    simp only at hb
    simp only [s.width, s.height]
    rw [toSize_ratio s.w_lt hb.1, Res.ok_bind, toSize_ratio s.h_lt hb.2, Res.ok_bind,
      s.at2u (ratio_lt hw hb.1) (ratio_lt hh hb.2), Res.ok_bind]
    exact sg.set2u hb.1 hb.2 _
  have hcov : ∀ X Y, X < nw → Y < nh → ∃ b ∈ order, id b = (X, Y) :=
    fun X Y hX hY => ⟨(X, Y), hp.mem_iff.mpr (mem_iterYX.mpr ⟨hX, hY⟩), rfl⟩
  exact loop_fill (id : Nat × Nat → Nat × Nat) (fun x y => f (x * w / nw) (y * h / nh)) _ order
    hstep hcov _ _ s0

/-- Resizing a non-empty image to `nw × nh`: the result has that size, and its pixel `(x, y)` is the
input pixel at the proportional position `(⌊x·w/nw⌋, ⌊y·h/nh⌋)`, which lies inside the input. -/
theorem C43_resize (zero : α) (s : im.Shows w h f) (hw : 0 < w) (hh : 0 < h) (nw nh : Nat)
    (hnw : nw < 2 ^ 64) (hnh : nh < 2 ^ 64) (hf : nw * nh < 2 ^ 64) :
    ∃ out, resizeNearest zero im nw nh = .ok out ∧
      out.Shows nw nh (fun x y => f (x * w / nw) (y * h / nh)) ∧
      ∀ x y, x < nw → y < nh → x * w / nw < w ∧ y * h / nh < h := by
  obtain ⟨o, e, so⟩ := resizeNearestOrd_shows zero s hw hh nw nh hnw hnh hf _ (.refl _)
  exact ⟨o, e, so, fun x y hx hy => ⟨ratio_lt hw hx, ratio_lt hh hy⟩⟩

example := C43_resize 0 sample2_shows (by decide) (by decide) 5 7 (by decide) (by decide) (by decide)

/-- Resizing to the same size is the identity. -/
theorem C43_same_size (zero : α) (s : im.Shows w h f) (hw : 0 < w) (hh : 0 < h) :
    resizeNearest zero im w h = .ok im := by
  obtain ⟨o, e, so, _⟩ := C43_resize zero s hw hh w h s.w_lt s.h_lt s.fits
  rw [e]
  congr 1
  refine so.ext s fun x y hx hy => ?_
  rw [Nat.mul_div_cancel _ hw, Nat.mul_div_cancel _ hh]

example : resizeNearest 0 sample2 3 2 = .ok sample2 := C43_same_size 0 sample2_shows (by decide) (by decide)

/-- Enlarging by integer factors and shrinking back restores the image. -/
theorem C43_enlarge_shrink (zero : α) (s : im.Shows w h f) (hw : 0 < w) (hh : 0 < h) (a b : Nat)
    (ha : 0 < a) (hb : 0 < b) (h1 : w * a < 2 ^ 64) (h2 : h * b < 2 ^ 64)
    (hf : w * a * (h * b) < 2 ^ 64) :
    (resizeNearest zero im (w * a) (h * b) >>= fun big => resizeNearest zero big w h) = .ok im := by
  obtain ⟨o, e, so, _⟩ := C43_resize zero s hw hh (w * a) (h * b) h1 h2 hf
  obtain ⟨o', e', so', _⟩ := C43_resize zero so (Nat.mul_pos hw ha) (Nat.mul_pos hh hb) w h s.w_lt
    s.h_lt s.fits
  rw [e, Res.ok_bind, e']
  congr 1
  refine so'.ext s fun x y hx hy => ?_
  have e1 : x * (w * a) / w = x * a := by
    rw [Nat.mul_left_comm, Nat.mul_div_cancel_left _ hw]
  have e2 : x * a * w / (w * a) = x := by
    rw [Nat.mul_assoc, Nat.mul_comm a w, Nat.mul_div_cancel _ (Nat.mul_pos hw ha)]
  have e3 : y * (h * b) / h = y * b := by
    rw [Nat.mul_left_comm, Nat.mul_div_cancel_left _ hh]
  have e4 : y * b * h / (h * b) = y := by
    rw [Nat.mul_assoc, Nat.mul_comm b h, Nat.mul_div_cancel _ (Nat.mul_pos hh hb)]
  rw [e1, e2, e3, e4]

example : (resizeNearest 0 sample2 12 10 >>= fun big => resizeNearest 0 big 3 2) = .ok sample2 :=
  C43_enlarge_shrink 0 sample2_shows (by decide) (by decide) 4 5 (by decide) (by decide) (by decide) (by decide)
    (by decide)

/-- C27 for `resize_nearest_neighbor`: every order of the per-pixel bodies gives the same image. -/
theorem C27_resize_schedules (zero : α) (s : im.Shows w h f) (hw : 0 < w) (hh : 0 < h) (nw nh : Nat)
    (hnw : nw < 2 ^ 64) (hnh : nh < 2 ^ 64) (hf : nw * nh < 2 ^ 64) (order : List (Nat × Nat))
    (hp : order.Perm (iterYX nw nh)) :
    resizeNearestOrd zero order im nw nh = resizeNearest zero im nw nh := by
  obtain ⟨o, e, so⟩ := resizeNearestOrd_shows zero s hw hh nw nh hnw hnh hf order hp
  obtain ⟨o', e', so'⟩ := resizeNearestOrd_shows zero s hw hh nw nh hnw hnh hf _ (.refl _)
  rw [resizeNearest, e, e', so.ext so' fun _ _ _ _ => rfl]

example : ∃ f, sample2.Shows 3 2 f ∧ 7 * 5 < 2 ^ 64 := ⟨_, sample2_shows, by decide⟩

/-! ## C44 the fisheye root finder -/

theorem bisect_spec (g : ℝ → ℝ) (r : ℝ) (n : Nat) (lo hi : ℝ) (hle : lo ≤ hi) (h1 : g lo ≤ r)
    (h2 : r ≤ g hi) :
    let b := bisect g r n lo hi
    g b.1 ≤ r ∧ r ≤ g b.2 ∧ lo ≤ b.1 ∧ b.1 ≤ b.2 ∧ b.2 ≤ hi ∧ b.2 - b.1 = (hi - lo) / 2 ^ n := by
  induction n generalizing lo hi with
  | zero => exact ⟨h1, h2, le_refl _, hle, le_refl _, by simp [bisect]⟩
  | succ n ih =>
    simp only [bisect]
    split
    · rename_i hc
      obtain ⟨a, b, c, d, e, k⟩ := ih (lo + (hi - lo) / 2) hi (by linarith) hc.le h2
      refine ⟨a, b, by linarith, d, e, ?_⟩
      rw [k, pow_succ]; field_simp; ring
    · rename_i hc
      obtain ⟨a, b, c, d, e, k⟩ := ih lo (lo + (hi - lo) / 2) (by linarith) h1 (not_lt.mp hc)
      refine ⟨a, b, c, d, by linarith, ?_⟩
      rw [k, pow_succ]; field_simp; ring

/-- The bisection for any continuous mapping that brackets the target: the returned midpoint lies in
the initial interval and within `width / 2^(n+1)` of a true solution. -/
theorem C44_bisection (g : ℝ → ℝ) (r lo hi : ℝ) (n : Nat) (hle : lo ≤ hi)
    (hc : ContinuousOn g (Set.Icc lo hi)) (h1 : g lo ≤ r) (h2 : r ≤ g hi) :
    let b := bisect g r n lo hi
    let m := b.1 + (b.2 - b.1) / 2
    lo ≤ m ∧ m ≤ hi ∧ ∃ x, lo ≤ x ∧ x ≤ hi ∧ g x = r ∧ |m - x| ≤ (hi - lo) / 2 ^ (n + 1) := by
  obtain ⟨a, b, c, d, e, k⟩ := bisect_spec g r n lo hi hle h1 h2
  generalize bisect g r n lo hi = B at *
  refine ⟨by linarith, by linarith, ?_⟩
  have hsub : Set.Icc B.1 B.2 ⊆ Set.Icc lo hi := Set.Icc_subset_Icc c e
  obtain ⟨x, ⟨hx1, hx2⟩, hx⟩ := intermediate_value_Icc d (hc.mono hsub) ⟨a, b⟩
  refine ⟨x, le_trans c hx1, le_trans hx2 e, hx, ?_⟩
  have hk : (hi - lo) / 2 ^ (n + 1) = (B.2 - B.1) / 2 := by
    rw [k, pow_succ]; field_simp
  rw [hk, abs_le]
  constructor <;> linarith

-- The square root of two.
example := C44_bisection (fun x => x ^ 2) 2 1 2 50 (by norm_num) (by fun_prop) (by norm_num) (by norm_num)

theorem fisheyeRadius_continuous (D0 : ℝ) : Continuous (fisheyeRadius D0) := by
  unfold fisheyeRadius
  exact continuous_id.mul (Real.continuous_exp.comp
    (((continuous_id.mul continuous_id).neg).div_const _))

/-- The radius mapping is strictly increasing on `[0, D0]`, so the solution is unique. -/
theorem C44_mapping_strictMono (D0 : ℝ) (hD : 0 < D0) :
    StrictMonoOn (fisheyeRadius D0) (Set.Icc 0 D0) := by
  apply strictMonoOn_of_deriv_pos (convex_Icc 0 D0) (fisheyeRadius_continuous D0).continuousOn
  intro x hx
  rw [interior_Icc] at hx
  have hd : HasDerivAt (fisheyeRadius D0)
      (1 * Real.exp (-(x * x) / (2 * D0 * D0)) +
        x * (Real.exp (-(x * x) / (2 * D0 * D0)) * (-(1 * x + x * 1) / (2 * D0 * D0)))) x := by
    unfold fisheyeRadius
    refine HasDerivAt.mul (hasDerivAt_id x) ?_
    refine HasDerivAt.exp ?_
    exact (((hasDerivAt_id x).mul (hasDerivAt_id x)).neg).div_const _
  rw [hd.deriv]
  have hpos := Real.exp_pos (-(x * x) / (2 * D0 * D0))
  have : 1 * Real.exp (-(x * x) / (2 * D0 * D0)) +
        x * (Real.exp (-(x * x) / (2 * D0 * D0)) * (-(1 * x + x * 1) / (2 * D0 * D0)))
      = Real.exp (-(x * x) / (2 * D0 * D0)) * ((D0 * D0 - x * x) / (D0 * D0)) := by
    field_simp
    ring
  rw [this]
  refine mul_pos hpos (div_pos ?_ (mul_pos hD hD))
  nlinarith [hx.1, hx.2]

example := C44_mapping_strictMono 640 (by norm_num)

/-- `GaussianFisheyeInverseRootFinder` for `D0 > 0`: the result lies in `[0, D0]`; for a radius that
is attained it is within `D0 / 2^51` of the unique solution in `[0, D0]`; non-positive radii give 0 and
radii beyond the largest attained one give `D0`. -/
theorem C44_root_finder (r D0 : ℝ) (hD : 0 < D0) :
    0 ≤ fisheyeRoot r D0 ∧ fisheyeRoot r D0 ≤ D0 ∧
    (0 ≤ r → r ≤ fisheyeRadius D0 D0 → ∃ x, 0 ≤ x ∧ x ≤ D0 ∧ fisheyeRadius D0 x = r ∧
      (∀ x', 0 ≤ x' → x' ≤ D0 → fisheyeRadius D0 x' = r → x' = x) ∧
      |fisheyeRoot r D0 - x| ≤ D0 / 2 ^ 51) ∧
    (r ≤ 0 → fisheyeRoot r D0 = 0) ∧ (fisheyeRadius D0 D0 ≤ r → fisheyeRoot r D0 = D0) := by
  have hmax : fisheyeRadius D0 D0 = D0 * Real.exp (-0.5) := by
    unfold fisheyeRadius
    congr 2
    field_simp
    norm_num
  have hz : fisheyeRadius D0 0 = 0 := by simp [fisheyeRadius]
  have hmaxpos : 0 < fisheyeRadius D0 D0 := by rw [hmax]; exact mul_pos hD (Real.exp_pos _)
  have huniq : ∀ x, 0 ≤ x → x ≤ D0 → fisheyeRadius D0 x = r → ∀ x', 0 ≤ x' → x' ≤ D0 →
      fisheyeRadius D0 x' = r → x' = x := fun x h1 h2 h3 x' h1' h2' h3' =>
    (C44_mapping_strictMono D0 hD).injOn ⟨h1', h2'⟩ ⟨h1, h2⟩ (by rw [h3, h3'])
  have heps : 0 ≤ D0 / 2 ^ 51 := by positivity
  have hlow : r ≤ 0 → fisheyeRoot r D0 = 0 := fun hr => by rw [fisheyeRoot, if_pos hr]
  have hhigh : fisheyeRadius D0 D0 ≤ r → fisheyeRoot r D0 = D0 := fun hr => by
    rw [fisheyeRoot, if_neg (by linarith), if_pos (by rw [← hmax]; exact hr)]
  have hmid : 0 < r → r < fisheyeRadius D0 D0 → 0 ≤ fisheyeRoot r D0 ∧ fisheyeRoot r D0 ≤ D0 ∧
      ∃ x, 0 ≤ x ∧ x ≤ D0 ∧ fisheyeRadius D0 x = r ∧ |fisheyeRoot r D0 - x| ≤ D0 / 2 ^ 51 := by
    intro h1 h2
    have e : fisheyeRoot r D0 = (bisect (fisheyeRadius D0) r 50 0 D0).1 +
        ((bisect (fisheyeRadius D0) r 50 0 D0).2 - (bisect (fisheyeRadius D0) r 50 0 D0).1) / 2 := by
      rw [fisheyeRoot, if_neg (by linarith), if_neg (by rw [← hmax]; linarith)]
    obtain ⟨a, b, x, hx⟩ := C44_bisection (fisheyeRadius D0) r 0 D0 50 hD.le
      (fisheyeRadius_continuous D0).continuousOn (by rw [hz]; exact h1.le) h2.le
    rw [sub_zero] at hx
    rw [e]
    exact ⟨a, b, x, hx⟩
  rcases le_or_gt r 0 with h0 | h0
  · rw [hlow h0]
    refine ⟨le_refl _, hD.le, fun h1 _ => ?_, fun _ => rfl, fun h1 => by linarith⟩
    have : r = 0 := le_antisymm h0 h1
    subst this
    exact ⟨0, le_refl _, hD.le, hz, huniq 0 (le_refl _) hD.le hz, by simpa using heps⟩
  · rcases le_or_gt (fisheyeRadius D0 D0) r with h1 | h1
    · rw [hhigh h1]
      refine ⟨hD.le, le_refl _, fun _ h2 => ?_, fun h2 => by linarith, fun _ => rfl⟩
      have : fisheyeRadius D0 D0 = r := le_antisymm h1 h2
      exact ⟨D0, hD.le, le_refl _, this, huniq D0 hD.le (le_refl _) this, by simpa using heps⟩
    · obtain ⟨a, b, x, x0, x1, hx, hm⟩ := hmid h0 h1
      exact ⟨a, b, fun _ _ => ⟨x, x0, x1, hx, huniq x x0 x1 hx, hm⟩, fun h2 => by linarith,
        fun h2 => by linarith⟩

/-- Radius 10 in a picture with `D0 = 100`. -/
example : ∃ x, 0 ≤ x ∧ x ≤ 100 ∧ fisheyeRadius 100 x = 10 ∧ |fisheyeRoot 10 100 - x| ≤ 100 / 2 ^ 51 := by
  have hm : (10 : ℝ) ≤ fisheyeRadius 100 100 := by
    have := Real.add_one_le_exp (-0.5 : ℝ)
    unfold fisheyeRadius
    norm_num at this ⊢
    linarith
  obtain ⟨x, h1, h2, h3, -, h4⟩ := (C44_root_finder 10 100 (by norm_num)).2.2.1 (by norm_num) hm
  exact ⟨x, h1, h2, h3, h4⟩

/-! ## C21 rotate by quarter turns -/

/-- What the code does: a multiple of a quarter turn is reduced to 0 by `fmod` before any turn is
made, so the image is returned unchanged. -/
theorem C21_quarter_turns_dropped (zero : α) (s : im.Shows w h f) (k : ℤ) :
    rotate zero im ((k : ℝ) * (Real.pi / 2)) = .ok im := by
  have hpi : Real.pi / 2 ≠ 0 := by positivity
  rw [rotate, if_neg (by simp [s.dim])]
  simp only
  rw [fmod_mul_int hpi k]
  have hn : ⌈((0 : ℝ) - Real.pi / 2) / (Real.pi / 2)⌉₊ = 0 := by
    rw [Nat.ceil_eq_zero, zero_sub, neg_div, div_self hpi]; norm_num
  rw [hn]
  simp only [rotateLoop, Res.ok_bind, Nat.cast_zero, zero_mul, sub_zero]
  rw [rotateDetail, if_neg (by simp [s.dim]), if_pos rfl]

example : rotate 0 sample2 ((1 : ℤ) * (Real.pi / 2)) = .ok sample2 := C21_quarter_turns_dropped 0 sample2_shows 1

/-- Proved part: for a whole number of full turns the image is the image turned by that many quarter
turns, i.e. itself. Missing: the other multiples (see the violation). -/
theorem C21_rotate_partial (zero : α) (s : im.Shows w h f) (k : ℤ) (hk : 4 ∣ k) :
    ∃ out, rotate zero im ((k : ℝ) * (Real.pi / 2)) = .ok out ∧
      out.Shows (turnSize (k % 4).toNat (w, h)).1 (turnSize (k % 4).toNat (w, h)).2
        (turnPx w h f (k % 4).toNat) := by
  refine ⟨im, C21_quarter_turns_dropped zero s k, ?_⟩
  have : (k % 4).toNat = 0 := by omega
  rw [this]
  exact s

example := C21_rotate_partial 0 sample2_shows (-8) (by decide)

/-- Violation: a quarter turn of a 3 × 2 image returns a 3 × 2 image (the input) instead of the turned
2 × 3 image. -/
theorem C21_rotate_violation :
    rotate 0 sample2 ((1 : ℤ) * (Real.pi / 2)) = .ok sample2 ∧
      ¬ ∃ out, rotate 0 sample2 ((1 : ℤ) * (Real.pi / 2)) = .ok out ∧
        out.Shows (turnSize 1 (3, 2)).1 (turnSize 1 (3, 2)).2
          (turnPx 3 2 (fun x y => sample2.data[x + 3 * y]!) 1) := by
  refine ⟨C21_quarter_turns_dropped 0 sample2_shows 1, ?_⟩
  rintro ⟨out, e, so⟩
  rw [C21_quarter_turns_dropped 0 sample2_shows 1] at e
  injection e with e
  have := so.size
  rw [← e] at this
  exact absurd this (by decide)

/-- For every angle: if `rotate` returns, the result has the sizes of the input (so no quarter turn of
a non-square image can be right). -/
theorem C21_size_kept (zero : α) (s : im.Shows w h f) (radians : ℝ) (out : Image α)
    (e : rotate zero im radians = .ok out) : out.size = im.size := by
  have hpi : 0 < Real.pi / 2 := by positivity
  have hr : fmod radians (Real.pi / 2) < Real.pi / 2 := by
    unfold fmod
    have hx : radians = Real.pi / 2 * (radians / (Real.pi / 2)) := by field_simp
    generalize hq : radians / (Real.pi / 2) = q at *
    split
    · have := Int.lt_floor_add_one q
      nlinarith
    · have := Int.le_ceil q
      nlinarith
  rw [rotate, if_neg (by simp [s.dim])] at e
  simp only at e
  have hn : ⌈(fmod radians (Real.pi / 2) - Real.pi / 2) / (Real.pi / 2)⌉₊ = 0 := by
    rw [Nat.ceil_eq_zero]
    exact div_nonpos_of_nonpos_of_nonneg (by linarith) hpi.le
  rw [hn] at e
  simp only [rotateLoop, Res.ok_bind, Nat.cast_zero, zero_mul, sub_zero] at e
  rw [rotateDetail, if_neg (by simp [s.dim])] at e
  split at e
  · injection e with e; rw [← e]
  · rw [if_neg (by linarith)] at e
    have hsize : ∀ (l : List (Nat × Nat)) (o : Image α) (body : Image α → Nat → Nat → Res (Image α)),
        (∀ o x y o', body o x y = .ok o' → o'.size = o.size) → ∀ o', pixFor l body o = .ok o' →
        o'.size = o.size := by
      intro l
      induction l with
      | nil => intro o body _ o' h; injection h with h; rw [h]
      | cons p l ih =>
        intro o body hb o' h
        rw [pixFor, loop] at h
        cases hp : body o p.1 p.2 with
        | ok o1 =>
          rw [hp] at h
          rw [ih o1 body hb o' h, hb _ _ _ _ hp]
        | throw e => rw [hp] at h; cases h
        | ub => rw [hp] at h; cases h
    simp only at e
    rw [hsize _ _ _ ?_ out e]
    · rw [s.width, s.height, s.size]; rfl
    · intro o x y o' hb
      generalize toSize _ = t1 at hb
      cases t1 with
      | ok a =>
        generalize toSize _ = t2 at hb
        cases t2 with
        | ok b =>
          simp only [Res.ok_bind] at hb
          cases h3 : im.at2 x y with
          | ok v =>
            rw [h3, Res.ok_bind] at hb
            exact setAt_size hb
          | throw e => rw [h3] at hb; cases hb
          | ub => rw [h3] at hb; cases hb
        | throw e => cases hb
        | ub => cases hb
      | throw e => cases hb
      | ub => cases hb

example : sample2.size = sample2.size :=
  C21_size_kept 0 sample2_shows _ sample2 (C21_quarter_turns_dropped 0 sample2_shows 3)

/-- The step `rotate` is made of: an angle of 0 returns the image, an angle of exactly a quarter turn
returns the image turned once (the turn `rotate` never asks for). -/
theorem C21_detail (zero : α) (s : im.Shows w h f) :
    rotateDetail zero im 0 = .ok im ∧
    ∃ out, rotateDetail zero im (Real.pi / 2) = .ok out ∧
      out.Shows (turnSize 1 (w, h)).1 (turnSize 1 (w, h)).2 (turnPx w h f 1) := by
  have hpi : Real.pi / 2 ≠ 0 := by positivity
  constructor
  · rw [rotateDetail, if_neg (by simp [s.dim]), if_pos rfl]
  · rw [rotateDetail, if_neg (by simp [s.dim]), if_neg hpi, if_pos rfl]
    exact quarterTurnBranch_shows zero s

example := C21_detail 0 sample2_shows

/-! ## C76 the reverse-mapping rotation -/

theorem radians_mod (k : ℤ) :
    (let r0 := fmod ((k : ℝ) * (Real.pi / 2)) (2 * Real.pi)
     if r0 < 0 then r0 + 2 * Real.pi else r0) = ((k % 4 : ℤ) : ℝ) * (Real.pi / 2) := by
  have hpi := Real.pi_pos
  have hd : (k : ℝ) * (Real.pi / 2) / (2 * Real.pi) = (k : ℝ) / 4 := by field_simp; norm_num
  have hk : (k : ℝ) = 4 * ((k / 4 : ℤ) : ℝ) + ((k % 4 : ℤ) : ℝ) := by
    have := Int.mul_ediv_add_emod k 4
    exact_mod_cast this.symm
  have r0 : 0 ≤ k % 4 := by omega
  have r4 : k % 4 < 4 := by omega
  have r0' : (0 : ℝ) ≤ ((k % 4 : ℤ) : ℝ) := by exact_mod_cast r0
  have r4' : ((k % 4 : ℤ) : ℝ) < 4 := by exact_mod_cast r4
  have hfl : ⌊(k : ℝ) / 4⌋ = k / 4 := by
    rw [Int.floor_eq_iff]
    constructor <;> linarith
  have hsmall : 0 ≤ ((k % 4 : ℤ) : ℝ) * (Real.pi / 2) := by positivity
  unfold fmod
  simp only [hd, hfl]
  by_cases hpos : 0 ≤ (k : ℝ) / 4
  · rw [if_pos hpos]
    have : (k : ℝ) * (Real.pi / 2) - 2 * Real.pi * ((k / 4 : ℤ) : ℝ)
        = ((k % 4 : ℤ) : ℝ) * (Real.pi / 2) := by
      conv_lhs => rw [hk]
      ring
    rw [this, if_neg (not_lt.mpr hsmall)]
  · rw [if_neg hpos]
    rcases eq_or_lt_of_le r0 with hz | hz
    · have hc : ⌈(k : ℝ) / 4⌉ = k / 4 := by
        rw [Int.ceil_eq_iff]
        have : ((k % 4 : ℤ) : ℝ) = 0 := by exact_mod_cast hz.symm
        constructor <;> linarith
      have : (k : ℝ) * (Real.pi / 2) - 2 * Real.pi * ((k / 4 : ℤ) : ℝ)
          = ((k % 4 : ℤ) : ℝ) * (Real.pi / 2) := by
        conv_lhs => rw [hk]
        ring
      rw [hc, this, if_neg (not_lt.mpr hsmall)]
    · have hz' : (0 : ℝ) < ((k % 4 : ℤ) : ℝ) := by exact_mod_cast hz
      have hc : ⌈(k : ℝ) / 4⌉ = k / 4 + 1 := by
        rw [Int.ceil_eq_iff]
        push_cast
        constructor <;> linarith
      have : (k : ℝ) * (Real.pi / 2) - 2 * Real.pi * ((k / 4 + 1 : ℤ) : ℝ)
          = ((k % 4 : ℤ) : ℝ) * (Real.pi / 2) - 2 * Real.pi := by
        push_cast
        conv_lhs => rw [hk]
        ring
      have hneg : ((k % 4 : ℤ) : ℝ) * (Real.pi / 2) - 2 * Real.pi < 0 := by nlinarith
      rw [hc, this, if_pos hneg]
      ring

/-- The general branch of `rotate_detail_shear_transformation`, when the source positions of all new
pixels are known. -/
theorem shear_loop (zero : α) (interp : Image α → ℝ → ℝ → Res α) (W H : Nat) (hW : W < 2 ^ 64)
    (hH : H < 2 ^ 64) (hf : W * H < 2 ^ 64) (src : Nat → Nat → ℝ × ℝ) (g : Nat → Nat → α)
    (hg : ∀ X Y, X < W → Y < H → interp im (src X Y).1 (src X Y).2 = .ok (g X Y)) :
    ∃ out, pixFor (iterYX W H) (fun out xn yn => do
        let v ← interp im (src xn yn).1 (src xn yn).2
        out.set2 xn yn v) ((Image.ofSizes zero [W, H]).setAllValue zero) = .ok out ∧
      out.Shows W H g := by
  have s0 := setAllValue_shows (ofSizes_shows zero hW hH hf) zero
  have hstep : ∀ p ∈ iterYX W H, ∀ (o : Image α) g', o.Shows W H g' →
      ∃ o', (do
        let v ← interp im (src p.1 p.2).1 (src p.1 p.2).2
        o.set2 p.1 p.2 v) = .ok o' ∧ o'.Shows W H (updPx g' p.1 p.2 (g p.1 p.2)) := by
    rintro ⟨x, y⟩ hb o g' sg
    rw [mem_iterYX] at hb
    rw [hg x y hb.1 hb.2, Res.ok_bind]
    exact sg.set2 hb.1 hb.2 _
  exact loop_fill (id : Nat × Nat → Nat × Nat) g _ (iterYX W H) hstep
    (fun X Y hX hY => ⟨(X, Y), mem_iterYX.mpr ⟨hX, hY⟩, rfl⟩) _ _ s0

theorem toSize_ceil (n : Nat) (hn : n < 2 ^ 64) (v : ℝ) (hv : v = n) : toSize ((⌈v⌉ : ℤ) : ℝ) = .ok n := by
  rw [hv, Int.ceil_natCast]
  exact_mod_cast toSize_nat hn

/-- `rotate_detail_shear_transformation(image, k·π/2)` returns the image turned by `k` quarter turns,
for every integer `k` and every interpolator that is exact on the pixel grid. -/
theorem C76_shear_quarter_turns (zero : α) (interp : Image α → ℝ → ℝ → Res α) (s : im.Shows w h f)
    (hgrid : ∀ i j : Nat, i < w → j < h → interp im (i : ℝ) (j : ℝ) = .ok (f i j)) (k : ℤ) :
    ∃ out, rotateShear zero interp im ((k : ℝ) * (Real.pi / 2)) = .ok out ∧
      out.Shows (turnSize (k % 4).toNat (w, h)).1 (turnSize (k % 4).toNat (w, h)).2
        (turnPx w h f (k % 4).toNat) := by
  have hpi := Real.pi_pos
  rw [rotateShear, if_neg (by simp [s.dim])]
  have hm := radians_mod k
  simp only at hm
  simp only [hm, s.width, s.height]
  have hk : k % 4 = 0 ∨ k % 4 = 1 ∨ k % 4 = 2 ∨ k % 4 = 3 := by omega
  rcases hk with hk | hk | hk | hk <;> rw [hk]
  · rw [if_pos (by simp)]
    exact ⟨im, rfl, s⟩
  · rw [if_neg (by simp [hpi.ne']), if_pos (by simp)]
    exact quarterTurnBranch_shows zero s
  · have e : ((2 : ℤ) : ℝ) * (Real.pi / 2) = Real.pi := by push_cast; ring
    rw [e, if_neg hpi.ne', if_neg (by linarith), Real.cos_pi, Real.sin_pi,
      toSize_ceil h s.h_lt _ (by simp), Res.ok_bind, toSize_ceil w s.w_lt _ (by simp), Res.ok_bind]
    have hg : ∀ X Y : Nat, X < w → Y < h → interp im
        ((((X : ℝ) - ((w : ℝ) - 1) / 2) * -1 + ((Y : ℝ) - ((h : ℝ) - 1) / 2) * 0) + ((w : ℝ) - 1) / 2)
        ((-((X : ℝ) - ((w : ℝ) - 1) / 2) * 0 + ((Y : ℝ) - ((h : ℝ) - 1) / 2) * -1) + ((h : ℝ) - 1) / 2)
        = .ok (f (w - 1 - X) (h - 1 - Y)) := by
      intro X Y hX hY
      have := hgrid (w - 1 - X) (h - 1 - Y) (by omega) (by omega)
      rw [← this]
      congr 1
      · rw [Nat.cast_sub (by omega), Nat.cast_sub (by omega)]; push_cast; ring
      · rw [Nat.cast_sub (by omega), Nat.cast_sub (by omega)]; push_cast; ring
    obtain ⟨o, eo, so⟩ := shear_loop (im := im) zero interp w h s.w_lt s.h_lt s.fits
      (fun xn yn => ((((xn : ℝ) - ((w : ℝ) - 1) / 2) * -1 + ((yn : ℝ) - ((h : ℝ) - 1) / 2) * 0) +
        ((w : ℝ) - 1) / 2, (-((xn : ℝ) - ((w : ℝ) - 1) / 2) * 0 + ((yn : ℝ) - ((h : ℝ) - 1) / 2) * -1) +
        ((h : ℝ) - 1) / 2)) (fun X Y => f (w - 1 - X) (h - 1 - Y)) hg
    exact ⟨o, eo, so⟩
  · have e : ((3 : ℤ) : ℝ) * (Real.pi / 2) = Real.pi / 2 + Real.pi := by push_cast; ring
    have c : Real.cos (Real.pi / 2 + Real.pi) = 0 := by simp [Real.cos_add_pi]
    have d : Real.sin (Real.pi / 2 + Real.pi) = -1 := by simp [Real.sin_add_pi]
    rw [e, if_neg (by linarith), if_neg (by linarith), c, d,
      toSize_ceil w s.w_lt _ (by simp), Res.ok_bind, toSize_ceil h s.h_lt _ (by simp), Res.ok_bind]
    have hg : ∀ X Y : Nat, X < h → Y < w → interp im
        ((((X : ℝ) - ((h : ℝ) - 1) / 2) * 0 + ((Y : ℝ) - ((w : ℝ) - 1) / 2) * -1) + ((w : ℝ) - 1) / 2)
        ((-((X : ℝ) - ((h : ℝ) - 1) / 2) * -1 + ((Y : ℝ) - ((w : ℝ) - 1) / 2) * 0) + ((h : ℝ) - 1) / 2)
        = .ok (f (w - 1 - Y) X) := by
      intro X Y hX hY
      have := hgrid (w - 1 - Y) X (by omega) hX
      rw [← this]
      congr 1
      · rw [Nat.cast_sub (by omega), Nat.cast_sub (by omega)]; push_cast; ring
      · ring
    obtain ⟨o, eo, so⟩ := shear_loop (im := im) zero interp h w s.h_lt s.w_lt
      (by rw [Nat.mul_comm]; exact s.fits)
      (fun xn yn => ((((xn : ℝ) - ((h : ℝ) - 1) / 2) * 0 + ((yn : ℝ) - ((w : ℝ) - 1) / 2) * -1) +
        ((w : ℝ) - 1) / 2, (-((xn : ℝ) - ((h : ℝ) - 1) / 2) * -1 + ((yn : ℝ) - ((w : ℝ) - 1) / 2) * 0) +
        ((h : ℝ) - 1) / 2)) (fun X Y => f (w - 1 - Y) X) hg
    refine ⟨o, eo, so.congr ?_⟩
    intro X Y hX hY
    have e3 : (3 : ℤ).toNat = 3 := rfl
    simp only [e3, turnPx, turnSize, Prod.swap]
    congr 1
    omega

-- Nearest-neighbour sampling is exact on the grid.
example := C76_shear_quarter_turns 0 (fun p x y => p.at2 ⌊x⌋₊ ⌊y⌋₊) sample2_shows
  (fun i j hi hj => by simpa using sample2_shows.px i j hi hj) 3

/-- With the default bicubic interpolator. -/
theorem C76_shear_default (cv : Conv α) (hcv : cv.Lawful) (zero : α) (s : im.Shows w h f) (k : ℤ) :
    ∃ out, rotateShear zero (bicubic cv zero) im ((k : ℝ) * (Real.pi / 2)) = .ok out ∧
      out.Shows (turnSize (k % 4).toNat (w, h)).1 (turnSize (k % 4).toNat (w, h)).2
        (turnPx w h f (k % 4).toNat) :=
  C76_shear_quarter_turns zero _ s (fun i j hi hj => C42_exact_on_grid cv hcv zero s i j hi hj) k

example := C76_shear_default Conv.u8 conv_u8_lawful 0 (picture_shows 3 2 fun x y => BitVec.ofNat 8 (50 * x + y)) 3

/-- Four quarter turns bring every pixel back (so reducing `k` modulo 4 loses nothing). -/
theorem C76_four_turns (x y : Nat) (hx : x < w) (hy : y < h) : turnPx w h f 4 x y = f x y := by
  simp only [turnPx, turnSize, Prod.swap]
  congr 1 <;> omega

example : ∃ (im : Image ℝ) (f : Nat → Nat → ℝ), im.Shows 4 3 f :=
  ⟨_, _, ofSizes_shows 1 (by decide) (by decide) (by decide)⟩

/-! ## C77 gaussian_fisheye -/

/-- Where the pixel mapper looks for the pixel `(x, y)` of a `w × h` image: rounded position in the
input. -/
noncomputable def fisheyeSource (w h : Nat) (D0 : ℝ) (root : ℝ → ℝ → ℝ) (x y : Nat) : ℝ × ℝ :=
  let dx : ℝ := (x : ℝ) - (w : ℝ) / 2
  let dy : ℝ := (y : ℝ) - (h : ℝ) / 2
  let r := Real.sqrt (dx * dx + dy * dy)
  let scale := if r = 0 then 1 else root r D0 / r
  (stdRound (dx * scale + (w : ℝ) / 2), stdRound (dy * scale + (h : ℝ) / 2))

open Classical in
/-- The picture `gaussian_fisheye` shows when all source positions are non-negative. -/
noncomputable def fisheyePx (w h : Nat) (D0 : ℝ) (root : ℝ → ℝ → ℝ) (zero : α) (f : Nat → Nat → α)
    (x y : Nat) : α :=
  let p := fisheyeSource w h D0 root x y
  if p.1 < w ∧ p.2 < h then f ⌊p.1⌋₊ ⌊p.2⌋₊ else zero

theorem fisheyePixel_cases (D0 : ℝ) (root : ℝ → ℝ → ℝ) (s : im.Shows w h f) (zero : α)
    {x y : Nat} (hx : x < w) (hy : y < h) :
    let p := fisheyeSource w h D0 root x y
    (∀ (o : Image α) g, o.Shows w h g → g x y = zero → 0 ≤ p.1 → p.1 < 2 ^ 64 → 0 ≤ p.2 →
      p.2 < 2 ^ 64 → ∃ o', fisheyePixel im D0 root o x y = .ok o' ∧
        o'.Shows w h (updPx g x y (fisheyePx w h D0 root zero f x y))) := by
  intro p o g so hg h1 h2 h3 h4
  have e : fisheyePixel im D0 root o x y = (do
      let inX ← toSize p.1
      let inY ← toSize p.2
      if inX < im.width ∧ inY < im.height then do
        let v ← im.at2u inX inY
        o.set2u x y v
      else .ok o) := by
    unfold fisheyePixel
    simp only [so.width, so.height, s.width, s.height]
    rfl
  rw [e, toSize_ok h1 h2, Res.ok_bind, toSize_ok h3 h4, Res.ok_bind, s.width, s.height]
  have hiff : (⌊p.1⌋₊ < w ∧ ⌊p.2⌋₊ < h) ↔ (p.1 < w ∧ p.2 < h) := by
    rw [Nat.floor_lt h1, Nat.floor_lt h3]
  by_cases hc : p.1 < w ∧ p.2 < h
  · rw [if_pos (hiff.mpr hc), s.at2u (hiff.mpr hc).1 (hiff.mpr hc).2, Res.ok_bind]
    have hv : fisheyePx w h D0 root zero f x y = f ⌊p.1⌋₊ ⌊p.2⌋₊ := by
      unfold fisheyePx
      simp only
      rw [if_pos hc]
    rw [hv]
    exact so.set2u hx hy _
  · rw [if_neg (fun h => hc (hiff.mp h))]
    have hv : fisheyePx w h D0 root zero f x y = zero := by
      unfold fisheyePx
      simp only
      rw [if_neg hc]
    refine ⟨o, rfl, so.congr ?_⟩
    intro a b _ _
    rw [hv]
    by_cases hab : a = x ∧ b = y
    · simp [updPx, hab, hg]
    · simp [updPx, hab]

/-- When every rounded source position is representable as `size_t` (non-negative), then for every
order of the per-pixel bodies `gaussian_fisheye` returns an image of the input's size, each pixel of
which is the input pixel at the source position, or 0 when that lies outside. Missing: positions left
of or above the image, whose conversion to `size_t` is undefined (`C77_negative_violation`). -/
theorem C77_fisheye_partial (zero : α) (D0 : ℝ) (root : ℝ → ℝ → ℝ) (s : im.Shows w h f)
    (hsrc : ∀ x y, x < w → y < h → 0 ≤ (fisheyeSource w h D0 root x y).1 ∧
      (fisheyeSource w h D0 root x y).1 < 2 ^ 64 ∧ 0 ≤ (fisheyeSource w h D0 root x y).2 ∧
      (fisheyeSource w h D0 root x y).2 < 2 ^ 64)
    (order : List (Nat × Nat)) (hp : order.Perm (iterYX w h)) :
    ∃ out, gaussianFisheyeOrd zero order im D0 root = .ok out ∧
      out.Shows w h (fisheyePx w h D0 root zero f) := by
  rw [gaussianFisheyeOrd, if_neg (by simp [s.dim]), s.width, s.height]
  have key : ∀ (l : List (Nat × Nat)) (o : Image α) (g : Nat → Nat → α), o.Shows w h g → l.Nodup →
      (∀ p ∈ l, p.1 < w ∧ p.2 < h) → (∀ p ∈ l, g p.1 p.2 = zero) →
      ∃ out, loop (fun out p => fisheyePixel im D0 root out p.1 p.2) l o = .ok out ∧
        out.Shows w h fun x y => if (x, y) ∈ l then fisheyePx w h D0 root zero f x y else g x y := by
    intro l
    induction l with
    | nil => intro o g so _ _ _; exact ⟨o, rfl, by simpa using so⟩
    | cons p l ih =>
      intro o g so hnd hb hz
      obtain ⟨hx, hy⟩ := hb p (by simp)
      obtain ⟨h1, h2, h3, h4⟩ := hsrc p.1 p.2 hx hy
      obtain ⟨o', e, so'⟩ := fisheyePixel_cases D0 root s zero hx hy o g so (hz p (by simp)) h1 h2 h3 h4
      have hpl := (List.nodup_cons.mp hnd).1
      obtain ⟨out, e2, so2⟩ := ih o' _ so' (List.nodup_cons.mp hnd).2 (fun q hq => hb q (by simp [hq]))
        (fun q hq => by
          have : ¬ (q.1 = p.1 ∧ q.2 = p.2) := fun h => hpl (by
            have : q = p := Prod.ext h.1 h.2
            rwa [← this])
          simp only [updPx, this, if_false]
          exact hz q (by simp [hq]))
      refine ⟨out, by rw [loop, e]; exact e2, so2.congr ?_⟩
      intro x y _ _
      by_cases hm : (x, y) ∈ l
      · simp [hm]
      · by_cases hxp : (x, y) = p
        · subst hxp; simp [hm, updPx]
        · have : ¬ (x = p.1 ∧ y = p.2) := fun h => hxp (Prod.ext h.1 h.2)
          simp [hm, updPx, this, hxp]
  have hmem : ∀ p : Nat × Nat, p ∈ order ↔ p.1 < w ∧ p.2 < h := fun p => by
    rw [hp.mem_iff, mem_iterYX]
  obtain ⟨out, e, so⟩ := key order _ _ (ofSizes_shows zero s.w_lt s.h_lt s.fits)
    (hp.nodup_iff.mpr (iterYX_nodup w h)) (fun p hpm => (hmem p).mp hpm) (fun _ _ => rfl)
  refine ⟨out, e, so.congr ?_⟩
  intro x y hx hy
  rw [if_pos ((hmem (x, y)).mpr ⟨hx, hy⟩)]

/-- Violation: `gaussian_fisheye` of a 4 × 1 image with `D0 = 3` converts a negative position to
`size_t` for the pixel `(0, 0)`: undefined behaviour. -/
theorem C77_negative_violation (z : α) :
    gaussianFisheyeOrd z (iterYX 4 1) (Image.ofSizes z [4, 1]) 3 fisheyeRoot = .ub := by
  have hs := ofSizes_shows z (w := 4) (h := 1) (by decide) (by decide) (by decide)
  have hsq : (2 : ℝ) ≤ Real.sqrt (((0 : Nat) - ((4 : Nat) : ℝ) / 2) * ((0 : Nat) - ((4 : Nat) : ℝ) / 2) +
      ((0 : Nat) - ((1 : Nat) : ℝ) / 2) * ((0 : Nat) - ((1 : Nat) : ℝ) / 2)) := by
    apply Real.le_sqrt_of_sq_le; norm_num
  have hsq2 : Real.sqrt (((0 : Nat) - ((4 : Nat) : ℝ) / 2) * ((0 : Nat) - ((4 : Nat) : ℝ) / 2) +
      ((0 : Nat) - ((1 : Nat) : ℝ) / 2) * ((0 : Nat) - ((1 : Nat) : ℝ) / 2)) ≤ 2.1 := by
    rw [Real.sqrt_le_left (by norm_num)]; norm_num
  have hexp : (3 : ℝ) * Real.exp (-0.5) ≤ 2 := by
    have h1 : (1.5 : ℝ) ≤ Real.exp 0.5 := by
      have := Real.add_one_le_exp (0.5 : ℝ)
      linarith
    have h2 : Real.exp (-0.5) = (Real.exp 0.5)⁻¹ := Real.exp_neg _
    rw [h2]
    have : (Real.exp 0.5)⁻¹ ≤ (1.5 : ℝ)⁻¹ := inv_anti₀ (by norm_num) h1
    have h3 : (1.5 : ℝ)⁻¹ = 2 / 3 := by norm_num
    rw [h3] at this
    linarith
  have hroot : ∀ r : ℝ, 2 ≤ r → fisheyeRoot r 3 = 3 := by
    intro r hr
    rw [fisheyeRoot, if_neg (by linarith), if_pos (by linarith)]
  have hfirst : fisheyePixel (Image.ofSizes z [4, 1]) 3 fisheyeRoot (Image.ofSizes z [4, 1]) 0 0 = .ub := by
    unfold fisheyePixel
    simp only [hs.width, hs.height]
    generalize Real.sqrt _ = r at hsq hsq2 ⊢
    rw [hroot r hsq, if_neg (by linarith)]
    have hneg : (((0 : Nat) : ℝ) - ((4 : Nat) : ℝ) / 2) * (3 / r) + ((4 : Nat) : ℝ) / 2 ≤ -1 / 2 := by
      have hr : 0 < r := by linarith
      have : 3 / 2.1 ≤ 3 / r := div_le_div_of_nonneg_left (by norm_num) hr hsq2
      norm_num at this ⊢
      linarith
    have hround : stdRound ((((0 : Nat) : ℝ) - ((4 : Nat) : ℝ) / 2) * (3 / r) + ((4 : Nat) : ℝ) / 2) ≤ -1 := by
      generalize (((0 : Nat) : ℝ) - ((4 : Nat) : ℝ) / 2) * (3 / r) + ((4 : Nat) : ℝ) / 2 = v at hneg ⊢
      rw [stdRound, if_neg (by linarith)]
      have : ⌈v - 1 / 2⌉ ≤ (-1 : ℤ) := by
        rw [Int.ceil_le]; push_cast; linarith
      exact_mod_cast this
    rw [toSize, if_neg (by intro h; linarith [h.1])]
    rfl
  rw [gaussianFisheyeOrd, if_neg (by simp [hs.dim]), hs.width, hs.height,
    show iterYX 4 1 = (0, 0) :: [(1, 0), (2, 0), (3, 0)] from by decide, loop, hfirst]

theorem fisheyeSource_id (w h : Nat) (D0 : ℝ) (x y : Nat) :
    fisheyeSource w h D0 (fun r _ => r) x y = ((x : ℝ), (y : ℝ)) := by
  have hscale : ∀ r : ℝ, (if r = 0 then (1 : ℝ) else r / r) = 1 := by
    intro r
    by_cases hr : r = 0
    · simp [hr]
    · simp [hr]
  have hround : ∀ n : Nat, stdRound (n : ℝ) = n := by
    intro n
    rw [stdRound, if_pos (by positivity)]
    have hfl : ⌊(n : ℝ) + 1 / 2⌋ = (n : ℤ) := by
      rw [Int.floor_eq_iff]; push_cast; constructor <;> linarith
    rw [hfl]; simp
  unfold fisheyeSource
  simp only
  rw [hscale, show ((x : ℝ) - (w : ℝ) / 2) * 1 + (w : ℝ) / 2 = x by ring,
    show ((y : ℝ) - (h : ℝ) / 2) * 1 + (h : ℝ) / 2 = y by ring, hround, hround]

/-- The identity mapping of radii (`root r D0 = r`) keeps every position in range: the hypotheses of
`C77_fisheye_partial` are met by every image. -/
theorem fisheye_id_sources (w h : Nat) (D0 : ℝ) (hw : w ≤ 2 ^ 64) (hh : h ≤ 2 ^ 64) (x y : Nat) (hx : x < w)
    (hy : y < h) : 0 ≤ (fisheyeSource w h D0 (fun r _ => r) x y).1 ∧
      (fisheyeSource w h D0 (fun r _ => r) x y).1 < 2 ^ 64 ∧ 0 ≤ (fisheyeSource w h D0 (fun r _ => r) x y).2 ∧
      (fisheyeSource w h D0 (fun r _ => r) x y).2 < 2 ^ 64 := by
  rw [fisheyeSource_id]
  have h1 : x < 2 ^ 64 := by omega
  have h2 : y < 2 ^ 64 := by omega
  exact ⟨Nat.cast_nonneg x, show (x : ℝ) < 2 ^ 64 by exact_mod_cast h1, Nat.cast_nonneg y,
    show (y : ℝ) < 2 ^ 64 by exact_mod_cast h2⟩

example := C77_fisheye_partial (0 : Nat) 1 (fun r _ => r) sample2_shows
  (fisheye_id_sources 3 2 1 (by decide) (by decide)) _ (List.reverse_perm _)

end TinyDIP.Props
