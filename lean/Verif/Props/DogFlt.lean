import Verif.Model.DogFlt
import Verif.Props.FilterFlt

/-!
# Property theorems: difference of Gaussians in floating arithmetic (C205)

Full statement of C205: `difference_of_gaussian` on `float` or `double` pictures is, up to rounding, the difference of
the two averages; it is zero for equal sigmas, changes its sign when the sigmas are exchanged, and is zero on a picture
of one colour.

What is missing: on a picture of one colour the two filters round differently, so only a bound is proved.
-/

namespace TinyDIP.Filter

open TinyDIP Image Finset Rnd

variable {p : Nat}

/-! ## C205 -/

theorem subtractF_shows {a b : Image (Flt p)} {w h : Nat} {f g : Nat → Nat → Flt p} (sa : a.Shows w h f)
    (sb : b.Shows w h g) (h0 : 0 < w * h) :
    ∃ out, subtract (· - ·) a b = .ok out ∧ out.Shows w h (fun x y => f x y - g x y) := by
  have hs : a.size = b.size := by rw [sa.size, sb.size]
  have hp : 0 < a.size.prod := by rw [sa.size]; simpa using h0
  refine ⟨⟨a.size, List.zipWith (· - ·) a.data b.data⟩, ?_, ?_⟩
  · rw [subtract, checkSizeSame, if_neg (by simp [hs]), Res.ok_bind]
    exact pixelwiseTransform2_ok _ sa.wf sb.wf hs hp
  · refine Image.Shows.of_data sa.w_lt sa.h_lt sa.fits sa.size (by simp [sa.len, sb.len]) ?_
    intro x y hx hy
    rw [List.getElem?_zipWith, sa.data? hx hy, sb.data? hx hy]

/-- A bell curve as computed: its `n` samples are not negative and not all zero. -/
def Samples (normal : Nat → Nat → Flt p) (n : Nat) : Prop :=
  (∀ i < n, 0 ≤ (normal i ((n + 1) / 2)).val) ∧ ∃ i < n, (normal i ((n + 1) / 2)).val ≠ 0

/-- The order of the convolutions does not matter, and each pixel is the rounded difference of two numbers that are,
up to `4 n + 4` roundings, the averages of the mirrored picture with the weights of the two bell curves. -/
theorem C205_difference (hp : 1 ≤ p) (im : Image (Flt p)) (w h : Nat) (f : Nat → Nat → Flt p) (s : im.Shows w h f)
    (n1 n2 : Nat) (hn1 : 0 < n1) (hn2 : 0 < n2) (normal1 normal2 : Nat → Nat → Flt p)
    (reduce : Image (Flt p) → Flt p) (hred : ∀ im, SumResult (· + ·) 0 im (reduce im))
    (hb1 : n1 < w ∧ n1 < h) (hb2 : n2 < w ∧ n2 < h) (hw : w < 2 ^ 31) (hh : h < 2 ^ 31)
    (hf : (4 * w + 1) * (4 * h + 1) < 2 ^ 64) (pf : ∀ x y, x < w → y < h → 0 ≤ (f x y).val)
    (m1 : Samples normal1 n1) (m2 : Samples normal2 n2) :
    ∃ out G, (∀ o1 o2 o3 o4 : List Nat,
        o1.Perm (List.range ((w + 2 * n1 + n1 - 1) * (h + 2 * n1 + 1 - 1))) →
        o2.Perm (List.range ((w + 2 * n1 + 1 - 1) * (h + 2 * n1 + n1 - 1))) →
        o3.Perm (List.range ((w + 2 * n2 + n2 - 1) * (h + 2 * n2 + 1 - 1))) →
        o4.Perm (List.range ((w + 2 * n2 + 1 - 1) * (h + 2 * n2 + n2 - 1))) →
        differenceOfGaussianF normal1 normal2 reduce o1 o2 o3 o4 im n1 n2 = .ok out) ∧ out.Shows w h G ∧
      ∀ x y, x < w → y < h → ∃ a b : ℝ, (G x y).val = fl p (a - b) ∧
        Near ((1 - ulp1 p) ^ (4 * n1 + 4)) (average (fun i => (normal1 i ((n1 + 1) / 2)).val)
          (fun j => (normal1 j ((n1 + 1) / 2)).val) n1 n1 (offset w n1) (offset h n1)
          (fun X Y => (f (reflectInt w X) (reflectInt h Y)).val) x y) a ∧
        Near ((1 - ulp1 p) ^ (4 * n2 + 4)) (average (fun i => (normal2 i ((n2 + 1) / 2)).val)
          (fun j => (normal2 j ((n2 + 1) / 2)).val) n2 n2 (offset w n2) (offset h n2)
          (fun X Y => (f (reflectInt w X) (reflectInt h Y)).val) x y) b := by
  have hlt : ∀ n : Nat, n < w → n < h → (w + 3 * n + 1) * (h + 3 * n + 1) < 2 ^ 64 := fun n hnw hnh =>
    lt_of_le_of_lt (Nat.mul_le_mul (by omega) (by omega)) hf
  obtain ⟨a, Ga, ea, sa, ha⟩ := C183_average_partial hp im w h f s (by omega) (by omega) n1 n1 hn1 hn1 normal1 normal1 reduce hred
    .mirror 0 hb1 (by omega) (by omega) (hlt _ hb1.1 hb1.2) pf (fun h => by cases h) m1.1 m1.1 m1.2 m1.2
  obtain ⟨b, Gb, eb, sb, hb⟩ := C183_average_partial hp im w h f s (by omega) (by omega) n2 n2 hn2 hn2 normal2 normal2 reduce hred
    .mirror 0 hb2 (by omega) (by omega) (hlt _ hb2.1 hb2.2) pf (fun h => by cases h) m2.1 m2.1 m2.2 m2.2
  obtain ⟨out, eo, so⟩ := subtractF_shows sa sb (Nat.mul_pos (by omega) (by omega))
  refine ⟨out, _, ?_, so, fun x y hx hy => ⟨(Ga x y).val, (Gb x y).val, rfl, ?_, ?_⟩⟩
  · intro o1 o2 o3 o4 p1 p2 p3 p4
    unfold differenceOfGaussianF
    rw [ea o1 o2 p1 p2, eb o3 o4 p3 p4]
    exact eo
  · have := ha x y hx hy
    rw [show 2 * (n1 + n1) + 4 = 4 * n1 + 4 by omega] at this
    exact this
  · have := hb x y hx hy
    rw [show 2 * (n2 + n2) + 4 = 4 * n2 + 4 by omega] at this
    exact this

theorem flat_samples {n : Nat} (hn : 0 < n) : Samples flat n := ⟨flat_pos n, flat_ne hn⟩

example := C205_difference (p := 53) (by norm_num) _ 9 8 _ (picture_shows 9 8 fun x _ => if x = 0 then Props.nineF else
    Props.unit) 3 5 (by decide) (by decide) flat flat leftSum leftSum_result (by decide) (by decide) (by decide) (by decide)
  (by decide) (fun x y _ _ => by split <;> simp [Props.nineF, Props.unit]) (flat_samples (by decide)) (flat_samples (by decide))

/-- Exchanging the sigmas changes the sign of every pixel, exactly, and equal sigmas give exactly zero. -/
theorem C205_antisymmetric (hp : 1 ≤ p) (im : Image (Flt p)) (w h : Nat) (f : Nat → Nat → Flt p) (s : im.Shows w h f)
    (n1 n2 : Nat) (hn1 : 0 < n1) (hn2 : 0 < n2) (normal1 normal2 : Nat → Nat → Flt p)
    (reduce : Image (Flt p) → Flt p) (hred : ∀ im, SumResult (· + ·) 0 im (reduce im))
    (hb1 : n1 < w ∧ n1 < h) (hb2 : n2 < w ∧ n2 < h) (hw : w < 2 ^ 31) (hh : h < 2 ^ 31)
    (hf : (4 * w + 1) * (4 * h + 1) < 2 ^ 64) (pf : ∀ x y, x < w → y < h → 0 ≤ (f x y).val)
    (m1 : Samples normal1 n1) (m2 : Samples normal2 n2) (o1 o2 o3 o4 : List Nat)
    (p1 : o1.Perm (List.range ((w + 2 * n1 + n1 - 1) * (h + 2 * n1 + 1 - 1))))
    (p2 : o2.Perm (List.range ((w + 2 * n1 + 1 - 1) * (h + 2 * n1 + n1 - 1))))
    (p3 : o3.Perm (List.range ((w + 2 * n2 + n2 - 1) * (h + 2 * n2 + 1 - 1))))
    (p4 : o4.Perm (List.range ((w + 2 * n2 + 1 - 1) * (h + 2 * n2 + n2 - 1)))) :
    ∃ out out' zero G, differenceOfGaussianF normal1 normal2 reduce o1 o2 o3 o4 im n1 n2 = .ok out ∧
      differenceOfGaussianF normal2 normal1 reduce o3 o4 o1 o2 im n2 n1 = .ok out' ∧
      differenceOfGaussianF normal1 normal1 reduce o1 o2 o1 o2 im n1 n1 = .ok zero ∧
      out.Shows w h G ∧ (∀ x y, x < w → y < h → ∃ t, out'.at2 x y = .ok t ∧ t.val = -(G x y).val) ∧
      zero.Shows w h (fun _ _ => 0) := by
  have hlt : ∀ n : Nat, n < w → n < h → (w + 3 * n + 1) * (h + 3 * n + 1) < 2 ^ 64 := fun n hnw hnh =>
    lt_of_le_of_lt (Nat.mul_le_mul (by omega) (by omega)) hf
  obtain ⟨a, Ga, ea, sa, -⟩ := C183_average_partial hp im w h f s (by omega) (by omega) n1 n1 hn1 hn1 normal1 normal1 reduce hred
    .mirror 0 hb1 (by omega) (by omega) (hlt _ hb1.1 hb1.2) pf (fun h => by cases h) m1.1 m1.1 m1.2 m1.2
  obtain ⟨b, Gb, eb, sb, -⟩ := C183_average_partial hp im w h f s (by omega) (by omega) n2 n2 hn2 hn2 normal2 normal2 reduce hred
    .mirror 0 hb2 (by omega) (by omega) (hlt _ hb2.1 hb2.2) pf (fun h => by cases h) m2.1 m2.1 m2.2 m2.2
  have h0 : 0 < w * h := Nat.mul_pos (by omega) (by omega)
  obtain ⟨out, eo, so⟩ := subtractF_shows sa sb h0
  obtain ⟨out', eo', so'⟩ := subtractF_shows sb sa h0
  obtain ⟨zero, ez, sz⟩ := subtractF_shows sa sa h0
  refine ⟨out, out', zero, _, ?_, ?_, ?_, so, ?_, sz.congr fun x y _ _ => ?_⟩
  · unfold differenceOfGaussianF; rw [ea o1 o2 p1 p2, eb o3 o4 p3 p4]; exact eo
  · unfold differenceOfGaussianF; rw [ea o1 o2 p1 p2, eb o3 o4 p3 p4]; exact eo'
  · unfold differenceOfGaussianF; rw [ea o1 o2 p1 p2]; exact ez
  · intro x y hx hy
    refine ⟨_, so'.px x y hx hy, ?_⟩
    rw [Flt.sub_val, Flt.sub_val, ← fl_neg, neg_sub]
  · exact Flt.ext (by rw [Flt.sub_val, sub_self, fl_zero]; rfl)

example := C205_antisymmetric (p := 53) (by norm_num) _ 9 8 _ (picture_shows 9 8 fun x _ => if x = 0 then Props.nineF else
    Props.unit) 3 5 (by decide) (by decide) flat flat leftSum leftSum_result (by decide) (by decide) (by decide) (by decide)
  (by decide) (fun x y _ _ => by split <;> simp [Props.nineF, Props.unit]) (flat_samples (by decide)) (flat_samples (by decide))
  _ _ _ _ (List.Perm.refl _) (List.Perm.refl _) (List.Perm.refl _) (List.Perm.refl _)

/-- On a picture of one colour the difference is as small as the roundings of the two filters.
Missing: that it is zero. -/
theorem C205_constant_partial (hp : 1 ≤ p) (im : Image (Flt p)) (w h : Nat) (c : Flt p) (s : im.Shows w h fun _ _ => c)
    (n1 n2 N : Nat) (hn1 : 0 < n1) (hn2 : 0 < n2) (hN1 : n1 ≤ N) (hN2 : n2 ≤ N) (normal1 normal2 : Nat → Nat → Flt p)
    (reduce : Image (Flt p) → Flt p) (hred : ∀ im, SumResult (· + ·) 0 im (reduce im))
    (hb1 : n1 < w ∧ n1 < h) (hb2 : n2 < w ∧ n2 < h) (hw : w < 2 ^ 31) (hh : h < 2 ^ 31)
    (hf : (4 * w + 1) * (4 * h + 1) < 2 ^ 64) (pc : 0 ≤ c.val)
    (m1 : Samples normal1 n1) (m2 : Samples normal2 n2) (o1 o2 o3 o4 : List Nat)
    (p1 : o1.Perm (List.range ((w + 2 * n1 + n1 - 1) * (h + 2 * n1 + 1 - 1))))
    (p2 : o2.Perm (List.range ((w + 2 * n1 + 1 - 1) * (h + 2 * n1 + n1 - 1))))
    (p3 : o3.Perm (List.range ((w + 2 * n2 + n2 - 1) * (h + 2 * n2 + 1 - 1))))
    (p4 : o4.Perm (List.range ((w + 2 * n2 + 1 - 1) * (h + 2 * n2 + n2 - 1)))) :
    ∃ out G, differenceOfGaussianF normal1 normal2 reduce o1 o2 o3 o4 im n1 n2 = .ok out ∧ out.Shows w h G ∧
      ∀ x y, x < w → y < h → |(G x y).val| ≤
        (1 + ulp1 p) * (((1 - ulp1 p) ^ (4 * N + 4))⁻¹ - (1 - ulp1 p) ^ (4 * N + 4)) * c.val := by
  obtain ⟨out, G, e, so, hG⟩ := C205_difference hp im w h _ s n1 n2 hn1 hn2 normal1 normal2 reduce hred hb1 hb2 hw hh hf
    (fun _ _ _ _ => pc) m1 m2
  refine ⟨out, G, e o1 o2 o3 o4 p1 p2 p3 p4, so, fun x y hx hy => ?_⟩
  obtain ⟨a, b, hg, na, nb⟩ := hG x y hx hy
  have pos : ∀ {n : Nat} {m : Nat → Nat → Flt p}, Samples m n →
      0 < (range n).sum fun i => (m i ((n + 1) / 2)).val := by
    rintro n m ⟨h0, i, hi, hne⟩
    exact Finset.sum_pos' (fun i hi => h0 i (Finset.mem_range.1 hi))
      ⟨i, Finset.mem_range.2 hi, lt_of_le_of_ne (h0 i hi) (Ne.symm hne)⟩
  have av : ∀ {n : Nat} {m : Nat → Nat → Flt p} (k1 k2 : Nat), Samples m n →
      average (fun i => (m i ((n + 1) / 2)).val) (fun j => (m j ((n + 1) / 2)).val) n n k1 k2 (fun _ _ => c.val) x y = c.val := by
    intro n m k1 k2 hm
    have := average_range hm.1 hm.1 (pos hm) (pos hm) k1 k2 (fun _ _ => c.val) c.val c.val x y
      (fun _ _ _ _ => ⟨le_rfl, le_rfl⟩)
    exact le_antisymm this.2 this.1
  rw [av _ _ m1] at na
  rw [av _ _ m2] at nb
  have l0 := low_pos hp
  have na := na.weaken (low_pow_anti hp (show 4 * n1 + 4 ≤ 4 * N + 4 by omega))
  have nb := nb.weaken (low_pow_anti hp (show 4 * n2 + 4 ≤ 4 * N + 4 by omega))
  have hr : 0 < low p ^ (4 * N + 4) := pow_pos l0 _
  have hu := ulp1_pos (p := p)
  rw [hg]
  change |_| ≤ (1 + ulp1 p) * ((low p ^ (4 * N + 4))⁻¹ - low p ^ (4 * N + 4)) * c.val
  generalize low p ^ (4 * N + 4) = r at *
  obtain ⟨-, a0, a1, a2⟩ := na
  obtain ⟨-, b0, b1, b2⟩ := nb
  have a3 : a ≤ r⁻¹ * c.val := by rw [← div_eq_inv_mul, le_div_iff₀ hr]; linarith
  have b3 : b ≤ r⁻¹ * c.val := by rw [← div_eq_inv_mul, le_div_iff₀ hr]; linarith
  have hab : |a - b| ≤ (r⁻¹ - r) * c.val := by rw [abs_le]; constructor <;> nlinarith
  have hfl := fl_err (p := p) (a - b)
  have h1 : |fl p (a - b)| ≤ |fl p (a - b) - (a - b)| + |a - b| := by
    calc |fl p (a - b)| = |(fl p (a - b) - (a - b)) + (a - b)| := by rw [sub_add_cancel]
      _ ≤ _ := abs_add_le _ _
  change _ ≤ ulp1 p * |a - b| at hfl
  calc |fl p (a - b)| ≤ (1 + ulp1 p) * |a - b| := by linarith
    _ ≤ (1 + ulp1 p) * ((r⁻¹ - r) * c.val) := mul_le_mul_of_nonneg_left hab (by linarith)
    _ = _ := by ring

example := C205_constant_partial (p := 53) (by norm_num) _ 9 8 _ (picture_shows 9 8 fun _ _ => Props.nineF) 3 5 5
  (by decide) (by decide) (by decide) (by decide) flat flat leftSum leftSum_result (by decide) (by decide) (by decide) (by decide)
  (by decide) (by simp [Props.nineF]) (flat_samples (by decide)) (flat_samples (by decide))
  _ _ _ _ (List.Perm.refl _) (List.Perm.refl _) (List.Perm.refl _) (List.Perm.refl _)

end TinyDIP.Filter
