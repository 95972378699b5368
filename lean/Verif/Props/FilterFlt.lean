import Verif.Lemmas.FilterFlt
import Verif.Props.Filter
import Verif.Props.Flt

/-!
# C183-C184: Gaussian filtering in floating arithmetic, and with an integer standard deviation

`Near r a b` says that `a` and `b` are not negative and that neither is smaller than `r` times the other; `average` is
the weighted average of a picture around a pixel (Spec/FilterFlt.lean).
-/

namespace TinyDIP.Filter

open TinyDIP Image Finset Rnd

variable {p : Nat}

/-! ## C183: floating elements -/

/-- The filter in floating arithmetic, for pixels that are not negative and whatever bell curve the library computes,
as long as its samples are not negative and not all zero: each pixel of the result is, up to `2 (n1 + n2) + 4`
roundings, the average of the picture with weights proportional to the samples. This holds for every order and
grouping of the sums of the samples, and the result does not depend on the order in which the pixels are visited.
Missing: a constant picture stays exactly the same, see `C183_constant_violation`. -/
theorem C183_average_partial (hp : 1 ≤ p) (im : Image (Flt p)) (w h : Nat) (f : Nat → Nat → Flt p) (s : im.Shows w h f)
    (hw : 0 < w) (hh : 0 < h) (n1 n2 : Nat) (hn1 : 0 < n1) (hn2 : 0 < n2) (normal1 normal2 : Nat → Nat → Flt p)
    (reduce : Image (Flt p) → Flt p) (hred : ∀ im, SumResult (· + ·) 0 im (reduce im))
    (b : Boundary) (v : Flt p) (hc : CanPad b w h n1 n2)
    (hx : 2 * (w + 3 * n1 + 1) < 2 ^ 64) (hy : 2 * (h + 3 * n2 + 1) < 2 ^ 64)
    (hf : (w + 3 * n1 + 1) * (h + 3 * n2 + 1) < 2 ^ 64)
    (pf : ∀ x y, x < w → y < h → 0 ≤ (f x y).val) (pv : b = .constant → 0 ≤ v.val)
    (p1 : ∀ i < n1, 0 ≤ (normal1 i ((n1 + 1) / 2)).val) (p2 : ∀ i < n2, 0 ≤ (normal2 i ((n2 + 1) / 2)).val)
    (s1 : ∃ i < n1, (normal1 i ((n1 + 1) / 2)).val ≠ 0) (s2 : ∃ i < n2, (normal2 i ((n2 + 1) / 2)).val ≠ 0) :
    ∃ out G, (∀ order1 order2 : List Nat,
        order1.Perm (List.range ((w + 2 * n1 + n1 - 1) * (h + 2 * n2 + 1 - 1))) →
        order2.Perm (List.range ((w + 2 * n1 + 1 - 1) * (h + 2 * n2 + n2 - 1))) →
        imgaussfiltF normal1 normal2 reduce order1 order2 im n1 n2 b v = .ok out) ∧ out.Shows w h G ∧
      ∀ x y, x < w → y < h → Near ((1 - ulp1 p) ^ (2 * (n1 + n2) + 4))
        (average (fun i => (normal1 i ((n1 + 1) / 2)).val) (fun j => (normal2 j ((n2 + 1) / 2)).val) n1 n2
          (offset w n1) (offset h n2) (extend b v.val w h fun x y => (f x y).val) x y) (G x y).val := by
  have hlt : ∀ a b : Nat, a ≤ w + 3 * n1 + 1 → b ≤ h + 3 * n2 + 1 → a * b < 2 ^ 64 :=
    fun a b ha hb => lt_of_le_of_lt (Nat.mul_le_mul ha hb) hf
  have l0 := (low_pos hp).le
  have pos : ∀ {n : Nat} {m : Nat → Flt p}, (∀ i < n, 0 ≤ (m i).val) → (∃ i < n, (m i).val ≠ 0) →
      0 < (range n).sum fun i => (m i).val := by
    rintro n m h0 ⟨i, hi, hne⟩
    exact Finset.sum_pos' (fun i hi => h0 i (Finset.mem_range.1 hi))
      ⟨i, Finset.mem_range.2 hi, lt_of_le_of_ne (h0 i hi) (Ne.symm hne)⟩
  have t1 := pos p1 s1
  have t2 := pos p2 s2
  obtain ⟨P, eP, sP⟩ := paddedImage_extend s v hc (by omega) (by omega) (hlt _ _ (by omega) (by omega))
  obtain ⟨g1, eg1, sg1⟩ := gaussianFigureF_shows (n := n1) (by omega) (maskCenter n1) normal1
  obtain ⟨m1, em1, sm1⟩ := dividesScalar_shows sg1 (by omega) divF (reduce g1)
  obtain ⟨g2, eg2, sg2⟩ := gaussianFigureF_shows (n := n2) (by omega) (maskCenter n2) normal2
  obtain ⟨u2, eu2, su2⟩ := transpose_shows 0 sg2
  obtain ⟨m2, em2, sm2⟩ := dividesScalar_shows su2 (by omega) divF (reduce u2)
  have w1 : ∀ i, i < n1 → _ := fun i hi => weight_near hp p1 t1 (reduce_near hp (row_data sg1) p1 (hred g1)) hi
  have w2 : ∀ i, i < n2 → _ := fun i hi => weight_near hp p2 t2 (reduce_near hp (column_data su2) p2 (hred u2)) hi
  have pP : ∀ i j, i < w + 2 * n1 → j < h + 2 * n2 →
      0 ≤ extend b v.val w h (fun x y => (f x y).val) ((i : Int) - n1) ((j : Int) - n2) := by
    intro i j hi hj
    by_cases hb : b = .constant
    · subst hb
      unfold extend
      dsimp only
      split
      · exact pf _ _ (by omega) (by omega)
      · exact pv rfl
    · refine (extend_range (n1 := n1) (n2 := n2) (lo := 0)
        (hi := (range w).sum fun x => (range h).sum fun y => (f x y).val) hc ?_ (fun h => absurd h hb) _ _
        (by omega) (by omega)).1
      intro x y hx hy
      refine ⟨pf x y hx hy, ?_⟩
      refine le_trans ?_ (Finset.single_le_sum (f := fun x => (range h).sum fun y => (f x y).val)
        (fun i hi => Finset.sum_nonneg fun j hj => pf i j (Finset.mem_range.1 hi) (Finset.mem_range.1 hj))
        (Finset.mem_range.2 hx))
      exact Finset.single_le_sum (f := fun y => (f x y).val) (fun j hj => pf x j hx (Finset.mem_range.1 hj))
        (Finset.mem_range.2 hy)
  obtain ⟨o1, G1, e1, so1, hG1⟩ := conv2_same_near hp sP sm1 (by omega) (by omega) hn1 (by omega)
    (hlt _ _ (by omega) (by omega)) (by omega) (by omega)
    (fun i j hi hj => by rw [extend_val]; exact pP i j hi hj) (fun i j hi _ => (w1 i hi).2.1)
  obtain ⟨o2, G2, e2, so2, hG2⟩ := conv2_same_near hp so1 sm2 (by omega) (by omega) (by omega) hn2
    (hlt _ _ (by omega) (by omega)) (by omega) (by omega)
    (fun i j hi hj => (hG1 i j hi hj).2.1) (fun i j _ hj => (w2 j hj).2.1)
  obtain ⟨out, eo, so⟩ := subimage2d_shows 0 so2 (w := w) (h := h) (cx := (w + 2 * n1) / 2)
    (cy := (h + 2 * n2) / 2) hw hh s.fits (by omega) (by omega) (by omega) (by omega) 0
  refine ⟨out, _, ?_, so, ?_⟩
  · intro order1 order2 ho1 ho2
    rw [imgaussfiltF, if_neg (by simp [s.dim])]
    simp only [eP, eg1, em1, e1 _ ho1, eg2, eu2, em2, e2 _ ho2, Res.ok_bind, so2.width, so2.height, s.width, s.height]
    exact eo
  · intro x y hx' hy'
    rw [if_pos (by omega)]
    have k1 : ∀ i j, i < w + 2 * n1 → j < h + 2 * n2 → Near (low p ^ (2 * n1 + 2))
        (convAt n1 1 (fun i _ => (normal1 i ((n1 + 1) / 2)).val / (range n1).sum fun i => (normal1 i ((n1 + 1) / 2)).val)
          (w + 2 * n1) (h + 2 * n2)
          (fun X Y => extend b v.val w h (fun x y => (f x y).val) ((X : Int) - n1) ((Y : Int) - n2))
          (i + ((w + 2 * n1 + n1 - 1) / 2 - (w + 2 * n1) / 2)) (j + ((h + 2 * n2 + 1 - 1) / 2 - (h + 2 * n2) / 2)))
        (G1 i j).val := by
      intro i j hi hj
      refine ((Near.convAt (pow_nonneg l0 (n1 + 1)) zero_le_one (fun x _ hx _ => w1 x hx)
        (fun X Y hX hY => ?_) _ _).trans (mul_nonneg (pow_nonneg l0 _) zero_le_one) (pow_nonneg l0 _)
        (hG1 i j hi hj)).weaken (le_of_eq ?_)
      · rw [extend_val]; exact Near.refl (pP X Y hX hY)
      · rw [mul_one, ← pow_add]; congr 1; omega
    have k2 := (Near.convAt (w1 := 1) (h1 := n2) (pow_nonneg l0 (n2 + 1)) (pow_nonneg l0 (2 * n1 + 2))
      (fun _ y _ hy => w2 y hy) k1
      ((w + 2 * n1) / 2 + x - w / 2 + ((w + 2 * n1 + 1 - 1) / 2 - (w + 2 * n1) / 2))
      ((h + 2 * n2) / 2 + y - h / 2 + ((h + 2 * n2 + n2 - 1) / 2 - (h + 2 * n2) / 2))).trans
      (mul_nonneg (pow_nonneg l0 _) (pow_nonneg l0 _)) (pow_nonneg l0 _) (hG2 _ _ (by omega) (by omega))
    rw [separable_eq _ _ _ hn1 hn2 hx' hy'] at k2
    refine k2.weaken (le_of_eq ?_)
    rw [← pow_add, ← pow_add]
    show low p ^ _ = _
    congr 1
    omega

/-- A bell curve that is nearly flat: the three samples are 1 after rounding. -/
noncomputable def flat : Nat → Nat → Flt 53 := fun _ _ => Props.unit

theorem flat_pos (n : Nat) : ∀ i < n, 0 ≤ (flat i ((n + 1) / 2)).val := by intro i _; simp [flat, Props.unit]

theorem flat_ne {n : Nat} (hn : 0 < n) : ∃ i < n, (flat i ((n + 1) / 2)).val ≠ 0 := ⟨0, hn, by simp [flat, Props.unit]⟩

/-- Adding from left to right. -/
noncomputable def leftSum (im : Image (Flt p)) : Flt p := im.data.foldl (· + ·) 0

theorem leftSum_result (im : Image (Flt p)) : SumResult (· + ·) 0 im (leftSum im) := by
  refine ⟨0 :: im.data, .refl _, ?_⟩
  unfold leftSum
  have : ∀ (l r : List (Flt p)) (a : Flt p), Brackets (· + ·) l a → Brackets (· + ·) (l ++ r) (r.foldl (· + ·) a) := by
    intro l r
    induction r generalizing l with
    | nil => intro a h; simpa using h
    | cons b r ih =>
      intro a h
      have := ih (l ++ [b]) (a + b) (.node h (.one b))
      simpa using this
  exact this [0] im.data 0 (.one 0)

example := C183_average_partial (p := 53) (by norm_num) _ 9 8 _ (picture_shows 9 8 fun x _ => if x = 0 then Props.nineF else
    Props.unit) (by decide) (by decide) 3 5 (by decide) (by decide) flat flat leftSum leftSum_result .mirror 0
  (by unfold CanPad; decide) (by decide) (by decide) (by decide)
  (fun x y _ _ => by split <;> simp [Props.nineF, Props.unit]) (fun h => by cases h) (flat_pos 3) (flat_pos 5)
  (flat_ne (by decide)) (flat_ne (by decide))

theorem average_range {m1 m2 : Nat → ℝ} {n1 n2 : Nat} (p1 : ∀ i < n1, 0 ≤ m1 i) (p2 : ∀ i < n2, 0 ≤ m2 i)
    (t1 : 0 < (range n1).sum m1) (t2 : 0 < (range n2).sum m2) (o1 o2 : Nat) (F : Int → Int → ℝ) (lo hi : ℝ) (x y : Nat)
    (hF : ∀ i j, i < n1 → j < n2 → lo ≤ F ((x : Int) + o1 - i) ((y : Int) + o2 - j) ∧
      F ((x : Int) + o1 - i) ((y : Int) + o2 - j) ≤ hi) :
    lo ≤ average m1 m2 n1 n2 o1 o2 F x y ∧ average m1 m2 n1 n2 o1 o2 F x y ≤ hi := by
  have one : ∀ c : ℝ, ((range n2).sum fun j => (range n1).sum fun i =>
      (m2 j / (range n2).sum m2) * (m1 i / (range n1).sum m1) * c) = c := by
    intro c
    have e1 : ∀ j, ((range n1).sum fun i => (m2 j / (range n2).sum m2) * (m1 i / (range n1).sum m1) * c) =
        m2 j / (range n2).sum m2 * c := by
      intro j
      rw [← Finset.sum_mul, ← Finset.mul_sum, ← Finset.sum_div, div_self t1.ne', mul_one]
    rw [Finset.sum_congr rfl fun j _ => e1 j, ← Finset.sum_mul, ← Finset.sum_div, div_self t2.ne', one_mul]
  have hpos : ∀ i < n1, ∀ j < n2, 0 ≤ (m2 j / (range n2).sum m2) * (m1 i / (range n1).sum m1) := fun i hi j hj =>
    mul_nonneg (div_nonneg (p2 j hj) t2.le) (div_nonneg (p1 i hi) t1.le)
  constructor
  · rw [← one lo]
    exact Finset.sum_le_sum fun j hj => Finset.sum_le_sum fun i hi => mul_le_mul_of_nonneg_left
      (hF i j (Finset.mem_range.1 hi) (Finset.mem_range.1 hj)).1
      (hpos i (Finset.mem_range.1 hi) j (Finset.mem_range.1 hj))
  · rw [← one hi]
    exact Finset.sum_le_sum fun j hj => Finset.sum_le_sum fun i hi => mul_le_mul_of_nonneg_left
      (hF i j (Finset.mem_range.1 hi) (Finset.mem_range.1 hj)).2
      (hpos i (Finset.mem_range.1 hi) j (Finset.mem_range.1 hj))

/-- The brightness is kept: when all pixels (and the padding value, if it is used) lie between `lo ≥ 0` and `hi`, all
pixels of the result do, up to `2 (n1 + n2) + 4` roundings - however inaccurate the samples of the bell curve are.
Missing: the bounds themselves, see `C183_constant_violation`. -/
theorem C183_range_partial (hp : 1 ≤ p) (im : Image (Flt p)) (w h : Nat) (f : Nat → Nat → Flt p) (s : im.Shows w h f)
    (hw : 0 < w) (hh : 0 < h) (n1 n2 : Nat) (hn1 : 0 < n1) (hn2 : 0 < n2) (normal1 normal2 : Nat → Nat → Flt p)
    (reduce : Image (Flt p) → Flt p) (hred : ∀ im, SumResult (· + ·) 0 im (reduce im))
    (b : Boundary) (v : Flt p) (hc : CanPad b w h n1 n2)
    (hx : 2 * (w + 3 * n1 + 1) < 2 ^ 64) (hy : 2 * (h + 3 * n2 + 1) < 2 ^ 64)
    (hf : (w + 3 * n1 + 1) * (h + 3 * n2 + 1) < 2 ^ 64)
    (p1 : ∀ i < n1, 0 ≤ (normal1 i ((n1 + 1) / 2)).val) (p2 : ∀ i < n2, 0 ≤ (normal2 i ((n2 + 1) / 2)).val)
    (s1 : ∃ i < n1, (normal1 i ((n1 + 1) / 2)).val ≠ 0) (s2 : ∃ i < n2, (normal2 i ((n2 + 1) / 2)).val ≠ 0)
    (lo hi : ℝ) (hlo : 0 ≤ lo) (hr : ∀ x y, x < w → y < h → lo ≤ (f x y).val ∧ (f x y).val ≤ hi)
    (hv : b = .constant → lo ≤ v.val ∧ v.val ≤ hi) (order1 order2 : List Nat)
    (ho1 : order1.Perm (List.range ((w + 2 * n1 + n1 - 1) * (h + 2 * n2 + 1 - 1))))
    (ho2 : order2.Perm (List.range ((w + 2 * n1 + 1 - 1) * (h + 2 * n2 + n2 - 1)))) :
    ∃ out G, imgaussfiltF normal1 normal2 reduce order1 order2 im n1 n2 b v = .ok out ∧ out.Shows w h G ∧
      ∀ x y, x < w → y < h → (1 - ulp1 p) ^ (2 * (n1 + n2) + 4) * lo ≤ (G x y).val ∧
        (1 - ulp1 p) ^ (2 * (n1 + n2) + 4) * (G x y).val ≤ hi := by
  obtain ⟨out, G, e, so, hG⟩ := C183_average_partial hp im w h f s hw hh n1 n2 hn1 hn2 normal1 normal2 reduce hred b v hc
    hx hy hf (fun x y hx hy => hlo.trans (hr x y hx hy).1) (fun hb => hlo.trans (hv hb).1) p1 p2 s1 s2
  refine ⟨out, G, e _ _ ho1 ho2, so, fun x y hx' hy' => ?_⟩
  have pos : ∀ {n : Nat} {m : Nat → Flt p}, (∀ i < n, 0 ≤ (m i).val) → (∃ i < n, (m i).val ≠ 0) →
      0 < (range n).sum fun i => (m i).val := by
    rintro n m h0 ⟨i, hi, hne⟩
    exact Finset.sum_pos' (fun i hi => h0 i (Finset.mem_range.1 hi))
      ⟨i, Finset.mem_range.2 hi, lt_of_le_of_ne (h0 i hi) (Ne.symm hne)⟩
  have := offset_le w n1
  have := offset_le h n2
  have hav := average_range p1 p2 (pos p1 s1) (pos p2 s2) (offset w n1) (offset h n2)
    (extend b v.val w h fun x y => (f x y).val) lo hi x y
    (fun i j hi hj => extend_range hc hr hv _ _ (by omega) (by omega))
  obtain ⟨-, -, h1, h2⟩ := hG x y hx' hy'
  exact ⟨(mul_le_mul_of_nonneg_left hav.1 (pow_nonneg (low_pos hp).le _)).trans h1, h2.trans hav.2⟩

example := C183_range_partial (p := 53) (by norm_num) _ 9 8 _ (picture_shows 9 8 fun x _ => if x = 0 then Props.nineF else
    Props.unit) (by decide) (by decide) 3 5 (by decide) (by decide) flat flat leftSum leftSum_result .mirror 0
  (by unfold CanPad; decide) (by decide) (by decide) (by decide) (flat_pos 3) (flat_pos 5)
  (flat_ne (by decide)) (flat_ne (by decide)) 1 9 (by norm_num)
  (fun x y _ _ => by split <;> norm_num [Props.nineF, Props.unit]) (fun h => by cases h)

theorem average_near {r : ℝ} (hr : 0 < r) {m1 m2 k1 k2 : Nat → ℝ} {n1 n2 : Nat}
    (h1 : ∀ i < n1, Near r (k1 i) (m1 i)) (h2 : ∀ i < n2, Near r (k2 i) (m2 i))
    (t1 : 0 < (range n1).sum k1) (t2 : 0 < (range n2).sum k2) (o1 o2 : Nat) (F : Int → Int → ℝ) (x y : Nat)
    (hF : ∀ i j, i < n1 → j < n2 → 0 ≤ F ((x : Int) + o1 - i) ((y : Int) + o2 - j)) :
    Near (r ^ 4) (average k1 k2 n1 n2 o1 o2 F x y) (average m1 m2 n1 n2 o1 o2 F x y) := by
  have e1 := Near.sum (s := range n1) fun i hi => h1 i (Finset.mem_range.1 hi)
  have e2 := Near.sum (s := range n2) fun i hi => h2 i (Finset.mem_range.1 hi)
  have u1 : 0 < (range n1).sum m1 := lt_of_lt_of_le (mul_pos hr t1) e1.2.2.1
  have u2 : 0 < (range n2).sum m2 := lt_of_lt_of_le (mul_pos hr t2) e2.2.2.1
  unfold average
  refine Near.sum fun j hj => Near.sum fun i hi => ?_
  have hj := Finset.mem_range.1 hj
  have hi := Finset.mem_range.1 hi
  have a := (h2 j hj).div hr.le hr.le e2 t2 u2
  have c := (h1 i hi).div hr.le hr.le e1 t1 u1
  have d := (a.mul (mul_nonneg hr.le hr.le) (mul_nonneg hr.le hr.le) c).mul (by positivity) zero_le_one
    (Near.refl (hF i j hi hj))
  refine d.weaken (le_of_eq ?_)
  ring

/-- When the samples of the bell curve are computed with a relative accuracy (neither the computed nor the exact sample
is smaller than `r` times the other), the result is the exact Gaussian average, up to the accuracy of the samples (four
times) and `2 (n1 + n2) + 4` roundings. Missing: as in C105, the bell curve is centred on sample `(n + 1) / 2`. -/
theorem C183_blur_partial (hp : 1 ≤ p) (im : Image (Flt p)) (w h : Nat) (f : Nat → Nat → Flt p) (s : im.Shows w h f)
    (hw : 0 < w) (hh : 0 < h) (n1 n2 : Nat) (hn1 : 0 < n1) (hn2 : 0 < n2) (sd1 sd2 : ℝ)
    (normal1 normal2 : Nat → Nat → Flt p) (r : ℝ) (hr : 0 < r)
    (a1 : ∀ i < n1, Near r (bell sd1 ((i : ℝ) - ((n1 + 1) / 2 : Nat))) (normal1 i ((n1 + 1) / 2)).val)
    (a2 : ∀ i < n2, Near r (bell sd2 ((i : ℝ) - ((n2 + 1) / 2 : Nat))) (normal2 i ((n2 + 1) / 2)).val)
    (reduce : Image (Flt p) → Flt p) (hred : ∀ im, SumResult (· + ·) 0 im (reduce im))
    (b : Boundary) (v : Flt p) (hc : CanPad b w h n1 n2)
    (hx : 2 * (w + 3 * n1 + 1) < 2 ^ 64) (hy : 2 * (h + 3 * n2 + 1) < 2 ^ 64)
    (hf : (w + 3 * n1 + 1) * (h + 3 * n2 + 1) < 2 ^ 64)
    (hi : ℝ) (pf : ∀ x y, x < w → y < h → 0 ≤ (f x y).val ∧ (f x y).val ≤ hi)
    (pv : b = .constant → 0 ≤ v.val ∧ v.val ≤ hi) (order1 order2 : List Nat)
    (ho1 : order1.Perm (List.range ((w + 2 * n1 + n1 - 1) * (h + 2 * n2 + 1 - 1))))
    (ho2 : order2.Perm (List.range ((w + 2 * n1 + 1 - 1) * (h + 2 * n2 + n2 - 1)))) :
    ∃ out G, imgaussfiltF normal1 normal2 reduce order1 order2 im n1 n2 b v = .ok out ∧ out.Shows w h G ∧
      ∀ x y, x < w → y < h → Near (r ^ 4 * (1 - ulp1 p) ^ (2 * (n1 + n2) + 4))
        (blur sd1 sd2 n1 n2 (offset w n1) (offset h n2) ((n1 + 1) / 2 : Nat) ((n2 + 1) / 2 : Nat)
          (extend b v.val w h fun x y => (f x y).val) x y) (G x y).val := by
  have pos : ∀ (sd : ℝ) (n : Nat) (m : Nat → ℝ), 0 < n →
      (∀ i < n, Near r (bell sd ((i : ℝ) - ((n + 1) / 2 : Nat))) (m i)) → ∃ i < n, m i ≠ 0 := by
    intro sd n m hn hm
    exact ⟨0, hn, (lt_of_lt_of_le (mul_pos hr (bell_pos _ _)) (hm 0 hn).2.2.1).ne'⟩
  obtain ⟨out, G, e, so, hG⟩ := C183_average_partial hp im w h f s hw hh n1 n2 hn1 hn2 normal1 normal2 reduce hred b v hc
    hx hy hf (fun x y hx hy => (pf x y hx hy).1) (fun hb => (pv hb).1) (fun i hi => (a1 i hi).2.1)
    (fun i hi => (a2 i hi).2.1) (pos sd1 n1 _ hn1 a1) (pos sd2 n2 _ hn2 a2)
  refine ⟨out, G, e _ _ ho1 ho2, so, fun x y hx' hy' => ?_⟩
  have := offset_le w n1
  have := offset_le h n2
  refine (average_near hr a1 a2 (bellSum_pos sd1 _ hn1) (bellSum_pos sd2 _ hn2) (offset w n1) (offset h n2)
    (extend b v.val w h fun x y => (f x y).val) x y ?_).trans (by positivity) (pow_nonneg (low_pos hp).le _)
    (hG x y hx' hy')
  intro i j hi' hj'
  exact (extend_range hc pf pv _ _ (by omega) (by omega)).1

/-- The bell curve rounded to the nearest number of the type. -/
noncomputable def rounded (sd : ℝ) : Nat → Nat → Flt 53 := fun i c => ⟨fl 53 (bell sd ((i : ℝ) - c)), fl_rep _⟩

example := C183_blur_partial (p := 53) (by norm_num) _ 9 8 _ (picture_shows 9 8 fun x _ => if x = 0 then Props.nineF else
    Props.unit) (by decide) (by decide) 3 5 (by decide) (by decide) 1 2 (rounded 1) (rounded 2) (low 53)
  (low_pos (by norm_num)) (fun _ _ => Near.fl (by norm_num) (bell_pos _ _).le)
  (fun _ _ => Near.fl (by norm_num) (bell_pos _ _).le) leftSum leftSum_result .mirror 0
  (by unfold CanPad; decide) (by decide) (by decide) (by decide) 9
  (fun x y _ _ => by split <;> norm_num [Props.nineF, Props.unit]) (fun h => by cases h)

noncomputable def sevenF : Flt 53 := ⟨7, 7, 0, by norm_num, by norm_num⟩

theorem seven_filtered : imgaussfiltF flat flat leftSum (List.range 27) (List.range 21) ⟨[1, 1], [sevenF]⟩ 3 1
    .replicate 0 = .ok ⟨[1, 1], [0 + (0 + sevenF * divF Props.unit (0 + Props.unit + Props.unit + Props.unit) +
      sevenF * divF Props.unit (0 + Props.unit + Props.unit + Props.unit) +
      sevenF * divF Props.unit (0 + Props.unit + Props.unit + Props.unit)) * divF Props.unit (0 + Props.unit)]⟩ := by
  rfl

/-- The range is not kept exactly: a picture of one pixel of value 7, filtered with three equal samples, becomes darker
by `2 ^ -50`. -/
theorem C183_constant_violation : ∃ v : Flt 53, imgaussfiltF flat flat leftSum (List.range 27) (List.range 21)
    ⟨[1, 1], [sevenF]⟩ 3 1 .replicate 0 = .ok ⟨[1, 1], [v]⟩ ∧ v.val = 7 - (2 : ℝ) ^ (-50 : ℤ) := by
  refine ⟨_, seven_filtered, ?_⟩
  have e0 : fl 53 (1 : ℝ) = 1 := by simpa using Props.fl_small 1 (by norm_num)
  have e1 : fl 53 ((1 : ℝ) / 3) = 6004799503160661 / 2 ^ 54 := by
    rw [fl_lit 6004799503160661 (-2) (by norm_num) (by norm_num) (by norm_num [abs_lt])]; norm_num
  have e2 : fl 53 ((7 : ℝ) * (6004799503160661 / 2 ^ 54)) = 5254199565265578 / 2 ^ 51 := by
    rw [fl_lit 5254199565265578 1 (by norm_num) (by norm_num) (by norm_num [abs_lt])]; norm_num
  have e3 : fl 53 ((5254199565265578 : ℝ) / 2 ^ 51) = 5254199565265578 / 2 ^ 51 :=
    fl_of_rep (by norm_num) ⟨5254199565265578, -51, by norm_num, by norm_num⟩
  have e4 : fl 53 ((5254199565265578 : ℝ) / 2 ^ 51 + 5254199565265578 / 2 ^ 51) = 5254199565265578 / 2 ^ 50 := by
    rw [fl_of_rep (by norm_num) ⟨5254199565265578, -50, by norm_num, by norm_num⟩]; norm_num
  have e5 : fl 53 ((5254199565265578 : ℝ) / 2 ^ 50 + 5254199565265578 / 2 ^ 51) = 7881299347898367 / 2 ^ 50 := by
    rw [fl_of_rep (by norm_num) ⟨7881299347898367, -50, by norm_num, by norm_num⟩]; norm_num
  have e6 : fl 53 ((7881299347898367 : ℝ) / 2 ^ 50) = 7881299347898367 / 2 ^ 50 :=
    fl_of_rep (by norm_num) ⟨7881299347898367, -50, by norm_num, by norm_num⟩
  rw [Props.unit_add]
  have d1 : (divF Props.unit (⟨3, 3, 0, by norm_num, by norm_num⟩ : Flt 53)).val = 6004799503160661 / 2 ^ 54 := e1
  have d2 : (divF Props.unit (0 + Props.unit)).val = 1 := by
    show fl 53 (1 / fl 53 (0 + 1)) = 1
    rw [zero_add, e0, div_one, e0]
  simp only [Flt.add_val, Flt.mul_val, Flt.zero_val, d1, d2, zero_add, mul_one]
  rw [show sevenF.val = 7 from rfl, e2, e3, e4, e5, e6, e6]
  norm_num

/-! ## C184: an integer standard deviation

Full statement: `imgaussfilt(picture, 2)` smooths the picture as `imgaussfilt(picture, 2.0)` does. `SigmaT` may be an
integer type (image_operations.h 5567, 5608), but then the weights of the mask and their quotients by their sum are
integers as well. -/

/-- What the filter does when the standard deviations are `int`s: with a single sample in each direction it returns the
picture, with more samples in either direction it returns a black picture. -/
theorem C184_integer_sigma (im : Image ℝ) (w h : Nat) (f : Nat → Nat → ℝ) (s : im.Shows w h f)
    (hw : 0 < w) (hh : 0 < h) (n1 n2 : Nat) (hn1 : 0 < n1) (hn2 : 0 < n2) (h1 : n1 ≤ 46340) (h2 : n2 ≤ 46340)
    (sd1 sd2 : Int) (z1 : sd1 ≠ 0) (z2 : sd2 ≠ 0) (u1 : |sd1| ≤ 32767) (u2 : |sd2| ≤ 32767)
    (b : Boundary) (v : ℝ) (hc : CanPad b w h n1 n2)
    (hx : 2 * (w + 3 * n1 + 1) < 2 ^ 64) (hy : 2 * (h + 3 * n2 + 1) < 2 ^ 64)
    (hf : (w + 3 * n1 + 1) * (h + 3 * n2 + 1) < 2 ^ 64) :
    ∃ out, imgaussfiltInt im sd1 sd2 n1 n2 b v = .ok out ∧
      out.Shows w h (fun x y => if n1 = 1 ∧ n2 = 1 then f x y else 0) := by
  have hlt : ∀ a b : Nat, a ≤ w + 3 * n1 + 1 → b ≤ h + 3 * n2 + 1 → a * b < 2 ^ 64 :=
    fun a b ha hb => lt_of_le_of_lt (Nat.mul_le_mul ha hb) hf
  obtain ⟨P, eP, sP⟩ := paddedImage_extend s v hc (by omega) (by omega) (hlt _ _ (by omega) (by omega))
  obtain ⟨g1, eg1, sg1⟩ := gaussianFigureInt_shows h1 (c := maskCenter n1) (by unfold maskCenter; omega) z1 u1
  obtain ⟨g2, eg2, sg2⟩ := gaussianFigureInt_shows h2 (c := maskCenter n2) (by unfold maskCenter; omega) z2 u2
  obtain ⟨t2, et2, st2⟩ := transpose_shows 0 sg2
  have S1 := ones_sum (c := maskCenter n1) rfl hn1 z1
  have S2 := ones_sum (c := maskCenter n2) rfl hn2 z2
  obtain ⟨m1, em1, sm1⟩ := normalizeInt_shows sg1 (by omega) (row_data sg1)
    (fun x y _ _ => by split <;> simp) S1.1
  obtain ⟨m2, em2, sm2⟩ := normalizeInt_shows st2 (by omega) (column_data st2)
    (fun x y _ _ => by split <;> simp) S2.1
  have r1 := toReal_shows sm1
  have r2 := toReal_shows sm2
  obtain ⟨o1, o2, out, e1, e2, eo, so⟩ := separable_shows hw hh hn1 hn2 sP r1 r2 hx hy hf
  refine ⟨out, ?_, so.congr ?_⟩
  · rw [imgaussfiltInt, if_neg (by simp [s.dim])]
    simp only [eP, eg1, em1, e1, eg2, et2, em2, e2, Res.ok_bind, s.width, s.height]
    exact eo
  · intro x y hx' hy'
    by_cases k1 : 2 ≤ n1
    · rw [if_neg (by omega)]
      refine Finset.sum_eq_zero fun j _ => Finset.sum_eq_zero fun i _ => ?_
      rw [if_pos (S1.2 k1)]; simp
    by_cases k2 : 2 ≤ n2
    · rw [if_neg (by omega)]
      refine Finset.sum_eq_zero fun j _ => Finset.sum_eq_zero fun i _ => ?_
      rw [if_pos (S2.2 k2)]; simp
    obtain rfl : n1 = 1 := by omega
    obtain rfl : n2 = 1 := by omega
    have q1 : 0 < sd1 * sd1 := mul_self_pos.2 z1
    have q2 : 0 < sd2 * sd2 := mul_self_pos.2 z2
    have o1 : offset w 1 = 0 := by unfold offset; omega
    have o2 : offset h 1 = 0 := by unfold offset; omega
    have one : ∀ {sd : Int}, 0 < sd * sd → (if (((0 : Nat) : Int) - (maskCenter 1 : Nat)) *
        (((0 : Nat) : Int) - (maskCenter 1 : Nat)) < 2 * sd * sd then (1 : Int) else 0) = 1 := by
      intro sd hq
      have e : 2 * sd * sd = 2 * (sd * sd) := by ring
      have c : ((maskCenter 1 : Nat) : Int) = 1 := rfl
      rw [if_pos (by rw [e, c]; norm_num; omega)]
    simp only [Finset.sum_range_one, one q1, one q2, o1, o2]
    norm_num
    unfold extend
    cases b <;> dsimp only
    · rw [if_pos (by omega)]; simp
    · unfold reflectInt; rw [if_neg (by omega), if_pos (by omega), if_neg (by omega), if_pos (by omega)]; simp
    · unfold clampInt
      congr 1 <;> omega

example := C184_integer_sigma _ 9 8 _ (picture_shows 9 8 fun x y => if x = y then (1 : ℝ) else 0) (by decide) (by decide)
  5 7 (by decide) (by decide) (by decide) (by decide) 1 2 (by decide) (by decide) (by decide) (by decide) .mirror 0
  (by unfold CanPad; decide) (by decide) (by decide) (by decide)

theorem filterSizeInt (sigma : Int) : filterSizeFromSigma (sigma : ℝ) = 4 * sigma + 1 := by
  unfold filterSizeFromSigma
  have : (2 : ℝ) * (sigma : ℝ) = ((2 * sigma : Int) : ℝ) := by push_cast; ring
  rw [this, Int.ceil_intCast]
  ring

/-- `imgaussfilt(picture, sigma)` with an `int` of at least 1 and the window length chosen by the library: the result is
black, whatever the picture. With the `double` of the same value no pixel of the result is darker than the darkest pixel
of the picture. -/
theorem C184_black_violation (im : Image ℝ) (w h : Nat) (f : Nat → Nat → ℝ) (s : im.Shows w h f)
    (hw : 0 < w) (hh : 0 < h) (sigma : Nat) (h1 : 1 ≤ sigma) (h2 : sigma ≤ 11000)
    (b : Boundary) (v : ℝ) (hc : CanPad b w h (4 * sigma + 1) (4 * sigma + 1))
    (hx : 2 * (w + 3 * (4 * sigma + 1) + 1) < 2 ^ 64) (hy : 2 * (h + 3 * (4 * sigma + 1) + 1) < 2 ^ 64)
    (hf : (w + 3 * (4 * sigma + 1) + 1) * (h + 3 * (4 * sigma + 1) + 1) < 2 ^ 64)
    (lo hi : ℝ) (hr : ∀ x y, x < w → y < h → lo ≤ f x y ∧ f x y ≤ hi) (hv : b = .constant → lo ≤ v ∧ v ≤ hi) :
    (∃ out, imgaussfiltInt1 im sigma 0 b v = .ok out ∧ out.Shows w h (fun _ _ => 0)) ∧
    ∃ out g, imgaussfilt1 im (sigma : ℝ) 0 b v = .ok out ∧ out.Shows w h g ∧
      ∀ x y, x < w → y < h → lo ≤ g x y ∧ g x y ≤ hi := by
  have hsz := filterSizeInt (sigma : Int)
  have hsz' : filterSizeFromSigma (sigma : ℝ) = 4 * (sigma : Int) + 1 := by simpa using hsz
  constructor
  · obtain ⟨out, e, so⟩ := C184_integer_sigma im w h f s hw hh (4 * sigma + 1) (4 * sigma + 1) (by omega) (by omega)
      (by omega) (by omega) sigma sigma (by omega) (by omega) (by rw [abs_of_nonneg (by omega)]; omega)
      (by rw [abs_of_nonneg (by omega)]; omega) b v hc hx hy hf
    refine ⟨out, ?_, so.congr fun x y _ _ => by rw [if_neg (by omega)]⟩
    rw [imgaussfiltInt1, if_neg (by simp [s.dim])]
    simp only [hsz, if_true]
    rw [if_neg (by omega), show (4 * (sigma : Int) + 1).toNat = 4 * sigma + 1 by omega, e]
  · obtain ⟨out, g, e, so, hg⟩ := C106_range im w h f s hw hh (4 * sigma + 1) (4 * sigma + 1) (by omega) (by omega)
      sigma sigma b v hc hx hy hf lo hi hr hv
    refine ⟨out, g, ?_, so, hg⟩
    rw [imgaussfilt1, if_neg (by simp [s.dim])]
    simp only [hsz', if_true]
    rw [if_neg (by omega)]
    have : ((4 * (sigma : Int) + 1) % (W : Int)).toNat = 4 * sigma + 1 := by unfold W; omega
    rw [this, e]

example := C184_black_violation _ 9 8 _ (picture_shows 9 8 fun _ _ => (200 : ℝ)) (by decide) (by decide) 1 (by decide)
  (by decide) .mirror 0 (by unfold CanPad; decide) (by decide) (by decide) (by decide) 200 200
  (fun _ _ _ _ => ⟨le_rfl, le_rfl⟩) (fun h => by cases h)

/-- The difference of two such filters is zero everywhere: with `int` arguments `difference_of_gaussian` finds
nothing. -/
theorem C184_difference_violation (im : Image ℝ) (w h : Nat) (f : Nat → Nat → ℝ) (s : im.Shows w h f)
    (sigma1 sigma2 : Nat) (h1 : 1 ≤ sigma1) (h2 : sigma1 ≤ sigma2) (h3 : sigma2 ≤ 11000)
    (hw : 4 * sigma2 + 1 < w) (hh : 4 * sigma2 + 1 < h)
    (hx : 2 * (w + 3 * (4 * sigma2 + 1) + 1) < 2 ^ 64) (hy : 2 * (h + 3 * (4 * sigma2 + 1) + 1) < 2 ^ 64)
    (hf : (w + 3 * (4 * sigma2 + 1) + 1) * (h + 3 * (4 * sigma2 + 1) + 1) < 2 ^ 64) :
    ∃ out, differenceOfGaussianInt im sigma1 sigma2 = .ok out ∧ out.Shows w h (fun _ _ => 0) := by
  have black : ∀ sigma : Nat, 1 ≤ sigma → sigma ≤ sigma2 → ∃ out,
      imgaussfiltInt1 im sigma (filterSizeFromSigma ((sigma : Int) : ℝ)).toNat .mirror 0 = .ok out ∧
        out.Shows w h (fun _ _ => 0) := by
    intro sigma k1 k2
    have hlt : (w + 3 * (4 * sigma + 1) + 1) * (h + 3 * (4 * sigma + 1) + 1) < 2 ^ 64 :=
      lt_of_le_of_lt (Nat.mul_le_mul (by omega) (by omega)) hf
    obtain ⟨out, e, so⟩ := C184_integer_sigma im w h f s (by omega) (by omega) (4 * sigma + 1) (4 * sigma + 1) (by omega)
      (by omega) (by omega) (by omega) sigma sigma (by omega) (by omega) (by rw [abs_of_nonneg (by omega)]; omega)
      (by rw [abs_of_nonneg (by omega)]; omega) .mirror 0 ⟨by omega, by omega⟩ (by omega) (by omega) hlt
    refine ⟨out, ?_, so.congr fun x y _ _ => by rw [if_neg (by omega)]⟩
    rw [imgaussfiltInt1, if_neg (by simp [s.dim]), filterSizeInt,
      show (4 * (sigma : Int) + 1).toNat = 4 * sigma + 1 by omega]
    simp only
    rw [if_neg (by omega), if_neg (by omega)]
    exact e
  obtain ⟨a, ea, sa⟩ := black sigma1 h1 h2
  obtain ⟨b, eb, sb⟩ := black sigma2 (by omega) le_rfl
  have hp : 0 < a.size.prod := by rw [sa.size]; simpa using Nat.mul_pos (by omega : 0 < w) (by omega : 0 < h)
  refine ⟨⟨a.size, List.zipWith (· - ·) a.data b.data⟩, ?_, ?_⟩
  · rw [differenceOfGaussianInt, ea, Res.ok_bind, eb, Res.ok_bind]
    rw [subtract, checkSizeSame, if_neg (by simp [sa.size, sb.size]), Res.ok_bind]
    exact pixelwiseTransform2_ok _ sa.wf sb.wf (by rw [sa.size, sb.size]) hp
  · refine Image.Shows.of_data sa.w_lt sa.h_lt sa.fits sa.size (by simp [sa.len, sb.len]) ?_
    intro x y hx hy
    rw [List.getElem?_zipWith, sa.data? hx hy, sb.data? hx hy]
    simp

example := C184_difference_violation _ 10 11 _ (picture_shows 10 11 fun x y => if x = y then (1 : ℝ) else 0) 1 2
  (by decide) (by decide) (by decide) (by decide) (by decide) (by decide) (by decide) (by decide)

theorem normalInt_zero (x : Int) : normalInt x 0 = .ub := by
  unfold normalInt
  generalize -x * x = a
  generalize e : 2 * (0 : Int) * 0 = d
  have : d = 0 := by omega
  simp only [this, or_true, if_true]

theorem gaussianFigureInt_zero {n1 : Nat} (c : Nat) (hn1 : 0 < n1) : gaussianFigureInt n1 c 0 = .ub := by
  obtain ⟨n, rfl⟩ : ∃ n, n1 = n + 1 := ⟨n1 - 1, by omega⟩
  unfold gaussianFigureInt forUp
  rw [List.range_succ_eq_map, loop, normalInt_zero, Res.ub_bind]

/-- A standard deviation of the integer 0 divides by the integer zero: undefined behaviour. -/
theorem C184_zero_violation (im : Image ℝ) (w h : Nat) (f : Nat → Nat → ℝ) (s : im.Shows w h f)
    (n1 n2 : Nat) (hn1 : 0 < n1) (sd2 : Int) (b : Boundary) (v : ℝ) (hc : CanPad b w h n1 n2)
    (hx : w + 2 * n1 < 2 ^ 64) (hy : h + 2 * n2 < 2 ^ 64) (hf : (w + 2 * n1) * (h + 2 * n2) < 2 ^ 64) :
    imgaussfiltInt im 0 sd2 n1 n2 b v = .ub := by
  obtain ⟨P, eP, -⟩ := paddedImage_extend s v hc hx hy hf
  have := gaussianFigureInt_zero (maskCenter n1) hn1
  unfold imgaussfiltInt
  rw [if_neg (by simp [s.dim]), eP, Res.ok_bind, this, Res.ub_bind]

example := C184_zero_violation _ 9 8 _ (picture_shows 9 8 fun _ _ => (200 : ℝ)) 3 3 (by decide) 1 .mirror 0
  (by unfold CanPad; decide) (by decide) (by decide) (by decide)

theorem gaussianFigureInt_large {n1 : Nat} (c : Nat) (hn1 : 0 < n1) {sd : Int} (h : 32768 ≤ |sd|) :
    gaussianFigureInt n1 c sd = .ub := by
  obtain ⟨n, rfl⟩ : ∃ n, n1 = n + 1 := ⟨n1 - 1, by omega⟩
  have hn : ∀ x, normalInt x sd = .ub := by
    intro x
    unfold normalInt
    rw [if_pos]
    right; right; right; left
    intro hf
    have h1 : 2 * sd * sd = 2 * (|sd| * |sd|) := by rw [abs_mul_abs_self]; ring
    have h2 : (32768 : Int) * 32768 ≤ |sd| * |sd| := mul_le_mul h h (by norm_num) (abs_nonneg _)
    have h3 := hf.2
    rw [h1] at h3
    omega
  unfold gaussianFigureInt forUp
  rw [List.range_succ_eq_map, loop, hn, Res.ub_bind]

/-- A standard deviation from the integer 32768 on: its square overflows, undefined behaviour, although the same
value is an ordinary `double`. Together with `C184_integer_sigma` the bound is exact. -/
theorem C184_overflow_violation (im : Image ℝ) (w h : Nat) (f : Nat → Nat → ℝ) (s : im.Shows w h f)
    (n1 n2 : Nat) (hn1 : 0 < n1) (sd1 sd2 : Int) (hs : 32768 ≤ |sd1|) (b : Boundary) (v : ℝ) (hc : CanPad b w h n1 n2)
    (hx : w + 2 * n1 < 2 ^ 64) (hy : h + 2 * n2 < 2 ^ 64) (hf : (w + 2 * n1) * (h + 2 * n2) < 2 ^ 64) :
    imgaussfiltInt im sd1 sd2 n1 n2 b v = .ub := by
  obtain ⟨P, eP, -⟩ := paddedImage_extend s v hc hx hy hf
  have := gaussianFigureInt_large (maskCenter n1) hn1 hs
  unfold imgaussfiltInt
  rw [if_neg (by simp [s.dim]), eP, Res.ok_bind, this, Res.ub_bind]

example := C184_overflow_violation _ 9 8 _ (picture_shows 9 8 fun _ _ => (200 : ℝ)) 3 3 (by decide) 32768 1 (by decide)
  .mirror 0 (by unfold CanPad; decide) (by decide) (by decide) (by decide)

end TinyDIP.Filter
