import Verif.Lemmas.IntElem
import Verif.Lemmas.Samples
import Verif.Props.Conv
import Mathlib.Algebra.BigOperators.GroupWithZero.Finset

/-!
# C185: sums, means and convolutions of pictures with small integer elements

`sum`, `mean` and `conv2` compute in the element type of the picture. `BitVec n` is an unsigned type of `n` bits; its
numbers are read by `toNat`. For `int` the exact integers are used and an overflow is undefined.
-/

namespace TinyDIP.Props

open TinyDIP IntEl

variable {n : Nat}

/-! ## Unsigned elements -/

/-- The sum of a picture of unsigned numbers of `n` bits is the exact sum modulo `2 ^ n`, whatever the order and the
grouping. -/
theorem C185_sum (im : Image (BitVec n)) (v : BitVec n) :
    SumResult (· + ·) 0 im v ↔ v.toNat = (im.data.map BitVec.toNat).sum % 2 ^ n := by
  rw [show SumResult (· + ·) 0 im v ↔ v = im.data.foldl (· + ·) 0 from
    ⟨stdReduce_eq _ add_assoc add_comm, fun h => h ▸ stdReduce_exists _ _ _⟩, ← BitVec.toNat_inj, foldl_toNat]
  simp

example (v : BitVec 8) : SumResult (· + ·) 0 (⟨[2, 1], [200, 100]⟩ : Image (BitVec 8)) v ↔ v.toNat = 44 :=
  C185_sum _ v

/-- `mean`: the wrapped sum divided by the number of pixels, rounded down. -/
theorem C185_mean (im : Image (BitVec n)) (w h : Nat) (f : Nat → Nat → BitVec n) (s : im.Shows w h f)
    (hw : 0 < w) (hh : 0 < h) (r : Res Nat) :
    MeanResult (· + ·) divU 0 im r ↔ r = .ok ((im.data.map BitVec.toNat).sum % 2 ^ n / (w * h)) := by
  have hc : im.count = w * h := s.count
  have h0 : w * h ≠ 0 := (Nat.mul_pos hw hh).ne'
  constructor
  · rintro ⟨v, hv, rfl⟩
    rw [C185_sum] at hv
    rw [divU, hc, if_neg h0, hv]
  · rintro rfl
    refine ⟨BitVec.ofNat n (im.data.map BitVec.toNat).sum, (C185_sum _ _).2 (by simp), ?_⟩
    rw [divU, hc, if_neg h0]; simp

example (r : Res Nat) := C185_mean (n := 8) _ 3 2 _ (picture_shows 3 2 fun x y => BitVec.ofNat 8 (100 * x + y))
  (by decide) (by decide) r

/-- A sum that fits the element type is exact, and then the mean is the exact mean, rounded down, and lies between any
bounds of the pixels. (The full property asks this of every picture; see `C185_mean_violation`.) -/
theorem C185_mean_partial (im : Image (BitVec n)) (w h : Nat) (f : Nat → Nat → BitVec n) (s : im.Shows w h f)
    (hw : 0 < w) (hh : 0 < h) (hfit : (im.data.map BitVec.toNat).sum < 2 ^ n) (r : Res Nat)
    (hr : MeanResult (· + ·) divU 0 im r) :
    ∃ m, r = .ok m ∧ m * (w * h) ≤ (im.data.map BitVec.toNat).sum ∧
      (im.data.map BitVec.toNat).sum < (m + 1) * (w * h) ∧
      ∀ lo hi, (∀ x < w, ∀ y < h, lo ≤ (f x y).toNat ∧ (f x y).toNat ≤ hi) → lo ≤ m ∧ m ≤ hi := by
  have h0 : 0 < w * h := Nat.mul_pos hw hh
  rw [C185_mean im w h f s hw hh, Nat.mod_eq_of_lt hfit] at hr
  refine ⟨_, hr, Nat.div_mul_le_self _ _, by rw [Nat.mul_comm]; exact Nat.lt_mul_div_succ _ h0, ?_⟩
  intro lo hi hb
  have hlen : im.data.length = w * h := s.len
  have hmem : ∀ a ∈ im.data.map BitVec.toNat, lo ≤ a ∧ a ≤ hi := by
    intro a ha
    obtain ⟨b, hb', rfl⟩ := List.mem_map.1 ha
    obtain ⟨i, hi', rfl⟩ := List.getElem_of_mem hb'
    rw [hlen] at hi'
    have hx : i % w < w := Nat.mod_lt _ hw
    have hy : i / w < h := Nat.div_lt_of_lt_mul hi'
    have e := s.data? hx hy
    rw [Nat.mod_add_div, List.getElem?_eq_getElem (by omega)] at e
    rw [Option.some.inj e]
    exact hb _ hx _ hy
  have h1 := List.card_nsmul_le_sum (im.data.map BitVec.toNat) lo fun a ha => (hmem a ha).1
  have h2 := List.sum_le_card_nsmul (im.data.map BitVec.toNat) hi fun a ha => (hmem a ha).2
  rw [List.length_map, hlen, nsmul_eq_mul, Nat.cast_id] at h1 h2
  exact ⟨(Nat.le_div_iff_mul_le h0).2 (by rw [Nat.mul_comm]; exact h1),
    (Nat.div_le_iff_le_mul_add_pred h0).2 (by
      have : w * h * hi ≤ w * h * hi + (w * h - 1) := by omega
      exact h2.trans this)⟩

example := C185_mean_partial (n := 8) _ 2 2 _ (picture_shows 2 2 fun x y => BitVec.ofNat 8 (20 * x + y))
  (by decide) (by decide) (by decide) _
  ((C185_mean (n := 8) _ 2 2 _ (picture_shows 2 2 fun x y => BitVec.ofNat 8 (20 * x + y)) (by decide) (by decide) _).2
    rfl)

/-- The mean of an 8-bit picture whose two pixels are both 200 is 72: it is below every pixel. -/
theorem C185_mean_violation :
    ∃ im : Image (BitVec 8), im.Shows 2 1 (fun _ _ => 200) ∧ ∀ r, MeanResult (· + ·) divU 0 im r ↔ r = .ok 72 :=
  ⟨_, picture_shows 2 1 fun _ _ => 200, fun r => C185_mean _ 2 1 _ (picture_shows 2 1 fun _ _ => 200) (by decide)
    (by decide) r⟩

/-- The mean of a picture without pixels divides by zero. -/
theorem C185_mean_empty (im : Image (BitVec n)) (h : 0 ∈ im.size) (r : Res Nat)
    (hr : MeanResult (· + ·) divU 0 im r) : r = .ub := by
  obtain ⟨v, _, rfl⟩ := hr
  have : im.count = 0 := by
    rw [Image.count, prodW_eq, List.prod_eq_zero h, Nat.zero_mod]
  rw [divU, if_pos this]

example : (0 : Nat) ∈ (⟨[0, 3], []⟩ : Image (BitVec 8)).size := by simp

/-- `conv2` of two pictures of unsigned numbers (8, 32 or 64 bits) is the exact convolution modulo `2 ^ n`, whatever
the order in which the pixels are computed. -/
theorem C185_conv2 (x y : Image (BitVec n)) (w1 h1 w2 h2 : Nat) (fx fy : Nat → Nat → BitVec n)
    (sx : x.Shows w1 h1 fx) (sy : y.Shows w2 h2 fy)
    (hw1 : 0 < w1) (hh1 : 0 < h1) (hw2 : 0 < w2) (hh2 : 0 < h2)
    (hf : (w1 + w2) * (h1 + h2) < 2 ^ 64) (order : List Nat)
    (ho : order.Perm (List.range ((w1 + w2 - 1) * (h1 + h2 - 1)))) :
    ∃ out g, conv2Ord order x y false = .ok out ∧ out.Shows (w1 + w2 - 1) (h1 + h2 - 1) g ∧
      ∀ i j, ((g i j).toNat : ℤ) =
        convAt w1 h1 (fun i j => ((fx i j).toNat : ℤ)) w2 h2 (fun i j => ((fy i j).toNat : ℤ)) i j % 2 ^ n := by
  obtain ⟨out, e, s⟩ := C23_conv2_full x y w1 h1 w2 h2 fx fy sx sy hw1 hh1 hw2 hh2 hf order ho
  exact ⟨out, _, e, s, fun i j => convAt_toNat _ _ _ _ _ _ _ _⟩

example := C185_conv2 (n := 8) _ _ 3 2 2 2 _ _ (picture_shows 3 2 fun x y => BitVec.ofNat 8 (100 * x + y))
  (picture_shows 2 2 fun x y => BitVec.ofNat 8 (x + 2 * y)) (by decide) (by decide) (by decide) (by decide) (by decide) _
  (List.reverse_perm _)

/-- The `3 × 3` box sum of a white 8-bit picture is 247 (`2295` modulo `256`) inside: `conv2` does not saturate, and
does not widen the elements. -/
theorem C185_conv2_violation :
    ∃ x y out : Image (BitVec 8), x.Shows 3 3 (fun _ _ => 255) ∧ y.Shows 3 3 (fun _ _ => 1) ∧
      conv2 x y false = .ok out ∧ out.at' [2, 2] = .ok 247 ∧ out.at' [0, 0] = .ok 255 ∧ out.at' [1, 0] = .ok 254 := by
  have sx := picture_shows 3 3 fun _ _ => (255 : BitVec 8)
  have sy := picture_shows 3 3 fun _ _ => (1 : BitVec 8)
  obtain ⟨out, g, e, so, hg⟩ := C185_conv2 _ _ 3 3 3 3 _ _ sx sy (by decide) (by decide) (by decide) (by decide)
    (by decide) _ (.refl _)
  have val : ∀ i j (v : BitVec 8), convAt 3 3 (fun _ _ => (255 : ℤ)) 3 3 (fun _ _ => (1 : ℤ)) i j % 2 ^ 8 = v.toNat →
      i < 5 → j < 5 → out.at' [i, j] = .ok v := by
    intro i j v hv hi hj
    have hp : out.at' [i, j] = .ok (g i j) := so.px i j hi hj
    rw [hp]
    have := (hg i j).trans hv
    rw [BitVec.eq_of_toNat_eq (x := g i j) (y := v) (by exact_mod_cast this)]
  refine ⟨_, _, out, sx, sy, ?_, val 2 2 247 (by decide +kernel) (by decide) (by decide),
    val 0 0 255 (by decide +kernel) (by decide) (by decide), val 1 0 254 (by decide +kernel) (by decide) (by decide)⟩
  rw [conv2, conv2_order sx sy (by decide) (by decide) (by decide) (by decide) (by decide)]
  exact e

/-! ## `int` elements -/

/-- When the sum of the absolute values is an `int`, the sum of a picture of `int`s is exact, whatever the order. -/
theorem C185_sum_int_partial (im : Image Int) (hb : (im.data.map abs).sum < 2 ^ 31) (r : Res Int) (hr : SumInt im r) :
    r = .ok im.data.sum := sumInt_eq hr hb

example : SumInt ⟨[3, 1], [5, -2, -4]⟩ (.ok (-1)) :=
  ⟨[Res.ok 0, Res.ok 5, Res.ok (-2), Res.ok (-4)], .refl _, .node (l₁ := [Res.ok 0, Res.ok 5]) (a := Res.ok 5) (b := Res.ok (-6))
    (.node (l₁ := [Res.ok 0]) (.one _) (.one _)) (.node (l₁ := [Res.ok (-2)]) (.one _) (.one _))⟩

theorem sum_parts (l : List Int) : (l.map (min 0)).sum ≤ 0 ∧ 0 ≤ (l.map (max 0)).sum ∧ (l.map (min 0)).sum ≤ l.sum ∧
    l.sum ≤ (l.map (max 0)).sum := by
  induction l with
  | nil => simp
  | cons a l ih => simp only [List.map_cons, List.sum_cons]; omega

theorem brackets_exact {l : List (Res Int)} {r : Res Int} (h : Brackets plusInt l r) :
    ∀ xs : List Int, l = xs.map .ok → (xs.map (max 0)).sum < 2 ^ 31 → -2 ^ 31 ≤ (xs.map (min 0)).sum →
      r = .ok xs.sum := by
  induction h with
  | one a =>
    intro xs hx _ _
    cases xs with
    | nil => cases hx
    | cons x xs =>
      cases xs with
      | nil => injection hx with hx; simp [hx]
      | cons y ys => injection hx with _ hx; cases hx
  | node _ _ ih1 ih2 =>
    intro xs hx hp hn
    obtain ⟨xs1, xs2, rfl, h1, h2⟩ := List.append_eq_map_iff.1 hx
    rw [List.map_append, List.sum_append] at hp hn
    have p1 := sum_parts xs1
    have p2 := sum_parts xs2
    rw [ih1 xs1 h1.symm (by omega) (by omega), ih2 xs2 h2.symm (by omega) (by omega), List.sum_append]
    show (if isInt (xs1.sum + xs2.sum) then Res.ok (xs1.sum + xs2.sum) else .ub) = _
    rw [if_pos (by unfold isInt; rw [Bool.and_eq_true, decide_eq_true_eq, decide_eq_true_eq]; omega)]

theorem foldl_plusInt (l : List Int) (a : Int) (ha : isInt a = true) :
    (l.map Res.ok).foldl plusInt (.ok a) = .ub ∨
      ((l.map Res.ok).foldl plusInt (.ok a) = .ok (a + l.sum) ∧ isInt (a + l.sum) = true) := by
  induction l generalizing a with
  | nil => right; simpa using ha
  | cons x l ih =>
    rw [List.map_cons, List.foldl_cons, List.sum_cons]
    have e : plusInt (.ok a) (.ok x) = if isInt (a + x) then .ok (a + x) else .ub := rfl
    rw [e]
    split
    · rename_i hc
      rcases ih (a + x) hc with h | ⟨h, h'⟩
      · exact .inl h
      · rw [add_assoc] at h h'; exact .inr ⟨h, h'⟩
    · left
      have : ∀ l : List (Res Int), l.foldl plusInt .ub = .ub := by
        intro l
        induction l with
        | nil => rfl
        | cons b l ih => exact ih
      exact this _

theorem foldl_ub (l : List (Res Int)) : l.foldl plusInt .ub = .ub := by
  induction l with
  | nil => rfl
  | cons b l ih => exact ih

/-- A selection of the pixels whose sum is no `int` makes some permitted order undefined. -/
theorem sumInt_ub (im : Image Int) (q : Int → Bool)
    (h : (im.data.filter q).sum < -2 ^ 31 ∨ 2 ^ 31 ≤ (im.data.filter q).sum) : SumInt im .ub := by
  refine ⟨.ok 0 :: ((im.data.filter q).map .ok ++ (im.data.filter fun x => !q x).map .ok), ?_, ?_⟩
  · rw [← List.map_append]
    exact (List.Perm.map _ (List.filter_append_perm q im.data)).cons _
  · have e : ((im.data.filter q).map Res.ok ++ (im.data.filter fun x => !q x).map Res.ok).foldl plusInt (.ok 0) = .ub := by
      rw [List.foldl_append]
      rcases foldl_plusInt (im.data.filter q) 0 (by decide) with h1 | ⟨_, h1⟩
      · rw [h1, foldl_ub]
      · unfold isInt at h1
        rw [Bool.and_eq_true, decide_eq_true_eq, decide_eq_true_eq] at h1
        omega
    rw [← e]
    exact brackets_foldl _ _ _

theorem filter_max (l : List Int) : (l.filter fun x => decide (0 ≤ x)).sum = (l.map (max 0)).sum ∧
    (l.filter fun x => decide (x ≤ 0)).sum = (l.map (min 0)).sum := by
  induction l with
  | nil => simp
  | cons a l ih =>
    obtain ⟨h1, h2⟩ := ih
    simp only [List.filter_cons, List.map_cons, List.sum_cons]
    constructor
    · split <;> simp_all <;> omega
    · split <;> simp_all <;> omega

/-- Exactly when the positive pixels sum to an `int`, and the negative ones too, the sum of a picture of `int`s is
exact whatever the order and the grouping; otherwise some permitted order has undefined behaviour. -/
theorem C185_sum_int_iff (im : Image Int) :
    (∀ r, SumInt im r → r = .ok im.data.sum) ↔
      (im.data.map (max 0)).sum ≤ 2147483647 ∧ -2147483648 ≤ (im.data.map (min 0)).sum := by
  constructor
  · intro h
    by_contra hc
    rcases not_and_or.1 hc with hc | hc
    · have := h _ (sumInt_ub im (fun x => decide (0 ≤ x)) (.inr (by rw [(filter_max _).1]; omega)))
      cases this
    · have := h _ (sumInt_ub im (fun x => decide (x ≤ 0)) (.inl (by rw [(filter_max _).2]; omega)))
      cases this
  · rintro ⟨hp, hn⟩ r ⟨l, hl, hv⟩
    obtain ⟨xs, hx, hperm⟩ : ∃ xs : List Int, l = xs.map .ok ∧ xs.Perm (0 :: im.data) := by
      have e : Res.ok (0 : Int) :: im.data.map .ok = (0 :: im.data).map Res.ok := rfl
      rw [e] at hl
      have hx : l = (l.map fun r => match r with | .ok x => x | _ => 0).map Res.ok := by
        rw [List.map_map]
        conv_lhs => rw [← List.map_id l]
        apply List.map_congr_left
        intro r hr
        obtain ⟨x, _, rfl⟩ := List.mem_map.1 (hl.mem_iff.1 hr)
        rfl
      refine ⟨_, hx, ?_⟩
      have := hl.map fun r => match r with | Res.ok x => x | _ => (0 : Int)
      rw [List.map_map] at this
      simpa [Function.comp_def] using this
    have a := (hperm.map (max 0)).sum_eq
    have b := (hperm.map (min 0)).sum_eq
    simp only [List.map_cons, List.sum_cons, max_self, min_self, zero_add] at a b
    rw [brackets_exact hv xs hx (by omega) (by omega), hperm.sum_eq, List.sum_cons, zero_add]

/-- `2147483647, -2147483648` is always summed exactly. -/
example := (C185_sum_int_iff ⟨[2, 1], [2147483647, -2147483648]⟩).2 (by decide)

/-- That the sum itself is an `int` is not enough: for the pixels `2147483647, 1, -1` one permitted grouping gives the
right sum and another one overflows. -/
theorem C185_sum_int_violation :
    ∃ im : Image Int, im.data.sum = 2147483647 ∧ SumInt im (.ok 2147483647) ∧ SumInt im .ub := by
  refine ⟨⟨[3, 1], [2147483647, 1, -1]⟩, by decide, ⟨[Res.ok 0, Res.ok 2147483647, Res.ok 1, Res.ok (-1)], .refl _, ?_⟩,
    ⟨[Res.ok 0, Res.ok 2147483647, Res.ok 1, Res.ok (-1)], .refl _, ?_⟩⟩
  · have h1 : Brackets plusInt ([Res.ok 0] ++ [Res.ok 2147483647]) (Res.ok 2147483647) :=
      .node (.one (Res.ok 0)) (.one (Res.ok 2147483647))
    have h2 : Brackets plusInt ([Res.ok 1] ++ [Res.ok (-1)]) (Res.ok 0) :=
      .node (.one (Res.ok 1)) (.one (Res.ok (-1)))
    exact Brackets.node h1 h2
  · have h1 : Brackets plusInt ([Res.ok 0] ++ [Res.ok 2147483647]) (Res.ok 2147483647) :=
      .node (.one (Res.ok 0)) (.one (Res.ok 2147483647))
    have e : plusInt (Res.ok 2147483647) (Res.ok 1) = .ub := rfl
    have h2 : Brackets plusInt ([Res.ok 0] ++ [Res.ok 2147483647] ++ [Res.ok 1]) Res.ub :=
      e ▸ Brackets.node h1 (.one (Res.ok 1))
    exact Brackets.node h2 (.one (Res.ok (-1)))

/-- `mean` of a picture of `int`s whose sum is exact: a sum that is not negative gives the exact mean rounded down, a
negative sum is taken modulo `2 ^ 64` before the division. -/
theorem C185_mean_int_partial (im : Image Int) (w h : Nat) (f : Nat → Nat → Int) (s : im.Shows w h f)
    (hw : 0 < w) (hh : 0 < h) (hb : (im.data.map abs).sum < 2 ^ 31) (r : Res Nat) (hr : MeanInt im r) :
    ∃ m, r = .ok m ∧ (0 ≤ im.data.sum → (m : ℤ) = im.data.sum / (w * h : ℕ)) ∧
      (im.data.sum < 0 → (m : ℤ) = (2 ^ 64 + im.data.sum) / (w * h : ℕ)) := by
  have h0 : w * h ≠ 0 := (Nat.mul_pos hw hh).ne'
  obtain ⟨v, hv, rfl⟩ := hr
  have hv := sumInt_eq hv hb
  subst hv
  have ha : |im.data.sum| < 2 ^ 31 := lt_of_le_of_lt (abs_list_sum _) hb
  have ha := abs_lt.1 ha
  refine ⟨(im.data.sum % 2 ^ 64).toNat / (w * h), ?_, ?_, ?_⟩
  · show divInt _ _ = _
    rw [divInt, s.count, if_neg h0]
  · intro hp
    rw [Int.natCast_ediv, Int.toNat_of_nonneg (Int.emod_nonneg _ (by norm_num)), Int.emod_eq_of_lt hp (by omega)]
  · intro hp
    rw [Int.natCast_ediv, Int.toNat_of_nonneg (Int.emod_nonneg _ (by norm_num))]
    congr 1
    rw [← Int.add_emod_left, Int.emod_eq_of_lt (by omega) (by omega)]

example (r : Res Nat) := C185_mean_int_partial _ 3 2 _ (picture_shows 3 2 fun x y => (x : Int) - 5 * y) (by decide)
  (by decide) (by decide) r

/-- The mean of a picture whose two pixels are both `-2` is `9223372036854775806`. -/
theorem C185_mean_int_violation :
    ∃ im : Image Int, im.Shows 2 1 (fun _ _ => -2) ∧ (∃ r, MeanInt im r) ∧
      ∀ r, MeanInt im r → r = .ok 9223372036854775806 := by
  refine ⟨_, picture_shows 2 1 fun _ _ => -2, ⟨_, _, stdReduce_exists _ _ _, rfl⟩, ?_⟩
  intro r hr
  obtain ⟨m, rfl, _, h2⟩ := C185_mean_int_partial _ 2 1 _ (picture_shows 2 1 fun _ _ => -2) (by decide) (by decide)
    (by decide) r hr
  have h3 : (picture 2 1 fun _ _ => (-2 : Int)).data.sum = -4 := by decide
  rw [h3] at h2
  have := h2 (by decide)
  congr 1
  omega

end TinyDIP.Props
