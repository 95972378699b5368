import Verif.Lemmas.OtsuFlt
import Verif.Props.HistClass
import Verif.Props.BilateralByte

/-!
# Property theorems: Otsu's threshold in floating arithmetic (C207)

Full statement of C207: `otsu_threshold`, computed in `double`, reports "no threshold" exactly when all pixels have the
same value, and otherwise a level that leaves pixels on both sides and separates them, up to rounding, as well as any
level.

What is missing: pictures whose number of pixels is not a power of two. The shares of the pixels are rounded then, the
remaining weight does not end at zero, and a level above all pixels can win.
-/

namespace TinyDIP.Props

open TinyDIP Image Hist Rnd

/-! ## C207 -/

theorem getD_cases {h : List ℝ} {P : ℝ → Prop} (h0 : P 0) (hP : ∀ x ∈ h, P x) (i : Nat) : P (h.getD i 0) := by
  rw [List.getD_eq_getElem?_getD]
  by_cases hlt : i < h.length
  · simp only [List.getElem?_eq_getElem hlt, Option.getD_some]; exact hP _ (List.getElem_mem _)
  · simpa [List.getElem?_eq_none (Nat.le_of_not_lt hlt)] using h0

/-- A histogram whose entries are whole multiples of a power of two (for example counts), with at most
`2 ^ p / (number of levels)` of them in all. If no level splits it the result is the number of levels; otherwise the
result is a level with weight on both sides, and its variance between the two classes is, up to
`(8 * levels + 10) / 2 ^ p` of it, the largest.
Missing: other entries, see `C207_violation`. -/
theorem C207_histogram_partial (p : Nat) (hp : 1 ≤ p) (h : List ℝ) (e : ℤ) (h0 : ∀ x ∈ h, 0 ≤ x)
    (hq : ∀ x ∈ h, ∃ c : ℤ, x = c * (2 : ℝ) ^ e) (hsum : h.sum * h.length ≤ 2 ^ p * (2 : ℝ) ^ e)
    (hlen : h.length ≤ 2 ^ p) :
    ((∀ k, k < h.length → ¬ (0 < lowWeight h k ∧ 0 < highWeight h k)) → otsuF p h = h.length) ∧
    ((∃ k, k < h.length ∧ 0 < lowWeight h k ∧ 0 < highWeight h k) →
      otsuF p h < h.length ∧ 0 < lowWeight h (otsuF p h) ∧ 0 < highWeight h (otsuF p h) ∧
      ∀ k, k < h.length → 0 < lowWeight h k → 0 < highWeight h k →
        (1 - (8 * h.length + 10) / 2 ^ p) * betweenVar h k ≤ betweenVar h (otsuF p h)) := by
  have hs : h.sum = ∑ i ∈ Finset.range h.length, h.getD i 0 := by
    rw [← Filter.sum_list_range]
    congr 1
    apply List.ext_getElem
    · simp
    · intro i h1 h2
      simp [List.getD_eq_getElem?_getD, List.getElem?_eq_getElem h1]
  have x : Exact p h e := ⟨hp, getD_cases (le_refl _) h0, getD_cases (Quant.zero e) hq, hs ▸ hsum, hlen⟩
  have hu : ulp1 p = 1 / 2 ^ p := by unfold ulp1; rw [zpow_neg, zpow_natCast, one_div]
  refine ⟨x.final.1, fun hex => ?_⟩
  obtain ⟨f1, f2, f3⟩ := x.final.2 hex
  refine ⟨f1, f2.1, f2.2, fun k hk a b => ?_⟩
  have := x.nearly_best hk ⟨a, b⟩ f1 f2 (f3 k hk ⟨a, b⟩)
  rwa [hu, mul_one_div] at this

example := C207_histogram_partial 53 (by decide) [100, 3, 0, 25] 0 (by intro x hx; fin_cases hx <;> norm_num)
  (by
    intro x hx
    simp only [List.mem_cons, List.not_mem_nil, or_false] at hx
    rcases hx with rfl | rfl | rfl | rfl
    · exact ⟨100, by norm_num⟩
    · exact ⟨3, by norm_num⟩
    · exact ⟨0, by norm_num⟩
    · exact ⟨25, by norm_num⟩)
  (by norm_num) (by norm_num)

/-- That histogram can be split. -/
example : 0 < lowWeight [(100 : ℝ), 3, 0, 25] 1 ∧ 0 < highWeight [(100 : ℝ), 3, 0, 25] 1 := by
  constructor
  · simp [lowWeight, Finset.sum_range_succ]; norm_num
  · simp [highWeight, Finset.sum_Ico_eq_sum_range, Finset.sum_range_succ]

section Image
variable {n : Nat} [NeZero n]

theorem probabilitiesF_ok {p : Nat} {h : Store (Fin n)} {c : Fin n → Nat} (hc : h.Counts (.unsigned n) c) (total : Nat) :
    forUp n (fun out i => do
      let c ← h.getCount (.unsigned n) (Fin.ofNat n i)
      vset out i (fl p (fl p (c : ℝ) / fl p (total : ℝ)))) (List.replicate n 0) =
      .ok ((List.finRange n).map fun v => fl p (fl p (c v : ℝ) / fl p (total : ℝ))) := by
  unfold forUp
  refine loop_listMap (List.finRange n) (by simp) (fun v => fl p (fl p (c v : ℝ) / fl p (total : ℝ))) _ (List.range n) ?_
    (List.replicate n 0) List.length_replicate (.refl _)
  intro i hi a ha d hd
  rw [List.mem_range] at hi
  have ea : a = Fin.ofNat n i := by
    rw [List.getElem?_eq_getElem (by simpa using hi)] at ha
    injection ha with ha
    rw [← ha, List.getElem_finRange]
    ext
    simp [Nat.mod_eq_of_lt hi]
  rw [(C161_read (unsigned_good n) hc (Fin.ofNat n i)).1, ← ea]
  simp only [Res.ok_bind]
  exact vset_eq_ok _ (by omega)

/-- The rounded shares of the levels. -/
noncomputable def sharesF (p n : Nat) [NeZero n] (w h : Nat) (f : Nat → Nat → Fin n) : List ℝ :=
  (List.finRange n).map fun i => fl p (fl p ((pixelCount w h f fun a => a == i : Nat) : ℝ) / fl p ((w * h : Nat) : ℝ))

theorem otsuImageF_iff {p : Nat} {im : Image (Fin n)} {w h : Nat} {f : Nat → Nat → Fin n} (s : im.Shows w h f) (r : Res Nat) :
    OtsuImageF p n im r ↔ r = .ok (otsuF p (sharesF p n w h f)) := by
  obtain ⟨v, he, hc, hcnt, htot, hex⟩ := levels_of_image s
  constructor
  · rintro ⟨hs, e, hm⟩
    rw [he] at e
    subst e
    obtain ⟨q, ⟨t, ht, rfl⟩, rfl⟩ := hm
    rw [htot t ht]
    simp only [Res.ok_bind]
    rw [probabilitiesF_ok hc]
    rfl
  · rintro rfl
    obtain ⟨t, ht⟩ := hex
    refine ⟨_, he, .ok (sharesF p n w h f), ⟨t, ht, ?_⟩, rfl⟩
    rw [htot t ht]
    simp only [Res.ok_bind]
    exact (probabilitiesF_ok hc (w * h)).symm

theorem getD_map_cast (l : List ℚ) (i : Nat) : (l.map fun q : ℚ => (q : ℝ)).getD i 0 = ((l.getD i 0 : ℚ) : ℝ) := by
  simp only [List.getD_eq_getElem?_getD, List.getElem?_map]
  cases l[i]? <;> simp

theorem lowWeight_cast (l : List ℚ) (k : Nat) : lowWeight (l.map fun q : ℚ => (q : ℝ)) k = ((lowWeight l k : ℚ) : ℝ) := by
  unfold lowWeight
  push_cast
  exact Finset.sum_congr rfl fun i _ => getD_map_cast l i

theorem highWeight_cast (l : List ℚ) (k : Nat) : highWeight (l.map fun q : ℚ => (q : ℝ)) k = ((highWeight l k : ℚ) : ℝ) := by
  unfold highWeight
  push_cast
  rw [List.length_map]
  exact Finset.sum_congr rfl fun i _ => getD_map_cast l i

theorem betweenVar_cast (l : List ℚ) (k : Nat) : betweenVar (l.map fun q : ℚ => (q : ℝ)) k = ((betweenVar l k : ℚ) : ℝ) := by
  unfold betweenVar lowMean highMean
  push_cast
  rw [lowWeight_cast, highWeight_cast, List.length_map]
  simp only [getD_map_cast]

theorem pixelCount_le {α : Type} {im : Image α} {w h : Nat} {f : Nat → Nat → α} (s : im.Shows w h f) (q : α → Bool) :
    pixelCount w h f q ≤ w * h := by
  rw [← pixelCount_eq s, ← s.len]
  exact List.countP_le_length

/-- Every picture of unsigned elements with `2 ^ j` pixels, `2 ^ j` times the number of levels at most `2 ^ p`, whatever
the grouping of the sums: the result is the number of levels exactly when all pixels have the same value; otherwise it
is a level that leaves pixels on both sides and separates them, up to `(8 * levels + 10) / 2 ^ p` of it, as well as any
level.
Missing: other numbers of pixels, see `C207_violation`. -/
theorem C207_image_partial (p : Nat) (hp : 1 ≤ p) {im : Image (Fin n)} {w h : Nat} {f : Nat → Nat → Fin n}
    (s : im.Shows w h f) (j : Nat) (hj : w * h = 2 ^ j) (hfit : 2 ^ j * n ≤ 2 ^ p) :
    (∃ r, OtsuImageF p n im r) ∧ ∀ r, OtsuImageF p n im r → ∃ t, r = .ok t ∧
      ((∀ k, k < n → darkCount w h f k = 0 ∨ brightCount w h f k = 0) → t = n) ∧
      ((∃ k, k < n ∧ 0 < darkCount w h f k ∧ 0 < brightCount w h f k) →
        t < n ∧ 0 < darkCount w h f t ∧ 0 < brightCount w h f t ∧
        ∀ k, k < n → 0 < darkCount w h f k → 0 < brightCount w h f k →
          (1 - (8 * n + 10) / 2 ^ p) * (separation w h f k : ℝ) ≤ (separation w h f t : ℝ)) := by
  have hne : 0 < w * h := by rw [hj]; positivity
  have hn0 : 0 < n := NeZero.pos n
  have hj2 : 2 ^ j ≤ 2 ^ p := le_trans (Nat.le_mul_of_pos_right _ hn0) hfit
  have hnp : n ≤ 2 ^ p := le_trans (Nat.le_mul_of_pos_left _ (by positivity)) hfit
  -- the shares are exact
  have hsh : sharesF p n w h f = (shares n w h f).map fun q : ℚ => (q : ℝ) := by
    unfold sharesF shares
    rw [List.map_map]
    refine List.map_congr_left fun i _ => ?_
    simp only [Function.comp]
    have hc := pixelCount_le s fun a => a == i
    rw [hj] at hc
    have e1 : ((2 ^ j : Nat) : ℝ) = (2 : ℝ) ^ (j : ℤ) := by push_cast; rw [zpow_natCast]
    rw [hj, fl_nat hp (hc.trans hj2), fl_nat hp hj2, e1, div_eq_mul_inv, ← zpow_neg,
      fl_of_rep hp ((rep_nat (hc.trans hj2)).mul_pow _)]
    push_cast
    rw [zpow_neg, zpow_natCast, div_eq_mul_inv]
  obtain ⟨hlen, low, high, hvar⟩ := shares_facts s hne
  have hNQ : (0 : ℚ) < ((w * h : Nat) : ℚ) := by exact_mod_cast hne
  have main := C207_histogram_partial p hp ((shares n w h f).map fun q : ℚ => (q : ℝ)) (-(j : ℤ))
    (by
      intro x hx
      simp only [List.mem_map, shares, List.map_map] at hx
      obtain ⟨i, _, rfl⟩ := hx
      simp only [Function.comp]
      positivity)
    (by
      intro x hx
      simp only [List.mem_map, shares, List.map_map] at hx
      obtain ⟨i, _, rfl⟩ := hx
      refine ⟨(pixelCount w h f fun a => a == i : Nat), ?_⟩
      simp only [Function.comp]
      rw [hj]
      push_cast
      rw [zpow_neg, zpow_natCast, div_eq_mul_inv])
    (by
      have hsum : ((shares n w h f).map fun q : ℚ => (q : ℝ)).sum = 1 := by
        have hd : darkCount w h f (n - 1) = w * h := by
          unfold darkCount
          rw [← pixelCount_eq s, List.countP_eq_length.2, s.len]
          intro a _
          have := a.isLt
          simp; omega
        have h1 := low (n - 1) (by omega)
        rw [hd, div_self hNQ.ne'] at h1
        have h2 : (shares n w h f).sum = 1 := by
          rw [← h1]
          unfold lowWeight
          rw [← Filter.sum_list_range, show n - 1 + 1 = (shares n w h f).length by rw [hlen]; omega]
          congr 1
          apply List.ext_getElem
          · simp
          · intro i h1 h2
            simp [List.getD_eq_getElem?_getD, List.getElem?_eq_getElem h1]
        have h3 : ∀ l : List ℚ, (l.map fun q : ℚ => (q : ℝ)).sum = ((l.sum : ℚ) : ℝ) := by
          intro l
          induction l with
          | nil => simp
          | cons a l ih => rw [List.map_cons, List.sum_cons, List.sum_cons, ih, Rat.cast_add]
        rw [h3, h2]; norm_num
      rw [hsum, List.length_map, hlen, one_mul, zpow_neg, zpow_natCast, ← div_eq_mul_inv, le_div_iff₀ (by positivity)]
      have : ((2 ^ j * n : Nat) : ℝ) ≤ ((2 ^ p : Nat) : ℝ) := by exact_mod_cast hfit
      push_cast at this
      linarith)
    (by rw [List.length_map, hlen]; exact hnp)
  rw [← hsh] at main
  have hl' : (sharesF p n w h f).length = n := by rw [hsh, List.length_map, hlen]
  rw [hl'] at main
  have hlow : ∀ k, k < n → (0 < lowWeight (sharesF p n w h f) k ↔ 0 < darkCount w h f k) := by
    intro k hk
    rw [hsh, lowWeight_cast, low k hk, Rat.cast_pos, div_pos_iff_of_pos_right hNQ]; exact Nat.cast_pos
  have hhigh : ∀ k, k < n → (0 < highWeight (sharesF p n w h f) k ↔ 0 < brightCount w h f k) := by
    intro k hk
    rw [hsh, highWeight_cast, high k hk, Rat.cast_pos, div_pos_iff_of_pos_right hNQ]; exact Nat.cast_pos
  have hbv : ∀ k, k < n → betweenVar (sharesF p n w h f) k = (separation w h f k : ℝ) / ((w * h : Nat) : ℝ) ^ 2 := by
    intro k hk
    rw [hsh, betweenVar_cast, hvar k hk]
    push_cast
    rfl
  refine ⟨⟨_, (otsuImageF_iff s _).2 rfl⟩, fun r hr => ⟨_, (otsuImageF_iff s r).1 hr, fun hall => main.1 fun k hk => ?_,
    fun ⟨k, hk, a, b⟩ => ?_⟩⟩
  · rw [hlow k hk, hhigh k hk]
    rcases hall k hk with e | e <;> omega
  · obtain ⟨f1, f2, f3, f4⟩ := main.2 ⟨k, hk, (hlow k hk).2 a, (hhigh k hk).2 b⟩
    refine ⟨f1, (hlow _ f1).1 f2, (hhigh _ f1).1 f3, fun i hi a b => ?_⟩
    have := f4 i hi ((hlow i hi).2 a) ((hhigh i hi).2 b)
    rw [hbv i hi, hbv _ f1, ← mul_div_assoc] at this
    have hN2 : (0 : ℝ) < ((w * h : Nat) : ℝ) ^ 2 := by
      have : (0 : ℝ) < ((w * h : Nat) : ℝ) := by exact_mod_cast hne
      positivity
    exact (div_le_div_iff_of_pos_right hN2).1 this

end Image

/-- A picture of 512 x 512 pixels with 256 levels, in `double`. -/
example := C207_image_partial (n := 256) 53 (by decide) (picture_shows 512 512 fun x y => Fin.ofNat 256 (x / (y + 1)))
  18 (by norm_num) (by norm_num)

/-! ### The violation -/

/-- A picture that has the value `b` in its last pixel and `a` everywhere else. -/
theorem count_last {α : Type} (w h : Nat) (a b : α) (q : α → Bool) :
    pixelCount (w + 1) (h + 1) (fun x y => if x = w ∧ y = h then b else a) q =
      (if q a then (w + 1) * h + w else 0) + if q b then 1 else 0 := by
  have len : ∀ (n : Nat) (r : Nat → Bool), (∀ x, x < n → r x = q a) →
      ((List.range n).filter r).length = if q a then n else 0 := by
    intro n r hr
    cases hqa : q a with
    | true =>
      rw [List.filter_eq_self.2 fun x hx => by rw [hr x (List.mem_range.1 hx), hqa]]
      simp
    | false =>
      rw [List.filter_eq_nil_iff.2 fun x hx => by rw [hr x (List.mem_range.1 hx), hqa]; simp]
      simp
  unfold pixelCount
  rw [List.range_succ (n := h), List.map_append, List.sum_append]
  have h1 : (List.range h).map (fun y => ((List.range (w + 1)).filter fun x =>
      q (if x = w ∧ y = h then b else a)).length) = (List.range h).map fun _ => if q a then w + 1 else 0 := by
    refine List.map_congr_left fun y hy => len (w + 1) _ fun x _ => ?_
    have := List.mem_range.1 hy
    rw [if_neg (by omega)]
  rw [h1, List.map_const', List.sum_replicate]
  simp only [List.map_cons, List.map_nil, List.sum_cons, List.sum_nil, Nat.add_zero, List.length_range]
  rw [List.range_succ (n := w), List.filter_append, List.length_append, len w _ fun x hx => by rw [if_neg (by omega)]]
  cases q a <;> cases hqb : q b <;> simp [List.filter, hqb, Nat.mul_comm, Nat.add_assoc]

/-- A number with 53 bits is not changed by rounding. -/
theorem fl_exact {x : ℝ} (m e : ℤ) (hm : |m| ≤ 2 ^ 53) (h : x = m * (2 : ℝ) ^ e) : fl 53 x = m * (2 : ℝ) ^ e := by
  rw [h]; exact fl_of_rep (by decide) ⟨m, e, hm, rfl⟩

theorem fl53_neg {x y : ℝ} (h : fl 53 (-x) = y) : fl 53 x = -y := by rw [fl_neg] at h; linarith

/-- Levels without weight below the first one with weight do not change the state. -/
theorem skip_levels {p : Nat} {h : List ℝ} {W M : ℝ} (hW : fl p W = W) (hM : fl p M = M) (n : Nat)
    (hz : ∀ i, i < n → h.getD i 0 = 0) :
    (List.range n).foldl (otsuStepF p h) ⟨0, W, 0, M, -1000000, 0⟩ = ⟨0, W, 0, M, -1000000, 0⟩ := by
  induction n with
  | zero => rfl
  | succ n ih =>
    rw [List.range_succ, List.foldl_append, ih fun i hi => hz i (by omega)]
    simp only [List.foldl_cons, List.foldl_nil, otsuStepF, hz n (by omega), zero_mul, fl_zero, add_zero, sub_zero, hW, hM,
      true_or, if_true]

theorem skip_totals {p : Nat} {h : List ℝ} (n : Nat) (hz : ∀ i, i < n → h.getD i 0 = 0) :
    (List.range n).foldl (fun (s : ℝ × ℝ) i => (fl p (s.1 + h.getD i 0), fl p (s.2 + fl p (h.getD i 0 * fl p (i : ℝ)))))
      (0, 0) = (0, 0) := by
  induction n with
  | zero => rfl
  | succ n ih =>
    rw [List.range_succ, List.foldl_append, ih fun i hi => hz i (by omega)]
    simp only [List.foldl_cons, List.foldl_nil, hz n (by omega), zero_mul, fl_zero, add_zero]

section Numbers

local notation "q1" => ((9007197079614391 : ℤ) : ℝ) * (2 : ℝ) ^ (-53 : ℤ)
local notation "q2" => ((4561571101540348 : ℤ) : ℝ) * (2 : ℝ) ^ (-74 : ℤ)
local notation "a1" => ((8936828352429904 : ℤ) : ℝ) * (2 : ℝ) ^ (-45 : ℤ)
local notation "b1" => ((4543752464424956 : ℤ) : ℝ) * (2 : ℝ) ^ (-66 : ℤ)
local notation "M1" => ((8936830519059917 : ℤ) : ℝ) * (2 : ℝ) ^ (-45 : ℤ)
local notation "W1" => ((9007199254740992 : ℤ) : ℝ) * (2 : ℝ) ^ (-53 : ℤ)
local notation "w3" => ((4561571101540352 : ℤ) : ℝ) * (2 : ℝ) ^ (-74 : ℤ)
local notation "m3" => ((4543752465022976 : ℤ) : ℝ) * (2 : ℝ) ^ (-66 : ℤ)

theorem num_q1 : fl 53 ((4140999 : ℝ) / 4141000) = q1 := by
  have := TinyDIP.Filter.fl53_of (x := (4140999 : ℝ) / 4141000) (-1) 9007197079614391 (by norm_num) (by norm_num) (by rw [abs_lt]; constructor <;> norm_num)
  rw [this]; norm_num

theorem num_q2 : fl 53 ((1 : ℝ) / 4141000) = q2 := by
  have := TinyDIP.Filter.fl53_of (x := (1 : ℝ) / 4141000) (-22) 4561571101540348 (by norm_num) (by norm_num) (by rw [abs_lt]; constructor <;> norm_num)
  rw [this]; norm_num

theorem num_a1 : fl 53 (q1 * 254) = a1 := by
  have := TinyDIP.Filter.fl53_of (x := q1 * 254) 7 8936828352429904 (by norm_num) (by norm_num) (by rw [abs_lt]; constructor <;> norm_num)
  rw [this]; norm_num

theorem num_b1 : fl 53 (q2 * 255) = b1 := by
  have := TinyDIP.Filter.fl53_of (x := q2 * 255) (-14) 4543752464424956 (by norm_num) (by norm_num) (by rw [abs_lt]; constructor <;> norm_num)
  rw [this]; norm_num

theorem num_W1 : fl 53 (q1 + q2) = W1 := by
  have := TinyDIP.Filter.fl53_of (x := q1 + q2) (-1) 9007199254740992 (by norm_num) (by norm_num) (by rw [abs_lt]; constructor <;> norm_num)
  rw [this]; norm_num

theorem num_M1 : fl 53 (a1 + b1) = M1 := by
  have := TinyDIP.Filter.fl53_of (x := a1 + b1) 7 8936830519059917 (by norm_num) (by norm_num) (by rw [abs_lt]; constructor <;> norm_num)
  rw [this]; norm_num

theorem num_w3 : fl 53 (W1 - q1) = w3 := fl_exact _ _ (by norm_num) (by norm_num)
theorem num_m3 : fl 53 (M1 - a1) = m3 := fl_exact _ _ (by norm_num) (by norm_num)

/-- The value of level 254. -/
theorem num_low : fl 53 (fl 53 (fl 53 (q1 * w3) * fl 53 (fl 53 (a1 / q1) - fl 53 (m3 / w3))) *
    fl 53 (fl 53 (a1 / q1) - fl 53 (m3 / w3))) = ((4561570306161776 : ℤ) : ℝ) * (2 : ℝ) ^ (-74 : ℤ) := by
  have c1 : fl 53 (a1 / q1) = ((8936830510563328 : ℤ) : ℝ) * (2 : ℝ) ^ (-45 : ℤ) := by
    have := TinyDIP.Filter.fl53_of (x := a1 / q1) 7 8936830510563328 (by norm_num) (by norm_num) (by rw [abs_lt]; constructor <;> norm_num)
    rw [this]; norm_num
  have c2 : fl 53 (m3 / w3) = ((8972014883832992 : ℤ) : ℝ) * (2 : ℝ) ^ (-45 : ℤ) := by
    have := TinyDIP.Filter.fl53_of (x := m3 / w3) 7 8972014883832992 (by norm_num) (by norm_num) (by rw [abs_lt]; constructor <;> norm_num)
    rw [this]; norm_num
  have c : fl 53 (((8936830510563328 : ℤ) : ℝ) * (2 : ℝ) ^ (-45 : ℤ) - ((8972014883832992 : ℤ) : ℝ) * (2 : ℝ) ^ (-45 : ℤ)) =
      ((-4503599778516992 : ℤ) : ℝ) * (2 : ℝ) ^ (-52 : ℤ) := fl_exact _ _ (by norm_num) (by norm_num)
  have s1 : fl 53 (q1 * w3) = ((4561569999977661 : ℤ) : ℝ) * (2 : ℝ) ^ (-74 : ℤ) := by
    have := TinyDIP.Filter.fl53_of (x := q1 * w3) (-22) 4561569999977661 (by norm_num) (by norm_num) (by rw [abs_lt]; constructor <;> norm_num)
    rw [this]; norm_num
  have s2 : fl 53 (((4561569999977661 : ℤ) : ℝ) * (2 : ℝ) ^ (-74 : ℤ) * (((-4503599778516992 : ℤ) : ℝ) * (2 : ℝ) ^ (-52 : ℤ))) =
      -(((4561570153069716 : ℤ) : ℝ) * (2 : ℝ) ^ (-74 : ℤ)) := by
    refine fl53_neg ?_
    have := TinyDIP.Filter.fl53_of (x := -(((4561569999977661 : ℤ) : ℝ) * (2 : ℝ) ^ (-74 : ℤ) *
      (((-4503599778516992 : ℤ) : ℝ) * (2 : ℝ) ^ (-52 : ℤ)))) (-22) 4561570153069716 (by norm_num) (by norm_num)
      (by rw [abs_lt]; constructor <;> norm_num)
    rw [this]; norm_num
  rw [c1, c2, c, s1, s2]
  have := TinyDIP.Filter.fl53_of (x := -(((4561570153069716 : ℤ) : ℝ) * (2 : ℝ) ^ (-74 : ℤ)) *
    (((-4503599778516992 : ℤ) : ℝ) * (2 : ℝ) ^ (-52 : ℤ))) (-22) 4561570306161776 (by norm_num) (by norm_num)
    (by rw [abs_lt]; constructor <;> norm_num)
  rw [this]; norm_num

local notation "r1" => ((1 : ℤ) : ℝ) * (2 : ℝ) ^ (-72 : ℤ)
local notation "d1" => ((5136952684707840 : ℤ) : ℝ) * (2 : ℝ) ^ (-99 : ℤ)

theorem num_r1 : fl 53 (w3 - q2) = r1 := fl_exact _ _ (by norm_num) (by norm_num)
theorem num_d1 : fl 53 (m3 - b1) = d1 := fl_exact _ _ (by norm_num) (by norm_num)

/-- The value of level 255, above which there is no pixel. -/
theorem num_high : fl 53 (fl 53 (fl 53 (W1 * r1) * fl 53 (fl 53 (M1 / W1) - fl 53 (d1 / r1))) *
    fl 53 (fl 53 (M1 / W1) - fl 53 (d1 / r1))) = ((5859298076786631 : ℤ) : ℝ) * (2 : ℝ) ^ (-74 : ℤ) := by
  have c1 : fl 53 (M1 / W1) = ((8936830519059917 : ℤ) : ℝ) * (2 : ℝ) ^ (-45 : ℤ) := fl_exact _ _ (by norm_num) (by norm_num)
  have c2 : fl 53 (d1 / r1) = ((5136952684707840 : ℤ) : ℝ) * (2 : ℝ) ^ (-27 : ℤ) := fl_exact _ _ (by norm_num) (by norm_num)
  have c : fl 53 (((8936830519059917 : ℤ) : ℝ) * (2 : ℝ) ^ (-45 : ℤ) - ((5136952684707840 : ℤ) : ℝ) * (2 : ℝ) ^ (-27 : ℤ)) =
      -(((5136918593404896 : ℤ) : ℝ) * (2 : ℝ) ^ (-27 : ℤ)) := by
    refine fl53_neg ?_
    have := TinyDIP.Filter.fl53_of (x := -(((8936830519059917 : ℤ) : ℝ) * (2 : ℝ) ^ (-45 : ℤ) -
      ((5136952684707840 : ℤ) : ℝ) * (2 : ℝ) ^ (-27 : ℤ))) 25 5136918593404896 (by norm_num) (by norm_num)
      (by rw [abs_lt]; constructor <;> norm_num)
    rw [this]; norm_num
  have s1 : fl 53 (W1 * r1) = ((1 : ℤ) : ℝ) * (2 : ℝ) ^ (-72 : ℤ) := fl_exact _ _ (by norm_num) (by norm_num)
  have s2 : fl 53 (((1 : ℤ) : ℝ) * (2 : ℝ) ^ (-72 : ℤ) * -(((5136918593404896 : ℤ) : ℝ) * (2 : ℝ) ^ (-27 : ℤ))) =
      ((-5136918593404896 : ℤ) : ℝ) * (2 : ℝ) ^ (-99 : ℤ) := fl_exact _ _ (by norm_num) (by norm_num)
  rw [c1, c2, c, s1, s2]
  have := TinyDIP.Filter.fl53_of (x := ((-5136918593404896 : ℤ) : ℝ) * (2 : ℝ) ^ (-99 : ℤ) *
    -(((5136918593404896 : ℤ) : ℝ) * (2 : ℝ) ^ (-27 : ℤ))) (-22) 5859298076786631 (by norm_num) (by norm_num)
    (by rw [abs_lt]; constructor <;> norm_num)
  rw [this]; norm_num

theorem otsu_two_levels {h : List ℝ} (hl : h.length = 256) (hz : ∀ i, i < 254 → h.getD i 0 = 0)
    (h4 : h.getD 254 0 = q1) (h5 : h.getD 255 0 = q2) : otsuF 53 h = 255 := by
  have hr : List.range 256 = List.range 254 ++ [254, 255] := by
    rw [show 256 = 254 + 1 + 1 from rfl, List.range_succ, List.range_succ, List.append_assoc]; rfl
  have i4 : fl 53 ((254 : Nat) : ℝ) = 254 := by rw [fl_nat (by decide) (by norm_num)]; norm_num
  have i5 : fl 53 ((255 : Nat) : ℝ) = 255 := by rw [fl_nat (by decide) (by norm_num)]; norm_num
  have fq : fl 53 (0 + q1) = q1 := by rw [zero_add]; exact fl_exact _ _ (by norm_num) rfl
  have fa : fl 53 (0 + a1) = a1 := by rw [zero_add]; exact fl_exact _ _ (by norm_num) rfl
  have ht : otsuTotalsF 53 h = (W1, M1) := by
    unfold otsuTotalsF
    rw [hl, hr, List.foldl_append, skip_totals 254 hz]
    simp only [List.foldl_cons, List.foldl_nil, h4, h5, i4, i5, num_a1, num_b1, fq, fa, num_W1, num_M1]
  have hW : fl 53 W1 = W1 := fl_exact _ _ (by norm_num) rfl
  have hM : fl 53 M1 = M1 := fl_exact _ _ (by norm_num) rfl
  have n1 : ¬ (q1 = 0 ∨ w3 = 0) := by norm_num
  have n2 : ¬ (W1 = 0 ∨ r1 = 0) := by norm_num
  have g1 : ((4561570306161776 : ℤ) : ℝ) * (2 : ℝ) ^ (-74 : ℤ) > -1000000 := by norm_num
  have g2 : ((5859298076786631 : ℤ) : ℝ) * (2 : ℝ) ^ (-74 : ℤ) > ((4561570306161776 : ℤ) : ℝ) * (2 : ℝ) ^ (-74 : ℤ) := by norm_num
  have g3 : ¬ ((5859298076786631 : ℤ) : ℝ) * (2 : ℝ) ^ (-74 : ℤ) = -1000000 := by norm_num
  unfold otsuF
  simp only [ht]
  rw [hl, hr, List.foldl_append, skip_levels hW hM 254 hz]
  have e1 : otsuStepF 53 h ⟨0, W1, 0, M1, -1000000, 0⟩ 254 =
      ⟨q1, w3, a1, m3, ((4561570306161776 : ℤ) : ℝ) * (2 : ℝ) ^ (-74 : ℤ), 254⟩ := by
    unfold otsuStepF
    simp only [h4, i4, num_a1, fq, fa, num_w3, num_m3, num_low]
    rw [if_neg n1, if_pos g1]
  have e2 : otsuStepF 53 h ⟨q1, w3, a1, m3, ((4561570306161776 : ℤ) : ℝ) * (2 : ℝ) ^ (-74 : ℤ), 254⟩ 255 =
      ⟨W1, r1, M1, d1, ((5859298076786631 : ℤ) : ℝ) * (2 : ℝ) ^ (-74 : ℤ), 255⟩ := by
    unfold otsuStepF
    simp only [h5, i5, num_b1, num_W1, num_M1, num_r1, num_d1, num_high]
    rw [if_neg n2, if_pos g2]
  simp only [List.foldl_cons, List.foldl_nil, e1, e2]
  rw [if_neg g3]

end Numbers

/-- Violation, in `double`: of the 2020 x 2050 pixels all but one have the value 254, the last one has 255. The only
level that separates the pixels is 254, but the result is 255, above which there is no pixel: the remaining weight
after level 255 is not zero but 2^-72, and the quotient of two rounding errors looks like a far better separation. -/
theorem C207_violation :
    let f : Nat → Nat → Fin 256 := fun x y => if x = 2019 ∧ y = 2049 then 255 else 254
    (∃ r, OtsuImageF 53 256 (picture 2020 2050 f) r) ∧
    (∀ r, OtsuImageF 53 256 (picture 2020 2050 f) r → r = .ok 255) ∧
    brightCount 2020 2050 f 255 = 0 ∧ darkCount 2020 2050 f 254 = 4140999 ∧ brightCount 2020 2050 f 254 = 1 := by
  intro f
  have s := picture_shows 2020 2050 f
  have hcount : ∀ q : Fin 256 → Bool, pixelCount 2020 2050 f q =
      (if q 254 then 4140999 else 0) + if q 255 then 1 else 0 := count_last 2019 2049 254 255
  have hl : (sharesF 53 256 2020 2050 f).length = 256 := by
    unfold sharesF; rw [List.length_map, List.length_finRange]
  have hN : fl 53 ((2020 * 2050 : Nat) : ℝ) = 4141000 := by rw [fl_nat (by decide) (by norm_num)]; norm_num
  have hget : ∀ i (hi : i < 256), (sharesF 53 256 2020 2050 f).getD i 0 =
      fl 53 (fl 53 (((if (254 : Fin 256) == ⟨i, hi⟩ then 4140999 else 0) + (if (255 : Fin 256) == ⟨i, hi⟩ then 1 else 0) : Nat) : ℝ) / 4141000) := by
    intro i hi
    rw [List.getD_eq_getElem?_getD, List.getElem?_eq_getElem (by rw [hl]; exact hi), Option.getD_some]
    simp only [sharesF, List.getElem_map, List.getElem_finRange, hcount, hN]
    rfl
  have ho : otsuF 53 (sharesF 53 256 2020 2050 f) = 255 := by
    refine otsu_two_levels hl ?_ ?_ ?_
    · intro i hi
      rw [hget i (by omega)]
      have e1 : ((254 : Fin 256) == ⟨i, by omega⟩) = false := by
        rw [beq_eq_false_iff_ne]; intro e; have : (254 : Nat) = i := congrArg Fin.val e; omega
      have e2 : ((255 : Fin 256) == ⟨i, by omega⟩) = false := by
        rw [beq_eq_false_iff_ne]; intro e; have : (255 : Nat) = i := congrArg Fin.val e; omega
      rw [e1, e2]
      simp [fl_zero]
    · rw [hget 254 (by decide), show ((254 : Fin 256) == ⟨254, by decide⟩) = true from rfl,
        show ((255 : Fin 256) == ⟨254, by decide⟩) = false from rfl]
      simp only [if_true, Bool.false_eq_true, if_false, Nat.add_zero]
      rw [fl_nat (by decide) (by norm_num), Nat.cast_ofNat, num_q1]
    · rw [hget 255 (by decide), show ((254 : Fin 256) == ⟨255, by decide⟩) = false from rfl,
        show ((255 : Fin 256) == ⟨255, by decide⟩) = true from rfl]
      simp only [if_true, Bool.false_eq_true, if_false, Nat.zero_add]
      rw [fl_nat (by decide) (by norm_num), Nat.cast_one, num_q2]
  refine ⟨⟨_, (otsuImageF_iff s _).2 rfl⟩, fun r hr => ?_, ?_, ?_, ?_⟩
  · rw [(otsuImageF_iff s r).1 hr, ho]
  · unfold brightCount; rw [hcount]; rfl
  · unfold darkCount; rw [hcount]; rfl
  · unfold brightCount; rw [hcount]; rfl

end TinyDIP.Props
