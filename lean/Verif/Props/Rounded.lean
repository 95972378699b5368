import Verif.Lemmas.Samples
import Verif.Lemmas.Rounded
import Verif.Props.Interp
import Verif.Props.Resample

/-!
# Properties in double precision
-/

namespace TinyDIP.Props

open TinyDIP TinyDIP.Rnd TinyDIP.Image

variable {α : Type}

/-! ## C151: nearest-neighbour resizing -/

theorem resizeNearestD_shows {im : Image α} {w h : Nat} {f : Nat → Nat → α} (zero : α) (s : im.Shows w h f)
    (nw nh : Nat) (hnw : nw < 2 ^ 64) (hnh : nh < 2 ^ 64) (hf : nw * nh < 2 ^ 64) (sx sy : Nat → Nat)
    (hx : ∀ x, x < nw → sourceD w nw x = .ok (sx x) ∧ sx x < w)
    (hy : ∀ y, y < nh → sourceD h nh y = .ok (sy y) ∧ sy y < h) (order : List (Nat × Nat))
    (hp : order.Perm (iterYX nw nh)) :
    ∃ out, resizeNearestD zero order im nw nh = .ok out ∧ out.Shows nw nh fun x y => f (sx x) (sy y) := by
  have s0 := ofSizes_shows zero hnw hnh hf
  have hstep : ∀ p ∈ order, ∀ (o : Image α) g, o.Shows nw nh g →
      ∃ o', (do
        let sx ← sourceD im.width nw p.1
        let sy ← sourceD im.height nh p.2
        let v ← im.at2u sx sy
        o.set2u p.1 p.2 v) = .ok o' ∧
        o'.Shows nw nh (updPx g p.1 p.2 (f (sx p.1) (sy p.2))) := by
    rintro ⟨x, y⟩ hb o g sg
    have hb := mem_iterYX.mp (hp.mem_iff.mp hb)
    simp only at hb
    simp only [s.width, s.height]
    rw [(hx x hb.1).1, Res.ok_bind, (hy y hb.2).1, Res.ok_bind, s.at2u (hx x hb.1).2 (hy y hb.2).2, Res.ok_bind]
    exact sg.set2u hb.1 hb.2 _
  have hcov : ∀ X Y, X < nw → Y < nh → ∃ b ∈ order, id b = (X, Y) :=
    fun X Y hX hY => ⟨(X, Y), hp.mem_iff.mpr (mem_iterYX.mpr ⟨hX, hY⟩), rfl⟩
  exact loop_fill (id : Nat × Nat → Nat × Nat) (fun x y => f (sx x) (sy y)) _ order hstep hcov _ _ s0

/-- Resizing in double precision never reads outside the input: for every non-empty image of at most `2 ^ 53` columns
and rows, every new size up to `2 ^ 52` and every order of the loop it succeeds, and each pixel of the result is the
pixel of the input in a column that depends on the column only and a row that depends on the row only; where the sizes
are small the column and the row are the proportional ones or the ones before them. Missing: the exact position, see
`C151_proportion_violation`. -/
theorem C151_resize_partial {im : Image α} {w h : Nat} {f : Nat → Nat → α} (zero : α) (s : im.Shows w h f)
    (hw : 0 < w) (hh : 0 < h) (hw2 : w ≤ 2 ^ 53) (hh2 : h ≤ 2 ^ 53) (nw nh : Nat) (hnw : nw ≤ 2 ^ 52)
    (hnh : nh ≤ 2 ^ 52) (hf : nw * nh < 2 ^ 64) (order : List (Nat × Nat)) (hp : order.Perm (iterYX nw nh)) :
    ∃ (out : Image α) (sx sy : Nat → Nat), resizeNearestD zero order im nw nh = .ok out ∧
      out.Shows nw nh (fun x y => f (sx x) (sy y)) ∧
      (∀ x, x < nw → sx x < w ∧ (w * nw ≤ 2 ^ 51 → Near w nw x (sx x))) ∧
      ∀ y, y < nh → sy y < h ∧ (h * nh ≤ 2 ^ 51 → Near h nh y (sy y)) := by
  have key : ∀ {o n : Nat}, 0 < o → o ≤ 2 ^ 53 → n ≤ 2 ^ 52 → ∀ x, x < n →
      sourceD o n x = .ok ⌊dbl (dbl x * ratioD o n)⌋₊ ∧ ⌊dbl (dbl x * ratioD o n)⌋₊ < o := by
    intro o n h0 h1 h2 x hx
    obtain ⟨i, e, rfl, hi⟩ := source_lt h0 h1 h2 hx
    exact ⟨e, hi⟩
  obtain ⟨out, e, so⟩ := resizeNearestD_shows zero s nw nh (by omega) (by omega) hf
    (fun x => ⌊dbl (dbl x * ratioD w nw)⌋₊) (fun y => ⌊dbl (dbl y * ratioD h nh)⌋₊) (key hw hw2 hnw)
    (key hh hh2 hnh) order hp
  exact ⟨out, _, _, e, so, fun x hx => ⟨(key hw hw2 hnw x hx).2, fun hm => source_near hw hm hx⟩,
    fun y hy => ⟨(key hh hh2 hnh y hy).2, fun hm => source_near hh hm hy⟩⟩

example : (⟨[2, 1], [10, 20]⟩ : Image Nat).Shows 2 1 (fun x _ => if x = 0 then 10 else 20) ∧ (0 : Nat) < 2 ∧
    98 ≤ 2 ^ 52 ∧ 2 * 98 ≤ 2 ^ 51 := by
  refine ⟨Image.Shows.of_data (by decide) (by decide) (by decide) rfl rfl ?_, by decide, by decide, by decide⟩
  intro x y hx hy
  obtain rfl : y = 0 := by omega
  obtain rfl | rfl : x = 0 ∨ x = 1 := by omega
  all_goals rfl

/-- Shrinking by whole factors, and keeping the size, reads exactly the proportional pixels. -/
theorem C151_whole {im : Image α} {a b nw nh : Nat} {f : Nat → Nat → α} (zero : α)
    (s : im.Shows (nw * a) (nh * b) f) (ha : 0 < a) (hb : 0 < b) (hw : nw * a ≤ 2 ^ 53) (hh : nh * b ≤ 2 ^ 53)
    (order : List (Nat × Nat)) (hp : order.Perm (iterYX nw nh)) :
    ∃ out, resizeNearestD zero order im nw nh = .ok out ∧ out.Shows nw nh fun x y => f (x * a) (y * b) := by
  have hnw : nw ≤ nw * a := Nat.le_mul_of_pos_right _ ha
  have hnh : nh ≤ nh * b := Nat.le_mul_of_pos_right _ hb
  have key : ∀ {n k : Nat}, 0 < k → n * k ≤ 2 ^ 53 → ∀ x, x < n →
      sourceD (n * k) n x = .ok (x * k) ∧ x * k < n * k := by
    intro n k hk hm x hx
    have hn : n ≤ n * k := Nat.le_mul_of_pos_right _ hk
    have e := source_whole hm (by omega) hx
    have hlt : x * k < n * k := Nat.mul_lt_mul_of_pos_right hx hk
    refine ⟨?_, hlt⟩
    have hn0 : (0 : ℝ) < n := by exact_mod_cast (by omega : 0 < n)
    have e1 : ratioD (n * k) n = k := by
      unfold ratioD
      rw [dbl_nat hm, dbl_nat (by omega)]
      push_cast
      rw [mul_div_cancel_left₀ _ hn0.ne', dbl_nat (le_trans (Nat.le_mul_of_pos_left _ (by omega)) hm)]
    unfold sourceD
    rw [e1, dbl_nat (by omega : x ≤ 2 ^ 53)]
    have : (x : ℝ) * k = ((x * k : Nat) : ℝ) := by push_cast; ring
    rw [this, dbl_nat (by omega)]
    exact toSize_nat (by omega)
  refine resizeNearestD_shows zero s nw nh (by omega) (by omega) ?_ _ _ (key ha hw) (key hb hh) order hp
  exact lt_of_le_of_lt (Nat.mul_le_mul hnw hnh) s.fits

example := C151_whole (a := 3) (b := 2) (nw := 2) (nh := 2) 0 (picture_shows (2 * 3) (2 * 2) fun x y => x + 10 * y)
  (by decide) (by decide) (by decide) (by decide) _ (List.reverse_perm _)

/-- Resizing to the same size changes nothing. -/
theorem C151_same {im : Image α} {w h : Nat} {f : Nat → Nat → α} (zero : α) (s : im.Shows w h f)
    (hw : w ≤ 2 ^ 53) (hh : h ≤ 2 ^ 53) (order : List (Nat × Nat)) (hp : order.Perm (iterYX w h)) :
    resizeNearestD zero order im w h = .ok im := by
  have s' : im.Shows (w * 1) (h * 1) f := by simpa using s
  obtain ⟨out, e, so⟩ := C151_whole zero s' one_pos one_pos (by simpa using hw) (by simpa using hh) order hp
  rw [e]
  congr 1
  refine so.ext s fun x y _ _ => ?_
  rw [mul_one, mul_one]

example : (⟨[2, 1], [10, 20]⟩ : Image Nat).Shows (1 * 2) (1 * 1) (fun x _ => if x = 0 then 10 else 20) := by
  refine Image.Shows.of_data (by decide) (by decide) (by decide) rfl rfl ?_
  intro x y hx hy
  obtain rfl : y = 0 := by omega
  obtain rfl | rfl : x = 0 ∨ x = 1 := by omega
  all_goals rfl

theorem source_49 : sourceD 2 98 49 = .ok 0 := by
  have e1 : ratioD 2 98 = 5882252574524729 / 2 ^ 58 := by
    unfold ratioD
    rw [dbl_nat (by norm_num), dbl_nat (by norm_num)]
    unfold dbl
    rw [fl_lit 5882252574524729 (-6) (by norm_num) (by norm_num) (by rw [abs_lt]; norm_num)]
    norm_num
  have e2 : dbl (49 * (5882252574524729 / 2 ^ 58)) = 9007199254740991 / 2 ^ 53 := by
    unfold dbl
    rw [fl_lit 9007199254740991 (-1) (by norm_num) (by norm_num) (by rw [abs_lt]; norm_num)]
    norm_num
  unfold sourceD
  rw [dbl_nat (by norm_num), e1]
  push_cast
  rw [e2, toSize_ok (by norm_num) (by norm_num)]
  congr 1
  rw [Nat.floor_eq_zero]
  norm_num

/-- Enlarging by a whole factor does not repeat each pixel that many times: enlarged 49 times, a row of two
pixels shows the first one 50 times; pixel 49 ought to be the second one. -/
theorem C151_proportion_violation (a b : α) (zero : α) (order : List (Nat × Nat)) (hp : order.Perm (iterYX 98 1)) :
    ∃ out, resizeNearestD zero order ⟨[2, 1], [a, b]⟩ 98 1 = .ok out ∧ out.at2 49 0 = .ok a ∧ 49 * 2 / 98 = 1 := by
  have s : (⟨[2, 1], [a, b]⟩ : Image α).Shows 2 1 (fun x _ => if x = 0 then a else b) := by
    refine Image.Shows.of_data (by decide) (by decide) (by decide) rfl rfl ?_
    intro x y hx hy
    obtain rfl : y = 0 := by omega
    obtain rfl | rfl : x = 0 ∨ x = 1 := by omega
    all_goals rfl
  have key : ∀ x, x < 98 → sourceD 2 98 x = .ok ⌊dbl (dbl x * ratioD 2 98)⌋₊ ∧
      ⌊dbl (dbl x * ratioD 2 98)⌋₊ < 2 := by
    intro x hx
    obtain ⟨i, e, rfl, hi⟩ := source_lt (old := 2) (new := 98) (by norm_num) (by norm_num) (by norm_num) hx
    exact ⟨e, hi⟩
  have key1 : ∀ x, x < 1 → sourceD 1 1 x = .ok ⌊dbl (dbl x * ratioD 1 1)⌋₊ ∧ ⌊dbl (dbl x * ratioD 1 1)⌋₊ < 1 := by
    intro x hx
    obtain ⟨i, e, rfl, hi⟩ := source_lt (old := 1) (new := 1) (by norm_num) (by norm_num) (by norm_num) hx
    exact ⟨e, hi⟩
  obtain ⟨out, e, so⟩ := resizeNearestD_shows zero s 98 1 (by norm_num) (by norm_num) (by norm_num) _ _ key key1 order hp
  refine ⟨out, e, ?_, rfl⟩
  rw [so.px 49 0 (by norm_num) (by norm_num)]
  have h49 := (key 49 (by norm_num)).1
  rw [source_49] at h49
  have h49 : 0 = ⌊dbl ((49 : Nat) * ratioD 2 98)⌋₊ := by
    rw [dbl_nat (n := 49) (by norm_num)] at h49
    exact Res.ok.inj h49
  rw [dbl_nat (n := 49) (by norm_num), ← h49]
  rfl

/-- Enlarging by a whole factor and shrinking back loses the second pixel of a row of two. -/
theorem C151_enlarge_shrink_violation (a b : α) (hab : a ≠ b) (zero : α) :
    (resizeNearestD zero (iterYX 98 1) ⟨[2, 1], [a, b]⟩ 98 1 >>= fun big =>
      resizeNearestD zero (iterYX 2 1) big 2 1) ≠ .ok ⟨[2, 1], [a, b]⟩ := by
  have s : (⟨[2, 1], [a, b]⟩ : Image α).Shows 2 1 (fun x _ => if x = 0 then a else b) := by
    refine Image.Shows.of_data (by decide) (by decide) (by decide) rfl rfl ?_
    intro x y hx hy
    obtain rfl : y = 0 := by omega
    obtain rfl | rfl : x = 0 ∨ x = 1 := by omega
    all_goals rfl
  obtain ⟨big, e, hpx, -⟩ := C151_proportion_violation a b zero (iterYX 98 1) (.refl _)
  obtain ⟨big', sx, sy, e', sb, -, -⟩ := C151_resize_partial zero s (by norm_num) (by norm_num) (by norm_num)
    (by norm_num) 98 1 (by norm_num) (by norm_num) (by norm_num) (iterYX 98 1) (.refl _)
  obtain rfl : big = big' := by rw [e] at e'; exact Res.ok.inj e'
  have sb' : big.Shows (2 * 49) (1 * 1) (fun x y => (fun x (_ : Nat) => if x = 0 then a else b) (sx x) (sy y)) := sb
  obtain ⟨out, e2, so⟩ := C151_whole zero sb' (by norm_num) (by norm_num) (by norm_num) (by norm_num) (iterYX 2 1)
    (.refl _)
  rw [e, Res.ok_bind, e2]
  intro hc
  have hc := Res.ok.inj hc
  have h1 := so.px 1 0 (by norm_num) (by norm_num)
  have h2 := sb.px 49 0 (by norm_num) (by norm_num)
  rw [hc] at h1
  rw [hpx] at h2
  have h3 : (⟨[2, 1], [a, b]⟩ : Image α).at2 1 0 = .ok b := rfl
  rw [h3] at h1
  have h1 := Res.ok.inj h1
  have h2 := Res.ok.inj h2
  simp only [one_mul, zero_mul] at h1
  exact hab (h2.trans h1.symm)

example := C151_enlarge_shrink_violation (10 : Nat) 200 (by decide) 0

/-! ## C152: weighted means of 8-bit values -/

theorem bilinearD_inside {im : Image (BitVec 8)} {w h : Nat} {f : Nat → Nat → BitVec 8} (s : im.Shows w h f)
    (hw2 : w ≤ 2 ^ 53) (hh2 : h ≤ 2 ^ 53) {x y : ℝ}
    (hx0 : 0 ≤ x) (hx : x ≤ (w : ℝ) - 1) (hy0 : 0 ≤ y) (hy : y ≤ (h : ℝ) - 1) :
    bilinearD im x y = .ok (Conv.u8.fromR (mixD
      (mixD (f ⌊x⌋₊ ⌊y⌋₊).toNat (f (min (⌊x⌋₊ + 1) (w - 1)) ⌊y⌋₊).toNat (dbl (x - ⌊x⌋₊)))
      (mixD (f ⌊x⌋₊ (min (⌊y⌋₊ + 1) (h - 1))).toNat
        (f (min (⌊x⌋₊ + 1) (w - 1)) (min (⌊y⌋₊ + 1) (h - 1))).toNat (dbl (x - ⌊x⌋₊)))
      (dbl (y - ⌊y⌋₊)))) := by
  have hi := floor_lt_of_le hx0 hx
  have hj := floor_lt_of_le hy0 hy
  have hi2 : min (⌊x⌋₊ + 1) (w - 1) < w := by omega
  have hj2 : min (⌊y⌋₊ + 1) (h - 1) < h := by omega
  have pred : ∀ {n : Nat}, 0 < n → n ≤ 2 ^ 53 → dbl (dbl n - 1) = (n : ℝ) - 1 := by
    intro n h0 h1
    rw [dbl_nat h1]
    have : (n : ℝ) - 1 = ((n - 1 : Nat) : ℝ) := by rw [Nat.cast_sub h0]; simp
    rw [this, dbl_nat (by omega)]
  have hno : ¬ (x < 0 ∨ x > dbl (dbl w - 1) ∨ y < 0 ∨ y > dbl (dbl h - 1)) := by
    rw [pred (by omega) hw2, pred (by omega) hh2]
    push Not; exact ⟨hx0, hx, hy0, hy⟩
  unfold bilinearD
  simp only [s.width, s.height]
  rw [if_neg hno, toSize_ok hx0 (real_lt_W s.w_lt hx), Res.ok_bind,
    toSize_ok hy0 (real_lt_W s.h_lt hy), Res.ok_bind, clampNext hi s.w_lt, clampNext hj s.h_lt,
    s.px _ _ hi hj, Res.ok_bind, s.px _ _ hi2 hj, Res.ok_bind, s.px _ _ hi hj2, Res.ok_bind,
    s.px _ _ hi2 hj2, Res.ok_bind, dbl_nat (n := ⌊x⌋₊) (by omega), dbl_nat (n := ⌊y⌋₊) (by omega)]

theorem fraction_double {x : ℝ} (h0 : 0 ≤ x) : 0 ≤ dbl (x - ⌊x⌋₊) ∧ dbl (x - ⌊x⌋₊) ≤ 1 := by
  refine ⟨dbl_nonneg (by linarith [Nat.floor_le h0]), ?_⟩
  have := dbl_le_nat (n := 1) (by norm_num) (show x - ⌊x⌋₊ ≤ (1 : Nat) by
    simp only [Nat.cast_one]; linarith [Nat.lt_floor_add_one x])
  simpa using this

theorem fromR_floor {v : ℝ} {hi : Nat} (hhi : hi ≤ 255) (h0 : 0 ≤ v) (h2 : ⌊v⌋₊ ≤ hi) :
    (Conv.u8.fromR v).toNat = ⌊v⌋₊ := by
  show (if v > 255 then 255#8 else if v < 0 then 0#8 else BitVec.ofNat 8 ⌊v⌋₊).toNat = ⌊v⌋₊
  split
  · rename_i h
    have : (255 : Nat) ≤ ⌊v⌋₊ := Nat.le_floor (by exact_mod_cast h.le)
    show 255 = ⌊v⌋₊
    omega
  · rw [if_neg (not_lt.2 h0), BitVec.toNat_ofNat]
    exact Nat.mod_eq_of_lt (by omega)

/-- Sampling an 8-bit image between its pixels in double precision: the result is at most the largest and at least one
less than the smallest of the neighbouring pixels. Missing: at least the smallest, see `C152_constant_violation`. -/
theorem C152_between_partial {im : Image (BitVec 8)} {w h : Nat} {f : Nat → Nat → BitVec 8} (s : im.Shows w h f)
    (hw : w ≤ 2 ^ 53) (hh : h ≤ 2 ^ 53) (x y : ℝ)
    (hx0 : 0 ≤ x) (hx : x ≤ (w : ℝ) - 1) (hy0 : 0 ≤ y) (hy : y ≤ (h : ℝ) - 1) (lo hi : Nat)
    (hf : ∀ i j : Nat, i < w → j < h → |(i : ℝ) - x| ≤ 1 → |(j : ℝ) - y| ≤ 1 →
      lo ≤ (f i j).toNat ∧ (f i j).toNat ≤ hi) :
    ∃ v, bilinearD im x y = .ok v ∧ OneBelow lo hi v.toNat := by
  refine ⟨_, bilinearD_inside s hw hh hx0 hx hy0 hy, ?_⟩
  have hi1 := floor_lt_of_le hx0 hx
  have hj1 := floor_lt_of_le hy0 hy
  have hi2 : min (⌊x⌋₊ + 1) (w - 1) < w := by omega
  have hj2 : min (⌊y⌋₊ + 1) (h - 1) < h := by omega
  have near1 : ∀ {z : ℝ}, 0 ≤ z → |((⌊z⌋₊ : Nat) : ℝ) - z| ≤ 1 := by
    intro z hz
    rw [abs_le]
    constructor <;> linarith [Nat.floor_le hz, Nat.lt_floor_add_one z]
  have near2 : ∀ {z : ℝ} {n : Nat}, 0 ≤ z → z ≤ (n : ℝ) - 1 →
      |((min (⌊z⌋₊ + 1) (n - 1) : Nat) : ℝ) - z| ≤ 1 := by
    intro z n hz hn
    have h1 := floor_lt_of_le hz hn
    have a := Nat.floor_le hz
    have b := Nat.lt_floor_add_one z
    rw [abs_le]
    rcases le_or_gt (⌊z⌋₊ + 1) (n - 1) with hc | hc
    · rw [min_eq_left hc]; push_cast; constructor <;> linarith
    · rw [min_eq_right hc.le]
      have hn1 : n - 1 = ⌊z⌋₊ := by omega
      rw [hn1]; constructor <;> linarith
  obtain ⟨a1, a2⟩ := hf _ _ hi1 hj1 (near1 hx0) (near1 hy0)
  obtain ⟨b1, b2⟩ := hf _ _ hi2 hj1 (near2 hx0 hx) (near1 hy0)
  obtain ⟨c1, c2⟩ := hf _ _ hi1 hj2 (near1 hx0) (near2 hy0 hy)
  obtain ⟨d1, d2⟩ := hf _ _ hi2 hj2 (near2 hx0 hx) (near2 hy0 hy)
  have hlh : lo ≤ hi := a1.trans a2
  obtain ⟨t0, t1⟩ := fraction_double hx0
  obtain ⟨u0, u1⟩ := fraction_double hy0
  -- the levels may be bounded by 255
  have hlo0 : (0 : ℝ) ≤ lo := by positivity
  have hb : ∀ v : BitVec 8, v.toNat ≤ 255 := fun v => by have := v.isLt; omega
  have cast : ∀ {m n : Nat}, m ≤ n → (m : ℝ) ≤ n := fun h => by exact_mod_cast h
  set H := min hi 255 with hH
  have r1 := mix_bounds (hi := (H : ℝ)) t0 t1 hlo0 (cast a1) (cast (le_min a2 (hb _))) (cast b1)
    (cast (le_min b2 (hb _)))
  have r2 := mix_bounds (hi := (H : ℝ)) t0 t1 hlo0 (cast c1) (cast (le_min c2 (hb _))) (cast d1)
    (cast (le_min d2 (hb _)))
  have he : eps ≤ 1 / 2 := by unfold eps; norm_num
  have hl0 : 0 ≤ (1 - eps) ^ 3 * (lo : ℝ) := mul_nonneg (pow_nonneg (by linarith) 3) hlo0
  have r3 := mix_bounds u0 u1 hl0 r1.1 r1.2 r2.1 r2.2
  have e1 : (1 - eps) ^ 3 * ((1 - eps) ^ 3 * (lo : ℝ)) = (1 - eps) ^ 6 * lo := by ring
  have e2 : (1 + eps) ^ 3 * ((1 + eps) ^ 3 * (H : ℝ)) = (1 + eps) ^ 6 * H := by ring
  rw [e1, e2] at r3
  have hlH : lo ≤ H := le_min hlh (a1.trans (hb _))
  obtain ⟨v0, v1, v2, v3⟩ := floor_oneBelow (min_le_right _ _) hlH r3.1 r3.2
  have hfr := fromR_floor (min_le_right hi 255) v0 v3
  constructor
  · rw [hfr]; exact v2
  · rw [hfr]; exact v3.trans (min_le_left _ _)

example := C152_between_partial (picture_shows 3 2 fun x y => BitVec.ofNat 8 (x + 10 * y)) (by decide) (by decide) (3 / 2) (1 / 3)
  (by norm_num) (by norm_num) (by norm_num) (by norm_num) 0 12
  (fun i j hi hj _ _ => by
    have : i + 10 * j < 256 := by omega
    rw [BitVec.toNat_ofNat, Nat.mod_eq_of_lt this]; omega)

/-- At pixel positions the pixel itself results. -/
theorem C152_grid {im : Image (BitVec 8)} {w h : Nat} {f : Nat → Nat → BitVec 8} (s : im.Shows w h f)
    (hw : w ≤ 2 ^ 53) (hh : h ≤ 2 ^ 53) (i j : Nat) (hi : i < w) (hj : j < h) :
    bilinearD im (i : ℝ) (j : ℝ) = .ok (f i j) := by
  have h1 : ((i : ℝ) : ℝ) ≤ (w : ℝ) - 1 := by
    have : ((i + 1 : Nat) : ℝ) ≤ w := by exact_mod_cast hi
    push_cast at this; linarith
  have h2 : ((j : ℝ) : ℝ) ≤ (h : ℝ) - 1 := by
    have : ((j + 1 : Nat) : ℝ) ≤ h := by exact_mod_cast hj
    push_cast at this; linarith
  have hb : ∀ v : BitVec 8, v.toNat ≤ 2 ^ 53 := fun v => by have := v.isLt; omega
  rw [bilinearD_inside s hw hh (by positivity) h1 (by positivity) h2]
  simp only [Nat.floor_natCast, sub_self, dbl_zero]
  rw [mix_zero (hb _), mix_zero (hb _)]
  congr 1
  have hv := (f i j).isLt
  apply BitVec.eq_of_toNat_eq
  rw [fromR_floor (hi := (f i j).toNat) (by omega) (by positivity) (by rw [Nat.floor_natCast]),
    Nat.floor_natCast]

example : (⟨[2, 1], [29, 29]⟩ : Image (BitVec 8)).Shows 2 1 (fun _ _ => 29) ∧ (2 : Nat) ≤ 2 ^ 53 ∧
    (0 : ℝ) ≤ 1 / 2 ∧ (1 / 2 : ℝ) ≤ ((2 : Nat) : ℝ) - 1 ∧ (0 : ℝ) ≤ ((1 : Nat) : ℝ) - 1 := by
  refine ⟨Image.Shows.of_data (by decide) (by decide) (by decide) rfl rfl ?_, by norm_num, by norm_num, by norm_num,
    by norm_num⟩
  intro x y hx hy
  obtain rfl : y = 0 := by omega
  obtain rfl | rfl : x = 0 ∨ x = 1 := by omega
  all_goals rfl

theorem three_sevenths : dbl (3 / 7) = 7720456504063707 / 2 ^ 54 := by
  unfold dbl
  rw [fl_lit 7720456504063707 (-2) (by norm_num) (by norm_num) (by rw [abs_lt]; norm_num)]
  norm_num

theorem mix_29 : mixD 29 29 (dbl (3 / 7)) = 29 - 1 / 2 ^ 48 := by
  have e1 : dbl (1 - 7720456504063707 / 2 ^ 54) = 5146971002709138 / 2 ^ 53 := by
    unfold dbl
    have hre : roundEven ((1 - 7720456504063707 / 2 ^ 54 : ℝ) / (2 : ℝ) ^ ((-1 : ℤ) + 1 - (53 : Nat))) =
        5146971002709138 := by
      have hx : ((1 - 7720456504063707 / 2 ^ 54 : ℝ) / (2 : ℝ) ^ ((-1 : ℤ) + 1 - (53 : Nat))) =
          5146971002709138 + 1 / 2 := by norm_num
      have hfl : ⌊(5146971002709138 + 1 / 2 : ℝ)⌋ = 5146971002709138 := by
        rw [Int.floor_eq_iff]; norm_num
      rw [hx]
      unfold roundEven
      rw [hfl]
      norm_num
    rw [fl_eq_of (e := -1) (m := 5146971002709138) (by norm_num) (by norm_num) hre]
    norm_num
  have e2 : dbl (29 * (5146971002709138 / 2 ^ 53)) = 4664442471205156 / 2 ^ 48 := by
    unfold dbl
    rw [fl_lit 4664442471205156 4 (by norm_num) (by norm_num) (by rw [abs_lt]; norm_num)]
    norm_num
  have e3 : dbl (29 * (7720456504063707 / 2 ^ 54)) = 6996663706807734 / 2 ^ 49 := by
    unfold dbl
    rw [fl_lit 6996663706807734 3 (by norm_num) (by norm_num) (by rw [abs_lt]; norm_num)]
    norm_num
  have e4 : dbl (4664442471205156 / 2 ^ 48 + 6996663706807734 / 2 ^ 49) = 29 - 1 / 2 ^ 48 := by
    unfold dbl
    rw [fl_lit 8162774324609023 4 (by norm_num) (by norm_num) (by rw [abs_lt]; norm_num)]
    norm_num
  unfold mixD
  rw [three_sevenths, e1, e2, e3, e4]

/-- An image of one constant does not give that constant between its pixels: between two pixels of value 29 the
result is 28. The position is a `double`. -/
theorem C152_constant_violation :
    bilinearD ⟨[2, 1], [29, 29]⟩ (dbl (3 / 7)) 0 = .ok 28 ∧ dbl (dbl (3 / 7)) = dbl (3 / 7) := by
  have s : (⟨[2, 1], [29, 29]⟩ : Image (BitVec 8)).Shows 2 1 (fun _ _ => 29) := by
    refine Image.Shows.of_data (by decide) (by decide) (by decide) rfl rfl ?_
    intro x y hx hy
    obtain rfl : y = 0 := by omega
    obtain rfl | rfl : x = 0 ∨ x = 1 := by omega
    all_goals rfl
  have hd := three_sevenths
  have hfl : ⌊dbl (3 / 7)⌋₊ = 0 := by rw [hd, Nat.floor_eq_zero]; norm_num
  refine ⟨?_, dbl_of_rep (dbl_rep _)⟩
  rw [bilinearD_inside s (by norm_num) (by norm_num) (by rw [hd]; norm_num) (by rw [hd]; norm_num) le_rfl (by norm_num)]
  have e29 : ((29#8).toNat : ℝ) = 29 := by
    have : (29#8).toNat = 29 := by decide
    rw [this]; norm_num
  have ez : dbl ((0 : ℝ) - ((⌊(0 : ℝ)⌋₊ : Nat) : ℝ)) = 0 := by simp [dbl_zero]
  rw [hfl, ez]
  have e5 : dbl (dbl (3 / 7) - ((0 : Nat) : ℝ)) = dbl (3 / 7) := by
    rw [Nat.cast_zero, sub_zero]; exact dbl_of_rep (dbl_rep _)
  have hm : ∀ b : ℝ, mixD (29 - 1 / 2 ^ 48) b 0 = 29 - 1 / 2 ^ 48 := by
    intro b
    have hr : Rep 53 (29 - 1 / 2 ^ 48 : ℝ) := ⟨29 * 2 ^ 48 - 1, -48, by norm_num, by norm_num⟩
    unfold mixD
    rw [sub_zero, dbl_one, mul_one, mul_zero, dbl_zero, add_zero, dbl_of_rep hr, dbl_of_rep hr]
  have e29' : ((29 : BitVec 8).toNat : ℝ) = 29 := e29
  rw [e5, e29', mix_29, hm]
  congr 1
  apply BitVec.eq_of_toNat_eq
  have hf : ⌊(29 - 1 / 2 ^ 48 : ℝ)⌋₊ = 28 := by rw [Nat.floor_eq_iff] <;> norm_num
  rw [fromR_floor (hi := 28) (by norm_num) (by norm_num) (by rw [hf]), hf]
  rfl

/-- Blending two 8-bit pixels in double precision, in any column inside the first image: the result is at most the
larger and at least one less than the smaller. Missing: at least the smaller, see `C152_blend_violation`. -/
theorem C152_blend_partial (width x : Nat) (hx : x < width) (hw : width ≤ 2 ^ 53) (a b : BitVec 8) :
    ∃ v, blendD width x a b = .ok v ∧ OneBelow (min a.toNat b.toNat) (max a.toNat b.toNat) v.toNat := by
  have hw0 : (0 : ℝ) < width := by exact_mod_cast (by omega : 0 < width)
  have ha := a.isLt
  have hb := b.isLt
  have q0 : (0 : ℝ) ≤ (x : ℝ) / width := by positivity
  have q1 : (x : ℝ) / width ≤ ((1 : Nat) : ℝ) := by
    rw [Nat.cast_one, div_le_one hw0]; exact_mod_cast hx.le
  have t0 := dbl_nonneg q0
  have t1 := dbl_le_nat (by norm_num) q1
  rw [Nat.cast_one] at t1
  have cast : ∀ {m n : Nat}, m ≤ n → (m : ℝ) ≤ n := fun h => by exact_mod_cast h
  have hl0 : (0 : ℝ) ≤ (min a.toNat b.toNat : Nat) := by positivity
  obtain ⟨r1, r2⟩ := mix_bounds t0 t1 hl0 (cast (min_le_left _ _)) (cast (le_max_left _ _)) (cast (min_le_right _ _))
    (cast (le_max_right _ _))
  have he := eps_pos
  have he' : eps ≤ 1 / 2 := by unfold eps; norm_num
  have p1 : (1 - eps) ^ 6 ≤ (1 - eps) ^ 3 :=
    pow_le_pow_of_le_one (by linarith) (by linarith) (by norm_num)
  have p2 : (1 + eps) ^ 3 ≤ (1 + eps) ^ 6 := pow_le_pow_right₀ (by linarith) (by norm_num)
  have r1' := (mul_le_mul_of_nonneg_right p1 hl0).trans r1
  have r2' := r2.trans (mul_le_mul_of_nonneg_right p2 (by positivity))
  obtain ⟨v0, v1, v2⟩ := floor_oneBelow (by omega) (by omega) r1' r2'
  have hmax : ((max a.toNat b.toNat : Nat) : ℝ) ≤ 255 := by exact_mod_cast (by omega : max a.toNat b.toNat ≤ 255)
  obtain ⟨e, e'⟩ := Color.toU8_ok v0 (by linarith)
  refine ⟨_, ?_, by rw [e']; exact v2⟩
  unfold blendD
  rw [dbl_nat (n := x) (by omega), dbl_nat hw]
  exact e

example : (3 : Nat) < 7 ∧ (7 : Nat) ≤ 2 ^ 53 := by decide

/-- Blending a value with itself may lower it. -/
theorem C152_blend_violation : blendD 7 3 29 29 = .ok 28 := by
  unfold blendD
  rw [dbl_nat (by norm_num), dbl_nat (by norm_num)]
  have e29 : ((29 : BitVec 8).toNat : ℝ) = 29 := by
    have : (29 : BitVec 8).toNat = 29 := by decide
    rw [this]; norm_num
  have e37 : (((3 : Nat) : ℝ) / ((7 : Nat) : ℝ)) = 3 / 7 := by norm_num
  rw [e29, e37]
  show Color.toU8 (mixD 29 29 (dbl (3 / 7))) = .ok 28
  rw [mix_29]
  have hf : ⌊(29 - 1 / 2 ^ 48 : ℝ)⌋₊ = 28 := by rw [Nat.floor_eq_iff] <;> norm_num
  have := (Color.toU8_ok (a := (29 - 1 / 2 ^ 48 : ℝ)) (by norm_num) (by norm_num)).1
  rw [this, hf]
  rfl

/-! ## C153: RGB to HSV and back -/

open Color in
/-- Converting a pixel to HSV in double precision and back: the library's arc cosine is asked only for values from -1
to 1 (a grey pixel does not ask it), the hue lies below 360, the conversion back succeeds, keeps the brightest level
and keeps the darkest level or lowers it by one. Missing: the pixel itself, see `C153_roundtrip_violation`. -/
theorem C153_levels_partial (acos : ℝ → ℝ) (ha : GoodAcos (dbl Real.pi) acos) (p : Nat) (hp : 53 ≤ p) (px : RGB) :
    0 ≤ (rgb2hsvD acos px).c0 ∧ (rgb2hsvD acos px).c0 < 360 ∧
      ∃ q, hsv2rgbD p (rgb2hsvD acos px) = .ok q ∧ brightest q = brightest px ∧
        OneBelow (darkest px) (darkest px) (darkest q) := by
  obtain ⟨e1, e2, h0, h1⟩ := rgb2hsvD_range ha px
  refine ⟨h0, lt_of_le_of_lt h1 (by norm_num), ?_⟩
  have := hsv2rgbD_levels hp (darkest_le px) (by have := brightest_lt px; omega) h0 (h1.trans (by norm_num))
  rw [← e1, ← e2] at this
  exact this

/-- The exact arc cosine, rounded, is such a function. -/
theorem goodAcos_rounded : GoodAcos (dbl Real.pi) (fun x => dbl (Real.arccos x)) := by
  intro x _ _
  refine ⟨dbl_nonneg (Real.arccos_nonneg x), dbl_mono (Real.arccos_le_pi x), ?_⟩
  refine (dbl_err _).trans ?_
  rw [abs_of_nonneg (Real.arccos_nonneg x)]
  have h1 := Real.arccos_le_pi x
  have h2 := Real.pi_lt_d20
  have h3 := Real.arccos_nonneg x
  unfold eps
  norm_num at *
  linarith

open Color in
/-- A grey pixel is unchanged, whatever the arc cosine returns. -/
theorem C153_grey (acos : ℝ → ℝ) (p : Nat) (hp : 53 ≤ p) (v : BitVec 8) :
    hsv2rgbD p (rgb2hsvD acos ⟨v, v, v⟩) = .ok ⟨v, v, v⟩ := by
  have hv := v.isLt
  have hs : (rgb2hsvD acos ⟨v, v, v⟩) = ⟨0, 0, (v.toNat : ℝ)⟩ := by
    unfold rgb2hsvD
    simp only [max_self, min_self, if_true]
    congr 1
    split
    · rfl
    · rename_i h
      rw [div_self (by exact_mod_cast h), dbl_one, sub_self, dbl_zero]
  have hpp : 1 ≤ p := by omega
  have hpow : 2 ^ 53 ≤ 2 ^ p := Nat.pow_le_pow_right (by norm_num) hp
  have one : fl p 1 = 1 := by simpa using fl_nat (p := p) (n := 1) hpp (by omega)
  have hvv : fl p (v.toNat : ℝ) = v.toNat := fl_nat hpp (by omega)
  have hz : toU8 ((⌊(0 : ℝ)⌋ : ℤ) : ℝ) = .ok 0#8 := by
    have := toU8_nat (n := 0) (by norm_num)
    simpa using this
  rw [hs]
  simp only [hsv2rgbD, zero_div, fl_zero, hz, Res.ok_bind, mul_zero, sub_zero, one, mul_one, hvv]
  have := toU8_real8 v
  unfold real8 at this
  show pack _ _ _ = _
  simp only [pack, this, Res.ok_bind]

example := C153_grey (fun _ => 12345) 64 (by decide) 200

open Color in
/-- The conversion there and back does not even keep pixels with two equal channels: (3, 1, 1) becomes
(3, 0, 0), whatever the precision of `long double`, if the arc cosine of 1 is 0. -/
theorem C153_roundtrip_violation (acos : ℝ → ℝ) (ha : acos 1 = 0) (p : Nat) (hp : 53 ≤ p) :
    hsv2rgbD p (rgb2hsvD acos ⟨3, 1, 1⟩) = .ok ⟨3, 0, 0⟩ := by
  have n3 : (3 : BitVec 8).toNat = 3 := by decide
  have n1 : (1 : BitVec 8).toNat = 1 := by decide
  have hh : hueD acos 3 1 1 = 0 := by
    have e1 : dbl (0.5 * (((3 : ℝ) - 1) + (3 - 1))) = 2 := by
      have : (0.5 * (((3 : ℝ) - 1) + (3 - 1))) = ((2 : Nat) : ℝ) := by norm_num
      rw [this, dbl_nat (by norm_num)]; norm_num
    have e2 : dbl (Real.sqrt (((3 : ℝ) - 1) ^ 2 + (3 - 1) * (1 - 1))) = 2 := by
      have : (((3 : ℝ) - 1) ^ 2 + (3 - 1) * (1 - 1)) = 2 ^ 2 := by norm_num
      rw [this, Real.sqrt_sq (by norm_num)]
      have := dbl_nat (n := 2) (by norm_num)
      simpa using this
    unfold hueD
    rw [e1, e2, div_self (by norm_num), dbl_one, ha, zero_mul, dbl_zero]
  have hd : dbl (1 / 3) = 6004799503160661 / 2 ^ 54 := by
    unfold dbl
    rw [fl_lit 6004799503160661 (-2) (by norm_num) (by norm_num) (by rw [abs_lt]; norm_num)]
    norm_num
  have hd2 : dbl (1 - 6004799503160661 / 2 ^ 54) = 6004799503160662 / 2 ^ 53 := by
    unfold dbl
    have hre : roundEven ((1 - 6004799503160661 / 2 ^ 54 : ℝ) / (2 : ℝ) ^ ((-1 : ℤ) + 1 - (53 : Nat))) =
        6004799503160662 := by
      have hx : ((1 - 6004799503160661 / 2 ^ 54 : ℝ) / (2 : ℝ) ^ ((-1 : ℤ) + 1 - (53 : Nat))) =
          6004799503160661 + 1 / 2 := by norm_num
      have hfl : ⌊(6004799503160661 + 1 / 2 : ℝ)⌋ = 6004799503160661 := by
        rw [Int.floor_eq_iff]; norm_num
      rw [hx]
      unfold roundEven
      rw [hfl]
      norm_num
    rw [fl_eq_of (e := -1) (m := 6004799503160662) (by norm_num) (by norm_num) hre]
    norm_num
  have hs : (rgb2hsvD acos ⟨3, 1, 1⟩) = ⟨0, 6004799503160662 / 2 ^ 53, 3⟩ := by
    have hr3 : real8 3 = 3 := by unfold real8; rw [n3]; norm_num
    have hr1 : real8 1 = 1 := by unfold real8; rw [n1]; norm_num
    unfold rgb2hsvD
    simp only [n3, n1, hr3, hr1, hh]
    norm_num
    rw [hd, hd2]
    norm_num
  have hpp : 1 ≤ p := by omega
  have hz : toU8 ((⌊(0 : ℝ)⌋ : ℤ) : ℝ) = .ok 0#8 := by
    have := toU8_nat (n := 0) (by norm_num)
    simpa using this
  have one : fl p 1 = 1 := by
    have hpow : 2 ^ 53 ≤ 2 ^ p := Nat.pow_le_pow_right (by norm_num) hp
    simpa using fl_nat (p := p) (n := 1) hpp (by omega)
  have r1 : Rep 53 (6004799503160662 / 2 ^ 53 : ℝ) := ⟨6004799503160662, -53, by norm_num, by norm_num⟩
  have r2 : Rep 53 (1 - 6004799503160662 / 2 ^ 53 : ℝ) := ⟨3002399751580330, -53, by norm_num, by norm_num⟩
  have r3 : Rep 53 (3 * (1 - 6004799503160662 / 2 ^ 53) : ℝ) := ⟨9007199254740990, -53, by norm_num, by norm_num⟩
  rw [hs]
  simp only [hsv2rgbD, zero_div, fl_zero, hz, Res.ok_bind]
  have e0 : (0#8).toNat = 0 := rfl
  simp only [e0, Nat.cast_zero, sub_zero, fl_zero, one, one_mul, fl_of_rep53 hp r1, fl_of_rep53 hp r2,
    fl_of_rep53 hp r3]
  have h3 := toU8_nat (n := 3) (by norm_num)
  have hm := (toU8_ok (a := (3 * (1 - 6004799503160662 / 2 ^ 53) : ℝ)) (by norm_num) (by norm_num)).1
  have hf : ⌊(3 * (1 - 6004799503160662 / 2 ^ 53) : ℝ)⌋₊ = 0 := by rw [Nat.floor_eq_zero]; norm_num
  rw [hf] at hm
  have h3' : toU8 (3 : ℝ) = .ok 3#8 := by simpa using h3
  simp only [pack, h3', hm, Res.ok_bind]
  rfl

example : (fun x => dbl (Real.arccos x)) 1 = 0 := by simp [dbl_zero]

/-! ## C154: orientation bins -/

theorem degrees_range {a : ℝ} (h1 : -dbl Real.pi ≤ a) (h2 : a ≤ dbl Real.pi) : 0 ≤ degreesD a ∧ degreesD a ≤ 360 := by
  unfold degreesD
  rw [deg_double]
  rw [pi_double] at h1 h2
  have r180 : Rep 53 (180 : ℝ) := by simpa using rep_nat (p := 53) (n := 180) (by norm_num)
  have u := dbl_mono (show a * (1007958012753983 / 17592186044416) ≤ 180 by norm_num at *; linarith)
  have l := dbl_mono (show (-180 : ℝ) ≤ a * (1007958012753983 / 17592186044416) by norm_num at *; linarith)
  rw [dbl_of_rep r180] at u
  rw [dbl_of_rep r180.neg] at l
  refine ⟨dbl_nonneg (by linarith), ?_⟩
  have := dbl_le_nat (n := 360) (by norm_num) (show dbl (a * (1007958012753983 / 17592186044416)) + 180 ≤ (360 : Nat) by
    norm_num; linarith)
  simpa using this

/-- For every angle `std::atan2` may return, in double precision, the orientation falls into one of the 37 bins
of the orientation histogram. -/
theorem C154_histogram (a : ℝ) (h1 : -dbl Real.pi ≤ a) (h2 : a ≤ dbl Real.pi) : ∃ b, bin10D a = .ok b ∧ b < 37 := by
  obtain ⟨d0, d1⟩ := degrees_range h1 h2
  have q0 := dbl_nonneg (show 0 ≤ degreesD a / 10 by positivity)
  have q1 := dbl_le_nat (n := 36) (by norm_num) (show degreesD a / 10 ≤ (36 : Nat) by norm_num; linarith)
  have q1' : dbl (degreesD a / 10) < (37 : Nat) := lt_of_le_of_lt q1 (by norm_num)
  refine ⟨_, toSize_ok q0 (q1'.trans (by norm_num)), (Nat.floor_lt q0).2 q1'⟩

example := C154_histogram (dbl Real.pi) (by linarith [dbl_nonneg Real.pi_pos.le]) le_rfl

/-- And into one of the 8 bins of the descriptor. -/
theorem C154_descriptor (a : ℝ) (h1 : -dbl Real.pi ≤ a) (h2 : a ≤ dbl Real.pi) : ∃ b, bin45D a = .ok b ∧ b < 8 := by
  obtain ⟨d0, d1⟩ := degrees_range h1 h2
  have q0 := dbl_nonneg (show 0 ≤ degreesD a / 45 by positivity)
  have q1 := dbl_le_nat (n := 8) (by norm_num) (show degreesD a / 45 ≤ (8 : Nat) by norm_num; linarith)
  have q1' : dbl (degreesD a / 45) < (9 : Nat) := lt_of_le_of_lt q1 (by norm_num)
  have hlt : ⌊dbl (degreesD a / 45)⌋₊ < 9 := (Nat.floor_lt q0).2 q1'
  refine ⟨if ⌊dbl (degreesD a / 45)⌋₊ = 8 then 7 else ⌊dbl (degreesD a / 45)⌋₊, ?_, ?_⟩
  · unfold bin45D
    rw [toSize_ok q0 (q1'.trans (by norm_num)), Res.ok_bind]
  · split <;> omega

example := C154_descriptor (dbl Real.pi) (by linarith [dbl_nonneg Real.pi_pos.le]) le_rfl

/-- The largest angle reaches the last bin of the histogram: 37 bins are needed. -/
theorem C154_last : bin10D (dbl Real.pi) = .ok 36 := by
  have r : Rep 53 (360 : ℝ) := by simpa using rep_nat (p := 53) (n := 360) (by norm_num)
  have r180 : Rep 53 (180 : ℝ) := by simpa using rep_nat (p := 53) (n := 180) (by norm_num)
  have e1 : dbl (884279719003555 / 281474976710656 * (1007958012753983 / 17592186044416)) = 180 := by
    unfold dbl
    rw [fl_lit 6333186975989760 7 (by norm_num) (by norm_num) (by rw [abs_lt]; norm_num)]
    norm_num
  unfold bin10D degreesD
  rw [deg_double, pi_double, e1]
  have e2 : dbl (180 + 180) = 360 := by
    rw [show (180 + 180 : ℝ) = 360 by norm_num]; exact dbl_of_rep r
  rw [e2]
  have e3 : dbl (360 / 10) = ((36 : Nat) : ℝ) := by
    rw [show (360 / 10 : ℝ) = ((36 : Nat) : ℝ) by norm_num]; exact dbl_nat (by norm_num)
  rw [e3]
  exact toSize_nat (by norm_num)

example : -dbl Real.pi ≤ (1 : ℝ) ∧ (1 : ℝ) ≤ dbl Real.pi := by rw [pi_double]; norm_num

/-! ## C155: normalising -/

/-- Normalising in double precision: the smallest value becomes 0, the largest 1, every value a number from 0
to 1, and the order is never reversed. -/
theorem C155_normalize (lo hi : ℝ) (h : lo < hi) :
    normalizeD lo hi lo = 0 ∧ normalizeD lo hi hi = 1 ∧
      (∀ v, lo ≤ v → v ≤ hi → 0 ≤ normalizeD lo hi v ∧ normalizeD lo hi v ≤ 1) ∧
      ∀ v v', v ≤ v' → normalizeD lo hi v ≤ normalizeD lo hi v' := by
  have hd0 : 0 < hi - lo := by linarith
  have hd : 0 < dbl (hi - lo) :=
    lt_of_lt_of_le (mul_pos (by unfold eps; norm_num) hd0) (dbl_bounds hd0.le).1
  have mono : ∀ v v', v ≤ v' → normalizeD lo hi v ≤ normalizeD lo hi v' := fun v v' hv =>
    dbl_mono (div_le_div_of_nonneg_right (dbl_mono (by linarith)) hd.le)
  have e0 : normalizeD lo hi lo = 0 := by
    unfold normalizeD; rw [sub_self, dbl_zero, zero_div, dbl_zero]
  have e1 : normalizeD lo hi hi = 1 := by
    unfold normalizeD; rw [div_self hd.ne', dbl_one]
  refine ⟨e0, e1, fun v h1 h2 => ⟨?_, ?_⟩, mono⟩
  · rw [← e0]; exact mono _ _ h1
  · rw [← e1]; exact mono _ _ h2

example : normalizeD 10 200 10 = 0 ∧ normalizeD 10 200 200 = 1 ∧ normalizeD 10 200 30 ≤ normalizeD 10 200 31 := by
  obtain ⟨h1, h2, -, h3⟩ := C155_normalize 10 200 (by norm_num)
  exact ⟨h1, h2, h3 _ _ (by norm_num)⟩

/-! ## C156: quarter turns -/

theorem pi64 : fl 64 (fl 64 Real.pi / 2) = 14488038916154245685 / 2 ^ 63 := by
  have g := Real.pi_gt_d20
  have l := Real.pi_lt_d20
  have e : fl 64 Real.pi = 14488038916154245685 / 2 ^ 62 := by
    rw [fl_lit 14488038916154245685 1 (by norm_num; linarith) (by norm_num; linarith)
      (by rw [abs_lt]; norm_num; constructor <;> linarith)]
    norm_num
  rw [e]
  have r : Rep 64 (14488038916154245685 / 2 ^ 62 / 2 : ℝ) := ⟨14488038916154245685, -63, by norm_num, by norm_num⟩
  rw [fl_of_rep (by norm_num) r]
  norm_num

/-- Where `long double` has 64 bits, no angle of type `double` is recognised as a quarter turn. -/
theorem C156_quarter_violation (r : ℝ) (hr : dbl r = r) : ¬ quarterD 64 r := by
  unfold quarterD
  rw [pi64]
  intro h
  obtain ⟨m, e, hm, he⟩ : Rep 53 r := hr ▸ dbl_rep r
  rw [h] at he
  have h2 : (14488038916154245685 : ℝ) = m * (2 : ℝ) ^ (e + 63) := by
    rw [zpow_add₀ (by norm_num), ← mul_assoc, ← he]; norm_num
  rcases le_or_gt (e + 63) 0 with hc | hc
  · have h3 : (2 : ℝ) ^ (e + 63) ≤ 1 := zpow_le_one_of_nonpos₀ (by norm_num) hc
    have h4 : (m : ℝ) ≤ 2 ^ 53 := by
      have := (abs_le.1 hm).2
      exact_mod_cast this
    have h5 : (0 : ℝ) < (2 : ℝ) ^ (e + 63) := by positivity
    have : (m : ℝ) * (2 : ℝ) ^ (e + 63) ≤ 2 ^ 53 * 1 :=
      (mul_le_mul_of_nonneg_right h4 h5.le).trans (mul_le_mul_of_nonneg_left h3 (by norm_num))
    rw [← h2] at this
    norm_num at this
  · obtain ⟨k, hk⟩ : ∃ k : Nat, e + 63 = (k + 1 : Nat) := ⟨(e + 63 - 1).toNat, by omega⟩
    rw [hk, zpow_natCast] at h2
    have : (14488038916154245685 : ℤ) = m * 2 ^ (k + 1) := by exact_mod_cast h2
    rw [pow_succ] at this
    have : (2 : ℤ) ∣ 14488038916154245685 := ⟨m * 2 ^ k, by rw [this]; ring⟩
    omega

example : dbl (dbl (Real.pi / 2)) = dbl (Real.pi / 2) := dbl_of_rep (dbl_rep _)

/-- Where `long double` is `double`, the nearest `double` is recognised, and the sides of the picture are
exchanged exactly, whatever the cosine and the sine of the library return. -/
theorem C156_quarter_double (cosine sine : ℝ → ℝ) (w h : Nat) :
    quarterD 53 (dbl (dbl Real.pi / 2)) ∧
      rotatedSizeD 53 cosine sine w h (dbl (dbl Real.pi / 2)) = (.ok h, .ok w) := by
  have hq : quarterD 53 (dbl (dbl Real.pi / 2)) := rfl
  have g := Real.pi_gt_d20
  have l := Real.pi_lt_d20
  have e : dbl Real.pi = 884279719003555 / 281474976710656 := by
    unfold dbl
    rw [fl_lit 7074237752028440 1 (by norm_num; linarith) (by norm_num; linarith)
      (by rw [abs_lt]; norm_num; constructor <;> linarith)]
    norm_num
  have e2 : dbl (dbl Real.pi / 2) = 884279719003555 / 562949953421312 := by
    rw [e]
    have r : Rep 53 (884279719003555 / 281474976710656 / 2 : ℝ) := ⟨884279719003555, -49, by norm_num, by norm_num⟩
    rw [dbl_of_rep r]
    norm_num
  refine ⟨hq, ?_⟩
  unfold rotatedSizeD
  rw [if_neg (by rw [e2]; norm_num), if_pos hq]

theorem half_pi_double : dbl (Real.pi / 2) = 884279719003555 / 562949953421312 := by
  have g := Real.pi_gt_d20
  have l := Real.pi_lt_d20
  unfold dbl
  rw [fl_lit 7074237752028440 0 (by norm_num; linarith) (by norm_num; linarith)
    (by rw [abs_lt]; norm_num; constructor <;> linarith)]
  norm_num

/-- Turning a picture of 2 x 1 pixels by the `double` nearest to a quarter turn gives 2 x 2 pixels instead of
1 x 2, where `long double` has 64 bits and the cosine and the sine are correctly rounded. -/
theorem C156_size_violation :
    rotatedSizeD 64 (fun x => dbl (Real.cos x)) (fun x => dbl (Real.sin x)) 2 1 (dbl (Real.pi / 2)) =
      (.ok 2, .ok 2) := by
  have g := Real.pi_gt_d20
  have l := Real.pi_lt_d20
  have hq := C156_quarter_violation (dbl (Real.pi / 2)) (dbl_of_rep (dbl_rep _))
  have hne : dbl (Real.pi / 2) ≠ 0 := by rw [half_pi_double]; norm_num
  unfold rotatedSizeD
  rw [if_neg hne, if_neg hq, half_pi_double]
  set r : ℝ := 884279719003555 / 562949953421312 with hr
  set d : ℝ := Real.pi / 2 - r with hd
  have d1 : (6.12 / 10 ^ 17 : ℝ) < d := by rw [hd, hr]; norm_num at *; linarith
  have d2 : d < (6.13 / 10 ^ 17 : ℝ) := by rw [hd, hr]; norm_num at *; linarith
  have hrd : r = Real.pi / 2 - d := by rw [hd]; ring
  have hc : Real.cos r = Real.sin d := by rw [hrd, Real.cos_pi_div_two_sub]
  have hs : Real.sin r = Real.cos d := by rw [hrd, Real.sin_pi_div_two_sub]
  have hd0 : 0 < d := lt_trans (by norm_num) d1
  have sinu : Real.sin d ≤ d := Real.sin_le hd0.le
  have sinl : d - d ^ 3 / 6 < Real.sin d := Real.sin_gt_sub_cube hd0
  have cosl := Real.one_sub_sq_div_two_le_cos (x := d)
  have cosu := Real.cos_le_one d
  have dsq : d ^ 2 < 1 / 2 ^ 60 := by
    have : d ^ 2 < (6.13 / 10 ^ 17) ^ 2 := by nlinarith
    refine this.trans (by norm_num)
  have dcu : d ^ 3 < 1 / 10 ^ 40 := by
    have : d ^ 3 = d ^ 2 * d := by ring
    have h2 : d ^ 2 < (6.13 / 10 ^ 17) ^ 2 := by nlinarith
    rw [this]
    have : d ^ 2 * d < (6.13 / 10 ^ 17) ^ 2 * (6.13 / 10 ^ 17) := by
      refine mul_lt_mul h2 d2.le hd0 (by positivity)
    refine this.trans (by norm_num)
  -- the sine rounds to 1
  have es : dbl (Real.sin r) = 1 := by
    rw [hs]
    have hcd : 1 - 1 / 2 ^ 61 < Real.cos d := by linarith
    rcases eq_or_lt_of_le cosu with h | h
    · rw [h, dbl_one]
    · unfold dbl
      rw [fl_lit (2 ^ 53) (-1) (by norm_num at *; linarith) (by norm_num; linarith)
        (by rw [abs_lt]; norm_num at *; constructor <;> linarith)]
      norm_num
  -- the cosine is about 6.12e-17
  have ec := dbl_err (Real.cos r)
  have hsd : 0 ≤ Real.sin d := by nlinarith
  rw [hc, abs_of_nonneg hsd] at ec
  set c := dbl (Real.sin d) with hcdef
  have hcc : dbl (Real.cos r) = c := by rw [hc]
  rw [abs_le] at ec
  have small : eps * Real.sin d ≤ 1 / 10 ^ 30 := by
    unfold eps
    norm_num at *
    linarith
  have c1 : (6.11 / 10 ^ 17 : ℝ) < c := by norm_num at *; linarith [ec.1]
  have c2 : c < (6.14 / 10 ^ 17 : ℝ) := by norm_num at *; linarith [ec.2]
  have hc0 : 0 < c := lt_trans (by norm_num) c1
  simp only [hcc, es, turnedSizeD]
  have d2' : dbl ((2 : Nat) : ℝ) = 2 := by have := dbl_nat (n := 2) (by norm_num); simpa using this
  have d1' : dbl ((1 : Nat) : ℝ) = 1 := by have := dbl_nat (n := 1) (by norm_num); simpa using this
  rw [d2', d1']
  have hcr : Rep 53 c := dbl_rep _
  have e1 : dbl (1 * c) = c := by rw [one_mul]; exact dbl_of_rep hcr
  have e2 : dbl (2 * c) = 2 * c := by
    have := hcr.mul_pow 1
    rw [zpow_one, mul_comm] at this
    exact dbl_of_rep this
  have e3 : dbl (2 * 1) = 2 := by rw [mul_one]; simpa using d2'
  have e4 : dbl (1 * 1) = 1 := by rw [mul_one, dbl_one]
  rw [e1, e2, e3, e4, abs_of_pos hc0, abs_of_pos (by linarith : 0 < 2 * c), abs_of_pos (by norm_num : (0 : ℝ) < 2),
    abs_one]
  have hH : dbl (c + 2) = 2 := by
    unfold dbl
    rw [fl_lit (2 ^ 52) 1 (by norm_num; linarith) (by norm_num at *; linarith)
      (by rw [abs_lt]; norm_num at *; constructor <;> linarith)]
    norm_num
  have hW : dbl (2 * c + 1) = 1 + 1 / 2 ^ 52 := by
    unfold dbl
    rw [fl_lit (2 ^ 52 + 1) 0 (by norm_num; linarith) (by norm_num at *; linarith)
      (by rw [abs_lt]; norm_num at *; constructor <;> linarith)]
    norm_num
  rw [hH, hW]
  have f1 : ⌈(1 + 1 / 2 ^ 52 : ℝ)⌉ = 2 := by rw [Int.ceil_eq_iff]; norm_num
  have f2 : ⌈(2 : ℝ)⌉ = 2 := by rw [Int.ceil_eq_iff]; norm_num
  rw [f1, f2]
  have := toSize_nat (n := 2) (by norm_num)
  norm_num at this ⊢
  exact this

/-! ## C157: bicubic resizing -/

open Resample in
/-- Resizing an 8-bit image with `copyResizeBicubic`, the positions computed with `p` bits (24 for one channel): for
images with at most `2 ^ p` columns and rows every read lies inside the image, whatever the new size and the order of
the loop, and each pixel of the result is the input pixel in a column that depends on the column only and a row that
depends on the row only; where the sizes are small these are the proportional ones or the ones before them. Missing:
larger images, see `C157_large_violation`. -/
theorem C157_bicubic_partial {p : Nat} (hpp : 2 ≤ p) {im : Image (BitVec 8)} {w h : Nat} {f : Nat → Nat → BitVec 8}
    (s : im.Shows w h f) (hw : 0 < w) (hh : 0 < h) (hw2 : w ≤ 2 ^ p) (hh2 : h ≤ 2 ^ p) (nw nh : Nat)
    (hnw : nw < 2 ^ 64) (hnh : nh < 2 ^ 64) (hf : nw * nh < 2 ^ 64) (order : List (Nat × Nat))
    (hp : order.Perm (iterYX nw nh)) :
    ∃ (out : Image (BitVec 8)) (sx sy : Nat → Nat), copyResizeBicubicP p bicubicPolateU8 0 order im nw nh = .ok out ∧
      out.Shows nw nh (fun x y => f (sx x) (sy y)) ∧
      (∀ x, x < nw → sx x < w ∧ (w * nw * 4 ≤ 2 ^ p → Near w nw x (sx x))) ∧
      ∀ y, y < nh → sy y < h ∧ (h * nh * 4 ≤ 2 ^ p → Near h nh y (sy y)) := by
  have hp1 : 1 ≤ p := by omega
  have near : ∀ {o n : Nat}, 0 < o → ∀ x, x < n → Filter.clampInt o (⌊mappingP p o n x⌋ + (((1 : Nat) : Int) - 1)) < o ∧
      (o * n * 4 ≤ 2 ^ p → Near o n x (Filter.clampInt o (⌊mappingP p o n x⌋ + (((1 : Nat) : Int) - 1)))) := by
    intro o n h0 x hx
    refine ⟨clampInt_lt h0 _, fun hm => ?_⟩
    have hN := mapping_near hpp h0 hm hx
    have hlt : x * o / n < o := ratio_lt h0 hx
    have hfl : ⌊mappingP p o n x⌋₊ < o := by
      rcases hN with h | ⟨-, h⟩ <;> omega
    have hint : ⌊mappingP p o n x⌋ = ((⌊mappingP p o n x⌋₊ : Nat) : Int) :=
      (Int.natCast_floor_eq_floor (mapping_nonneg p o n x)).symm
    have : Filter.clampInt o (⌊mappingP p o n x⌋ + (((1 : Nat) : Int) - 1)) = ⌊mappingP p o n x⌋₊ := by
      rw [hint, show ((⌊mappingP p o n x⌋₊ : Nat) : Int) + (((1 : Nat) : Int) - 1) =
        ((⌊mappingP p o n x⌋₊ : Nat) : Int) by omega, clampInt_self hfl]
    rw [this]
    exact hN
  obtain ⟨out, e, so⟩ := copyResizeBicubicP_shows hp1 bicubicPolateU8 (0 : BitVec 8) s hw hh hw2 hh2 nw nh hnw hnh hf
    order hp (fun x y => f (Filter.clampInt w (⌊mappingP p w nw x⌋ + (((1 : Nat) : Int) - 1)))
      (Filter.clampInt h (⌊mappingP p h nh y⌋ + (((1 : Nat) : Int) - 1)))) (fun x y hx hy => by
      have h3 := fract_lt (x := mappingP p w nw x)
      have h4 := fract_lt (x := mappingP p h nh y)
      rw [bicubicPolateU8_eq (fun i j => edge w h f (⌊mappingP p w nw x⌋ + ((i : Int) - 1))
        (⌊mappingP p h nh y⌋ + ((j : Int) - 1))) _ _ h3.1 h3.2 h4.1 h4.2]
      rfl)
  exact ⟨out, _, _, e, so, near hw, near hh⟩

example : (⟨[2, 1], [29, 30]⟩ : Image (BitVec 8)).Shows 2 1 (fun x _ => if x = 0 then 29 else 30) ∧ 2 ≤ 2 ^ 24 ∧
    2 * 98 * 4 ≤ 2 ^ 24 := by
  refine ⟨Image.Shows.of_data (by decide) (by decide) (by decide) rfl rfl ?_, by norm_num, by norm_num⟩
  intro x y hx hy
  obtain rfl : y = 0 := by omega
  obtain rfl | rfl : x = 0 ∨ x = 1 := by omega
  all_goals rfl

/-- Beyond `2 ^ 24` columns the bound of the columns is itself rounded: an image of `2 ^ 24 + 3` columns cannot
even be copied to the same size, whatever is interpolated; the loop reads a pixel outside the image. -/
theorem C157_large_violation {im : Image α} {f : Nat → Nat → α} (s : im.Shows (2 ^ 24 + 3) 1 f)
    (polate : List α → ℝ → ℝ → Res α) (zero : α) (order : List (Nat × Nat))
    (hp : order.Perm (iterYX (2 ^ 24 + 3) 1)) (out : Image α) :
    copyResizeBicubicP 24 polate zero order im (2 ^ 24 + 3) 1 ≠ .ok out := by
  intro hc
  have hmem : (2 ^ 24 + 2, 0) ∈ order := hp.mem_iff.mpr (mem_iterYX.mpr ⟨by norm_num, by norm_num⟩)
  obtain ⟨s', t', hb⟩ := loop_all_ok hc _ hmem
  have e1 : fl 24 (((2 ^ 24 + 3 : Nat)) : ℝ) = 2 ^ 24 + 4 := by
    have hre : roundEven ((((2 ^ 24 + 3 : Nat)) : ℝ) / (2 : ℝ) ^ ((24 : ℤ) + 1 - (24 : Nat))) = 8388610 := by
      have hx : ((((2 ^ 24 + 3 : Nat)) : ℝ) / (2 : ℝ) ^ ((24 : ℤ) + 1 - (24 : Nat))) = 8388609 + 1 / 2 := by norm_num
      have hfl : ⌊(8388609 + 1 / 2 : ℝ)⌋ = 8388609 := by rw [Int.floor_eq_iff]; norm_num
      rw [hx]
      unfold roundEven
      rw [hfl]
      norm_num
    rw [fl_eq_of (e := 24) (m := 8388610) (by norm_num) (by norm_num) hre]
    norm_num
  have e2 : fl 24 ((2 ^ 24 + 4 : ℝ) - 1) = 2 ^ 24 + 4 := by
    have : ((2 ^ 24 + 4 : ℝ) - 1) = (((2 ^ 24 + 3 : Nat)) : ℝ) := by norm_num
    rw [this, e1]
  have e3 : fl 24 (((2 ^ 24 + 2 : Nat)) : ℝ) = 2 ^ 24 + 2 := by
    have : Rep 24 (((2 ^ 24 + 2 : Nat)) : ℝ) := ⟨2 ^ 23 + 1, 1, by norm_num, by norm_num⟩
    rw [fl_of_rep (by norm_num) this]; norm_num
  have one : fl 24 (1 : ℝ) = 1 := by simpa using fl_nat (p := 24) (n := 1) (by norm_num) (by norm_num)
  have em : mappingP 24 (2 ^ 24 + 3) (2 ^ 24 + 3) (2 ^ 24 + 2) = 2 ^ 24 + 2 := by
    unfold mappingP
    rw [e1, div_self (by norm_num), one, mul_one, e3]
    have := e3
    norm_num at this ⊢
    exact this
  have emf : ⌊(2 ^ 24 + 2 : ℝ)⌋ = 2 ^ 24 + 2 := by rw [Int.floor_eq_iff]; norm_num
  simp only [s.width, s.height, em, emf] at hb
  -- the third neighbour in the first row
  cases hnd : forUp 16 (fun nd k => do
      let cx ← clampCoordP 24 (fl 24 ((((2 ^ 24 + 2 : ℤ)) : ℝ) + (((k % 4 : Nat) : ℝ) - 1))) (2 ^ 24 + 3)
      let cy ← clampCoordP 24 (fl 24 ((⌊mappingP 24 1 1 0⌋ : ℝ) + (((k / 4 : Nat) : ℝ) - 1))) 1
      let v ← im.at2 cx cy
      vset nd k v) (List.replicate 16 zero) with
  | throw e => rw [hnd] at hb; simp at hb
  | ub => rw [hnd] at hb; simp at hb
  | ok nd =>
    obtain ⟨a, b, hk⟩ := loop_all_ok hnd 2 (by simp)
    have e4 : fl 24 ((((2 ^ 24 + 2 : ℤ)) : ℝ) + (((2 % 4 : Nat) : ℝ) - 1)) = 2 ^ 24 + 4 := by
      have : ((((2 ^ 24 + 2 : ℤ)) : ℝ) + (((2 % 4 : Nat) : ℝ) - 1)) = (((2 ^ 24 + 3 : Nat)) : ℝ) := by norm_num
      rw [this, e1]
    have e5 : clampCoordP 24 (2 ^ 24 + 4) (2 ^ 24 + 3) = .ok (2 ^ 24 + 4) := by
      unfold clampCoordP
      rw [e1, e2]
      simp only []
      rw [if_neg (by norm_num), if_neg (by norm_num), if_neg (by norm_num)]
      have := toSize_nat (n := 2 ^ 24 + 4) (by norm_num)
      norm_num at this ⊢
      exact this
    rw [e4, e5, Res.ok_bind] at hk
    cases hcy : clampCoordP 24 (fl 24 ((⌊mappingP 24 1 1 0⌋ : ℝ) + (((2 / 4 : Nat) : ℝ) - 1))) 1 with
    | throw e => rw [hcy] at hk; simp at hk
    | ub => rw [hcy] at hk; simp at hk
    | ok cy =>
      rw [hcy, Res.ok_bind] at hk
      cases hat : im.at2 (2 ^ 24 + 4) cy with
      | throw e => rw [hat] at hk; simp at hk
      | ub => rw [hat] at hk; simp at hk
      | ok v =>
        have hin := inBounds_of_at'_ok hat
        rw [s.size] at hin
        simp [InBounds] at hin

/-- Such images exist. -/
example : (Image.ofSizes 0 [2 ^ 24 + 3, 1] : Image Nat).Shows (2 ^ 24 + 3) 1 (fun _ _ => 0) :=
  ofSizes_shows 0 (by norm_num) (by norm_num) (by norm_num)

end TinyDIP.Props
