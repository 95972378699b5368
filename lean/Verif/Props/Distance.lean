import Verif.Lemmas.Samples
import Verif.Lemmas.Distance

/-!
# Property theorems: distances between images and points (C119)

`l2` and `l1` (Spec/Distance.lean) are the Euclidean distance and the sum of absolute differences of two
sequences of numbers.
-/

namespace TinyDIP.Distance

open TinyDIP TinyDIP.Props Image

/-! ## C119 Euclidean and Manhattan distances of images

Full statement: for images and points of every element type, `euclidean_distance` and the Manhattan
distance of colour images are metrics (per channel for colour images), whatever the order in which the
policy adds the terms up, and images of different sizes are rejected. -/

/-- `euclidean_distance` of `double` images: images of different sizes throw; otherwise every order and
grouping of the additions gives the same number, which is the square root of the sum of the squared
differences; it is symmetric, zero exactly for equal images, and satisfies the triangle inequality. -/
theorem C119_euclidean (a b c : Image ℝ) (wa : a.WF) (wb : b.WF) (wc : c.WF) :
    (a.size ≠ b.size → ∀ r, Euclid subReal a b r ↔ r = .throw .runtime) ∧
    (a.size = b.size → ∃ d, (∀ r, Euclid subReal a b r ↔ r = .ok d) ∧
      (∀ r, Euclid subReal b a r ↔ r = .ok d) ∧ 0 ≤ d ∧
      d ^ 2 = (List.zipWith (fun x y => (x - y) ^ 2) a.data b.data).sum ∧ (d = 0 ↔ a = b)) ∧
    (a.size = b.size → b.size = c.size → ∃ ab bc ac, Euclid subReal a b (.ok ab) ∧
      Euclid subReal b c (.ok bc) ∧ Euclid subReal a c (.ok ac) ∧ ac ≤ ab + bc) :=
  euclid_metric id Function.injective_id subReal (fun _ _ => rfl) a b c wa wb wc

example := C119_euclidean (picture 3 2 fun x y => (x : ℝ) + y) (picture 3 2 fun x y => (x : ℝ) - y)
  (picture 3 2 fun x y => (x : ℝ) * y) (picture_wf ..) (picture_wf ..) (picture_wf ..)

/-- In coordinates: the distance of two pictures of the same size. -/
theorem C119_euclidean_coordinates (a b : Image ℝ) (w h : Nat) (f g : Nat → Nat → ℝ) (sa : a.Shows w h f)
    (sb : b.Shows w h g) (r : Res ℝ) :
    Euclid subReal a b r ↔ r = .ok (Real.sqrt
      ((List.range h).map fun y => ((List.range w).map fun x => (f x y - g x y) ^ 2).sum).sum) := by
  rw [euclid_iff id subReal (fun _ _ => rfl) a b sa.wf sb.wf (sa.size.trans sb.size.symm), List.map_id,
    List.map_id, l2]
  have z : (⟨[w, h], List.zipWith (fun x y => (x - y) ^ 2) a.data b.data⟩ : Image ℝ).Shows w h
      (fun x y => (f x y - g x y) ^ 2) := by
    refine Image.Shows.of_data sa.w_lt sa.h_lt sa.fits rfl (by simp [sa.len, sb.len]) fun x y hx hy => ?_
    rw [List.getElem?_zipWith, sa.data? hx hy, sb.data? hx hy]
  have := (C59_sum_coordinates _ w h _ z _).mp (stdReduce_exists (· + ·) 0 _)
  rw [← this, foldl_add_eq, zero_add]

example : (⟨[2, 1], [1, 2]⟩ : Image ℝ).WF ∧ (⟨[2, 1], [4, 6]⟩ : Image ℝ).WF ∧
    Euclid subReal ⟨[2, 1], [1, 2]⟩ ⟨[2, 1], [4, 6]⟩ (.ok 5) := by
  have w1 : (⟨[2, 1], [1, 2]⟩ : Image ℝ).WF := ⟨by decide, by decide, by simp⟩
  have w2 : (⟨[2, 1], [4, 6]⟩ : Image ℝ).WF := ⟨by decide, by decide, by simp⟩
  refine ⟨w1, w2, ?_⟩
  rw [euclid_iff id subReal (fun _ _ => rfl) _ _ w1 w2 rfl]
  congr 1
  rw [eq_comm, l2, Real.sqrt_eq_iff_mul_self_eq (by simp; norm_num) (by norm_num)]
  simp; norm_num

/-- `euclidean_distance` of 8-bit images is a metric, too: differences are computed in `int`. -/
theorem C119_gray (a b c : Image (BitVec 8)) (wa : a.WF) (wb : b.WF) (wc : c.WF) :
    (a.size ≠ b.size → ∀ r, Euclid subU8 a b r ↔ r = .throw .runtime) ∧
    (a.size = b.size → ∃ d, (∀ r, Euclid subU8 a b r ↔ r = .ok d) ∧
      (∀ r, Euclid subU8 b a r ↔ r = .ok d) ∧ 0 ≤ d ∧
      d ^ 2 = (List.zipWith (fun x y => ((x.toNat : ℝ) - y.toNat) ^ 2) a.data b.data).sum ∧
      (d = 0 ↔ a = b)) ∧
    (a.size = b.size → b.size = c.size → ∃ ab bc ac, Euclid subU8 a b (.ok ab) ∧
      Euclid subU8 b c (.ok bc) ∧ Euclid subU8 a c (.ok ac) ∧ ac ≤ ab + bc) := by
  refine euclid_metric (fun x => (x.toNat : ℝ)) ?_ subU8 (fun x y => ?_) a b c wa wb wc
  · intro x y h
    exact BitVec.eq_of_toNat_eq (by simpa using h)
  · simp [subU8]

example := C119_gray (picture 3 2 fun x y => BitVec.ofNat 8 (100 * x + y)) (picture 3 2 fun x y => BitVec.ofNat 8 (x * y))
  (picture 2 3 fun _ y => BitVec.ofNat 8 y) (picture_wf ..) (picture_wf ..) (picture_wf ..)

/-- Violation: for `unsigned int` images the difference is taken modulo 2^32, so the distance from 0 to 1
is not the distance from 1 to 0. -/
theorem C119_unsigned_violation :
    ∃ a b : Image (BitVec 32), a.WF ∧ b.WF ∧ a.size = b.size ∧
      (∀ r, Euclid subU32 a b r ↔ r = .ok 4294967295) ∧ (∀ r, Euclid subU32 b a r ↔ r = .ok 1) := by
  refine ⟨⟨[1, 1], [0]⟩, ⟨[1, 1], [1]⟩, ⟨by decide, by decide, by decide⟩,
    ⟨by decide, by decide, by decide⟩, rfl, fun r => ?_, fun r => ?_⟩
  · rw [Euclid, if_neg (by simp)]
    simp only [mapReduce2_iff _ _ _ (show ([0] : List (BitVec 32)).length = ([1] : List (BitVec 32)).length from rfl)]
    rw [exists_eq_left, Res.ok_bind]
    have : Real.sqrt (List.zipWith (fun a b => subU32 a b ^ 2) [0] [1]).sum = 4294967295 := by
      have e : (0 - 1 : BitVec 32).toNat = 4294967295 := by decide
      rw [Real.sqrt_eq_iff_mul_self_eq (by simp [subU32]) (by norm_num)]
      simp only [List.zipWith_cons_cons, List.zipWith_nil_left, List.sum_cons, List.sum_nil, subU32, e]
      norm_num
    rw [this]
  · rw [Euclid, if_neg (by simp)]
    simp only [mapReduce2_iff _ _ _ (show ([1] : List (BitVec 32)).length = ([0] : List (BitVec 32)).length from rfl)]
    rw [exists_eq_left, Res.ok_bind]
    have : Real.sqrt (List.zipWith (fun a b => subU32 a b ^ 2) [1] [0]).sum = 1 := by
      have e : (1 - 0 : BitVec 32).toNat = 1 := by decide
      simp only [List.zipWith_cons_cons, List.zipWith_nil_left, List.sum_cons, List.sum_nil, subU32, e]
      norm_num
    rw [this]

/-- `euclidean_distance` of `RGB_DOUBLE` and `HSV` images of the same size returns one distance per
channel, the distance of the two planes; the distances are the same in both directions, all zero exactly
for equal images, and satisfy the triangle inequality. Missing: images of different sizes
(`C119_colour_size_violation`) and `RGB` images (`C119_rgb_violation`). -/
theorem C119_colour_partial (a b c : Image (Px3 ℝ)) (wa : a.WF) (wb : b.WF) (wc : c.WF)
    (hab : a.size = b.size) (hbc : b.size = c.size) (h0 : 0 < a.size.prod) :
    ∃ d e f : Px3 ℝ, (∀ r, EuclidPx3 subReal a b r ↔ r = .ok d) ∧
      (∀ r, EuclidPx3 subReal b a r ↔ r = .ok d) ∧
      (∀ r, EuclidPx3 subReal b c r ↔ r = .ok e) ∧ (∀ r, EuclidPx3 subReal a c r ↔ r = .ok f) ∧
      (∀ k < 3, ∃ p q v, getPlane 0 a k = .ok p ∧ getPlane 0 b k = .ok q ∧ d.channel k = .ok v ∧
        Euclid subReal p q (.ok v)) ∧
      (d = ⟨0, 0, 0⟩ ↔ a = b) ∧
      f.c0 ≤ d.c0 + e.c0 ∧ f.c1 ≤ d.c1 + e.c1 ∧ f.c2 ≤ d.c2 + e.c2 := by
  have lab : a.data.length = b.data.length := by rw [wa.len, wb.len, hab]
  have lbc : b.data.length = c.data.length := by rw [wb.len, wc.len, hbc]
  obtain ⟨a0, a1, a2⟩ := getPlane_map 0 a wa h0
  obtain ⟨b0, b1, b2⟩ := getPlane_map 0 b wb (hab ▸ h0)
  have pl : ∀ ch : Px3 ℝ → ℝ, Euclid subReal ⟨a.size, a.data.map ch⟩ ⟨b.size, b.data.map ch⟩
      (.ok (l2 (a.data.map ch) (b.data.map ch))) := by
    intro ch
    rw [euclid_iff id subReal (fun _ _ => rfl) _ _ (wa.map ch) (wb.map ch) hab, List.map_id, List.map_id]
  refine ⟨_, _, _, euclidPx3_real a b lab, fun r => ?_, euclidPx3_real b c lbc,
    euclidPx3_real a c (lab.trans lbc), fun k hk => ?_, ?_, ?_, ?_, ?_⟩
  · rw [euclidPx3_real b a lab.symm]
    simp only [l2_comm (b.data.map _)]
  · obtain rfl | rfl | rfl : k = 0 ∨ k = 1 ∨ k = 2 := by omega
    · exact ⟨_, _, _, a0, b0, rfl, pl Px3.c0⟩
    · exact ⟨_, _, _, a1, b1, rfl, pl Px3.c1⟩
    · exact ⟨_, _, _, a2, b2, rfl, pl Px3.c2⟩
  · rw [Px3.mk.injEq, l2_zero _ _ (by simpa using lab), l2_zero _ _ (by simpa using lab),
      l2_zero _ _ (by simpa using lab)]
    constructor
    · rintro ⟨h0, h1, h2⟩
      have := px3_data_inj _ _ h0 h1 h2
      cases a; cases b; simp_all
    · rintro rfl; exact ⟨rfl, rfl, rfl⟩
  all_goals exact l2_triangle _ _ _ (by simpa using lab) (by simpa using lbc)

example : (⟨[1, 2], [⟨1, 2, 3⟩, ⟨4, 5, 6⟩]⟩ : Image (Px3 ℝ)).WF ∧ 0 < [1, 2].prod :=
  ⟨⟨by decide, by decide, by simp⟩, by decide⟩

/-- Violation: colour images of different sizes with the same number of pixels are not rejected; a wide
and a tall image get the distance of equal images. -/
theorem C119_colour_size_violation :
    ∃ a b : Image (Px3 ℝ), a.WF ∧ b.WF ∧ a.size ≠ b.size ∧
      ∀ r, EuclidPx3 subReal a b r ↔ r = .ok ⟨0, 0, 0⟩ := by
  refine ⟨⟨[2, 1], [⟨1, 2, 3⟩, ⟨4, 5, 6⟩]⟩, ⟨[1, 2], [⟨1, 2, 3⟩, ⟨4, 5, 6⟩]⟩,
    ⟨by decide, by decide, by simp⟩, ⟨by decide, by decide, by simp⟩, by simp, fun r => ?_⟩
  rw [euclidPx3_real _ _ (by rfl)]
  simp [l2]

/-- Different numbers of pixels are rejected also for colour images. -/
theorem C119_colour_count (a b : Image (Px3 ℝ)) (wa : a.WF) (wb : b.WF) (h : a.size.prod ≠ b.size.prod)
    (r : Res (Px3 ℝ)) : EuclidPx3 subReal a b r ↔ r = .throw .runtime := by
  have hl : a.data.length ≠ b.data.length := by rwa [wa.len, wb.len]
  unfold EuclidPx3 MapReduce2
  simp only [if_pos hl]
  rw [exists_eq_left, Res.throw_bind]

example := C119_colour_count (picture 3 2 fun x y => (⟨x, y, 1⟩ : Px3 ℝ)) (picture 3 3 fun x y => (⟨x, y, 1⟩ : Px3 ℝ))
  (picture_wf ..) (picture_wf ..) (by decide)

/-- Violation: `RGB` pixels are subtracted modulo 256, so the distance of 8-bit colour images depends on
their order. -/
theorem C119_rgb_violation :
    ∃ a b : Image RGB, a.WF ∧ b.WF ∧ a.size = b.size ∧
      (∀ r, EuclidPx3 subWrap8 a b r ↔ r = .ok ⟨255, 0, 0⟩) ∧
      (∀ r, EuclidPx3 subWrap8 b a r ↔ r = .ok ⟨1, 0, 0⟩) := by
  refine ⟨⟨[1, 1], [⟨0, 0, 0⟩]⟩, ⟨[1, 1], [⟨1, 0, 0⟩]⟩, ⟨by decide, by decide, by decide⟩,
    ⟨by decide, by decide, by decide⟩, rfl, fun r => ?_, fun r => ?_⟩
  · rw [euclidPx3_iff _ _ _ (by rfl)]
    have e : (0 - 1 : BitVec 8).toNat = 255 := by decide
    have q : Real.sqrt ((255 : ℝ) ^ 2) = 255 := Real.sqrt_sq (by norm_num)
    simp only [List.zipWith_cons_cons, List.zipWith_nil_left, List.sum_cons, List.sum_nil, subWrap8, e,
      add_zero, Nat.cast_ofNat, q]
    norm_num
  · rw [euclidPx3_iff _ _ _ (by rfl)]
    have e : (1 - 0 : BitVec 8).toNat = 1 := by decide
    simp only [List.zipWith_cons_cons, List.zipWith_nil_left, List.sum_cons, List.sum_nil, subWrap8, e]
    norm_num

/-- `euclidean_distance` of images whose pixels have `n` real channels and that have the same number of
pixels: channel `k` of the result is the distance of the two sequences of channels `k`. -/
theorem C119_multi (n : Nat) (a b : Image (List ℝ)) (h : a.data.length = b.data.length)
    (ha : ∀ p ∈ a.data, p.length = n) (hb : ∀ p ∈ b.data, p.length = n) (r : Res (List ℝ)) :
    EuclidMulti n a b r ↔ r = .ok ((List.range n).map fun k =>
      l2 (a.data.map fun p => p[k]?.getD 0) (b.data.map fun p => p[k]?.getD 0)) := by
  have hlen : ∀ l ∈ List.zipWith (fun p q => (List.zipWith subReal p q).map (· ^ 2)) a.data b.data,
      l.length = n := by
    intro l hl
    obtain ⟨i, hi, rfl⟩ := List.getElem_of_mem hl
    rw [List.getElem_zipWith, List.length_map, List.length_zipWith, ha _ (List.getElem_mem _),
      hb _ (List.getElem_mem _), min_self]
  obtain ⟨k1, k2⟩ := map_zipWith_sum_lists n _ hlen (List.replicate n 0) (by simp)
  have res : ((List.zipWith (fun p q => (List.zipWith subReal p q).map (· ^ 2)) a.data b.data).foldl
      (List.zipWith (· + ·)) (List.replicate n 0)).map Real.sqrt = (List.range n).map fun k =>
      l2 (a.data.map fun p => p[k]?.getD 0) (b.data.map fun p => p[k]?.getD 0) := by
    apply List.ext_getElem
    · rw [List.length_map, k1, List.length_map, List.length_range]
    · intro k hk hk'
      have hkn : k < n := by simpa using hk'
      have e := k2 k hkn
      rw [List.getElem?_eq_getElem (by omega), Option.getD_some] at e
      rw [List.getElem_map, e, List.getElem_map, List.getElem_range, l2, List.zipWith_map,
        List.map_zipWith]
      congr 1
      rw [List.getElem?_replicate, if_pos hkn, Option.getD_some, zero_add]
      congr 1
      apply List.ext_getElem (by simp)
      intro i h1 h2
      rw [List.getElem_zipWith, List.getElem_zipWith]
      have hi1 : i < a.data.length := by simp at h1; omega
      have hi2 : i < b.data.length := by omega
      have la : k < (a.data[i]).length := by rw [ha _ (List.getElem_mem _)]; exact hkn
      have lb : k < (b.data[i]).length := by rw [hb _ (List.getElem_mem _)]; exact hkn
      rw [List.getElem?_map, List.getElem?_zipWith, List.getElem?_eq_getElem la,
        List.getElem?_eq_getElem lb]
      rfl
  unfold EuclidMulti MapReduce2
  simp only [if_neg (not_not.mpr h)]
  constructor
  · rintro ⟨s, ⟨v, rfl, hv⟩, rfl⟩
    rw [stdReduce_eq _ zipAdd_assoc zipAdd_comm hv, Res.ok_bind, res]
  · rintro rfl
    exact ⟨_, ⟨_, rfl, stdReduce_exists _ _ _⟩, by rw [Res.ok_bind, res]⟩

example : (∀ p ∈ [[1, 2, 3, 4]], p.length = 4) ∧ EuclidMulti 1 ⟨[1, 1], [[5]]⟩ ⟨[1, 1], [[2]]⟩ (.ok [3]) := by
  refine ⟨by decide, ?_⟩
  rw [C119_multi 1 _ _ (by rfl) (by simp) (by simp)]
  have : l2 [5] [2] = 3 := by
    rw [l2, Real.sqrt_eq_iff_mul_self_eq (by simp; norm_num) (by norm_num)]
    simp; norm_num
  simp [this]

/-- `euclidean_distance` of two points, for every order in which the differences are computed: the
Euclidean distance of the coordinates after conversion to `double` (so also unsigned coordinates are
safe); `l2` is symmetric, zero only for equal sequences, and satisfies the triangle inequality. -/
theorem C119_point {α : Type} (val : α → ℝ) (order : List Nat) (p q : List α) (h : p.length = q.length)
    (ho : order.Perm (List.range p.length)) :
    euclidPoint val order p q = .ok (l2 (p.map val) (q.map val)) := by
  have hz : (p.zip q).length = p.length := by simp [h]
  rw [euclidPoint, loop_listMap (p.zip q) rfl (fun x => val x.1 - val x.2) _ order _ _ (by simp [h])
    (by rw [hz]; exact ho), Res.ok_bind, foldl_add_eq, zero_add, l2]
  · congr 3
    rw [List.zipWith_map, List.zipWith_map]
    apply List.ext_getElem (by simp)
    intro i h1 h2
    simp [pow_two]
  · intro i hi a ha d hd
    obtain ⟨hlt, e⟩ := List.getElem?_eq_some_iff.mp ha
    have i1 : i < p.length := by omega
    have i2 : i < q.length := by omega
    rw [List.getElem_zip] at e
    subst e
    rw [vget_eq_ok i1, Res.ok_bind, vget_eq_ok i2,
      Res.ok_bind, vset, if_pos (by rw [hd]; exact hlt)]

theorem C119_point_metric (l m n : List ℝ) (h : l.length = m.length) (h' : m.length = n.length) :
    0 ≤ l2 l m ∧ l2 l m = l2 m l ∧ (l2 l m = 0 ↔ l = m) ∧ l2 l n ≤ l2 l m + l2 m n :=
  ⟨l2_nonneg l m, l2_comm l m, l2_zero l m h, l2_triangle l m n h h'⟩

example : euclidPoint (fun k : Nat => (k : ℝ)) [1, 0] [0, 4] [3, 0] = .ok 5 := by
  rw [C119_point _ _ _ _ (by rfl) (by decide)]
  congr 1
  rw [l2, Real.sqrt_eq_iff_mul_self_eq (by simp; norm_num) (by norm_num)]
  simp; norm_num

/-- `manhattan_distance` of colour images (`val` is the value of a channel: the number itself for
`RGB_DOUBLE` and `HSV`, the number between 0 and 255 for `RGB`; images with at least one pixel): different
sizes throw; otherwise the result lists, channel by channel, the sum of the absolute differences; the
result does not depend on the order of the images, and all three sums are zero exactly for equal images. -/
theorem C119_manhattan_colour {C : Type} (zero : C) (val : C → ℝ) (inj : Function.Injective val)
    (a b : Image (Px3 C)) (wa : a.WF) (wb : b.WF) (h0 : 0 < a.size.prod) :
    (a.size ≠ b.size → manhattanPx3 zero val a b = .throw .runtime) ∧
    (a.size = b.size → ∃ x y z, manhattanPx3 zero val a b = .ok [x, y, z] ∧
      manhattanPx3 zero val b a = .ok [x, y, z] ∧
      x = l1 (a.data.map fun p => val p.c0) (b.data.map fun p => val p.c0) ∧
      y = l1 (a.data.map fun p => val p.c1) (b.data.map fun p => val p.c1) ∧
      z = l1 (a.data.map fun p => val p.c2) (b.data.map fun p => val p.c2) ∧
      0 ≤ x ∧ 0 ≤ y ∧ 0 ≤ z ∧ (x = 0 ∧ y = 0 ∧ z = 0 ↔ a = b)) := by
  refine ⟨fun h => by rw [manhattanPx3, if_pos h], fun h => ?_⟩
  have hl : a.data.length = b.data.length := by rw [wa.len, wb.len, h]
  refine ⟨_, _, _, manhattanPx3_ok zero val a b wa wb h h0, ?_, rfl, rfl, rfl, l1_nonneg _ _, l1_nonneg _ _,
    l1_nonneg _ _, ?_⟩
  · rw [manhattanPx3_ok zero val b a wb wa h.symm (h ▸ h0)]
    simp only [l1, zipAbs_comm (b.data.map _)]
  · unfold l1
    rw [zipAbs_zero _ _ (by simpa using hl), zipAbs_zero _ _ (by simpa using hl),
      zipAbs_zero _ _ (by simpa using hl)]
    constructor
    · rintro ⟨h0, h1, h2⟩
      have key : ∀ ch : Px3 C → C, (a.data.map fun p => val (ch p)) = b.data.map (fun p => val (ch p)) →
          a.data.map ch = b.data.map ch := by
        intro ch e
        apply inj.list_map
        rw [List.map_map, List.map_map]
        exact e
      have := px3_data_inj _ _ (key _ h0) (key _ h1) (key _ h2)
      cases a; cases b; simp_all
    · rintro rfl; exact ⟨rfl, rfl, rfl⟩

example := C119_manhattan_colour 0 (fun x : BitVec 8 => (x.toNat : ℝ))
  (fun x y h => BitVec.eq_of_toNat_eq (by simpa using h)) (picture 3 2 fun x y => ⟨BitVec.ofNat 8 x, BitVec.ofNat 8 y, 9⟩)
  (picture 3 2 fun x y => ⟨BitVec.ofNat 8 y, 200, BitVec.ofNat 8 x⟩) (picture_wf ..) (picture_wf ..) (by decide)

/-- The Manhattan distances of colour images satisfy the triangle inequality. -/
theorem C119_manhattan_triangle (l m n : List ℝ) (h : l.length = m.length) (h' : m.length = n.length) :
    l1 l n ≤ l1 l m + l1 m n := zipAbs_triangle l m n h h'

example : Function.Injective (fun x : BitVec 8 => (x.toNat : ℝ)) ∧
    (⟨[1, 1], [⟨1, 2, 3⟩]⟩ : Image RGB).WF ∧ 0 < [1, 1].prod :=
  ⟨fun x y h => BitVec.eq_of_toNat_eq (by simpa using h), ⟨by decide, by decide, by decide⟩, by decide⟩

end TinyDIP.Distance
