import Verif.Lemmas.Samples
import Verif.Lemmas.ImageIter
import Mathlib.Data.List.Nodup

/-!
# Properties C01–C07: construction, addressing, access, iteration, in-place arithmetic
-/

namespace TinyDIP.Props

open TinyDIP Image

variable {α : Type}

/-! ## C01 construction

Full statement: for every size list, a successfully constructed image is well-formed. This is
false for size lists whose product does not fit 64 bits (`C01_overflow_violation`), for ragged
nested vectors (`C01_ragged_violation`) and for the default-constructed image
(`C01_default_violation`); the `_partial` theorems cover everything else. -/

/-- Sizes whose product fits 64 bits: the constructor gives a well-formed image with the
requested sizes in which every pixel is the value-initialised element. -/
theorem C01_ofSizes_partial (zero : α) (sizes : List Nat) (hs : ∀ s ∈ sizes, s < 2 ^ 64)
    (hp : sizes.prod < 2 ^ 64) :
    (ofSizes zero sizes).WF ∧ (ofSizes zero sizes).size = sizes ∧
      ∀ idx, InBounds sizes idx → (ofSizes zero sizes).at' idx = .ok zero := by
  have hl : (ofSizes zero sizes).data.length = sizes.prod := by
    simp [ofSizes, prodW_of_lt hp]
  have wf : (ofSizes zero sizes).WF := ⟨hl, hp, hs⟩
  refine ⟨wf, rfl, fun idx hb => ?_⟩
  rw [wf.at' (show InBounds (ofSizes zero sizes).size idx from hb)]
  congr 1
  simp [ofSizes]

example : (∀ s ∈ [3, 4, 5], s < 2 ^ 64) ∧ [3, 4, 5].prod < 2 ^ 64 := by decide

/-- Data constructors: succeed exactly when the data is non-empty and has one element per
pixel; then the image is well-formed, has the sizes and the data; otherwise they throw. -/
theorem C01_ofData_partial (data : List α) (sizes : List Nat) (hs : ∀ s ∈ sizes, s < 2 ^ 64)
    (hp : sizes.prod < 2 ^ 64) :
    (data ≠ [] ∧ data.length = sizes.prod →
        ∃ im, ofData data sizes = .ok im ∧ im.WF ∧ im.size = sizes ∧ im.data = data) ∧
    (¬ (data ≠ [] ∧ data.length = sizes.prod) → ofData data sizes = .throw .runtime) := by
  constructor
  · rintro ⟨h1, h2⟩
    refine ⟨⟨sizes, data⟩, ?_, ⟨h2, hp, hs⟩, rfl, rfl⟩
    simp [ofData, h1, prodW_of_lt hp, h2]
  · intro h
    by_cases h1 : data = []
    · simp [ofData, h1]
    · have h2 : data.length ≠ sizes.prod := fun h2 => h ⟨h1, h2⟩
      simp [ofData, h1, prodW_of_lt hp, h2]

example : ([1, 2, 3, 4, 5, 6] : List Nat) ≠ [] ∧ [1, 2, 3, 4, 5, 6].length = [2, 3].prod := by
  decide

/-- The rvalue data constructor: like the others but accepts empty data for an empty image. -/
theorem C01_ofDataRvalue_partial (data : List α) (sizes : List Nat) (hs : ∀ s ∈ sizes, s < 2 ^ 64)
    (hp : sizes.prod < 2 ^ 64) :
    (data.length = sizes.prod →
        ∃ im, ofDataRvalue data sizes = .ok im ∧ im.WF ∧ im.size = sizes ∧ im.data = data) ∧
    (data.length ≠ sizes.prod → ofDataRvalue data sizes = .throw .runtime) := by
  constructor
  · intro h2
    exact ⟨⟨sizes, data⟩, by simp [ofDataRvalue, prodW_of_lt hp, h2], ⟨h2, hp, hs⟩, rfl, rfl⟩
  · intro h; simp [ofDataRvalue, prodW_of_lt hp, h]

example : ∃ im, ofDataRvalue [10, 11, 12, 13, 14, 15] [3, 2] = .ok im ∧ im.WF ∧ im.size = [3, 2] ∧
    im.data = [10, 11, 12, 13, 14, 15] :=
  (C01_ofDataRvalue_partial [10, 11, 12, 13, 14, 15] [3, 2] (by decide) (by decide)).1 rfl

/-- Nested vectors with rows of equal length: pixel `(x, y)` is element `x` of row `y`; an
empty outer vector is rejected. -/
theorem C01_ofRows_partial (rows : List (List α)) (w : Nat) (hr : ∀ r ∈ rows, r.length = w)
    (hw : w < 2 ^ 64) (hh : rows.length < 2 ^ 64) (hp : w * rows.length < 2 ^ 64) :
    (rows = [] → ofRows rows = .throw .runtime) ∧
    (rows ≠ [] → ∃ im, ofRows rows = .ok im ∧ im.WF ∧ im.size = [w, rows.length] ∧
      ∀ x y v, x < w → (rows[y]?.bind fun r => r[x]?) = some v → im.at2 x y = .ok v) := by
  have hget : ∀ (rows : List (List α)), (∀ r ∈ rows, r.length = w) → ∀ x y, x < w →
      rows.flatten[x + w * y]? = (rows[y]?.bind fun r => r[x]?) := by
    intro rows
    induction rows with
    | nil => intro _ x y _; simp
    | cons r rows ih =>
      intro hr x y hx
      have hrl : r.length = w := hr r (by simp)
      rw [List.flatten_cons]
      cases y with
      | zero => rw [List.getElem?_append_left (by simp [hrl, hx])]; simp
      | succ y =>
        rw [List.getElem?_append_right (by rw [hrl, Nat.mul_add]; omega)]
        have : x + w * (y + 1) - r.length = x + w * y := by rw [hrl, Nat.mul_add]; omega
        rw [this, ih (fun r hr' => hr r (by simp [hr'])) x y hx]; simp
  have hlen : ∀ (rows : List (List α)), (∀ r ∈ rows, r.length = w) →
      rows.flatten.length = w * rows.length := by
    intro rows
    induction rows with
    | nil => simp
    | cons r rows ih =>
      intro hr
      rw [List.flatten_cons, List.length_append, hr r (by simp),
        ih (fun r hr' => hr r (by simp [hr'])), List.length_cons, Nat.mul_add]; omega
  constructor
  · rintro rfl; rfl
  · intro hne
    obtain ⟨r, rs, rfl⟩ := List.exists_cons_of_ne_nil hne
    have hrl : r.length = w := hr r (by simp)
    have hl := hlen _ hr
    have wf : (⟨[w, (r :: rs).length], (r :: rs).flatten⟩ : Image α).WF :=
      ⟨by rw [hl]; simp, by simpa using hp, by intro s hs; simp at hs; rcases hs with rfl | rfl <;> simpa⟩
    refine ⟨_, by simp only [ofRows, hrl], wf, rfl, fun x y v hx hv => ?_⟩
    have hy : y < (r :: rs).length := by
      by_contra hc
      rw [List.getElem?_eq_none (by omega)] at hv; simp at hv
    have hb : InBounds [w, (r :: rs).length] [x, y] := inBounds2.mpr ⟨hx, hy⟩
    rw [Image.at2, wf.at' hb]
    congr 1
    have h1 := hget _ hr x y hx
    rw [hv, List.getElem?_eq_some_iff] at h1
    obtain ⟨h2, h3⟩ := h1
    rw [← h3]; rfl

example : (∀ r ∈ [[1, 2, 3], [4, 5, 6]], r.length = 3) := by decide

/-- Violation: a size list whose product overflows 64 bits is accepted, the image has no
storage, and the *checked* accessor then reads outside it. -/
theorem C01_overflow_violation :
    (ofSizes (0 : Nat) [2 ^ 32, 2 ^ 32]).data.length = 0 ∧
      ¬ (ofSizes (0 : Nat) [2 ^ 32, 2 ^ 32]).WF ∧
      (ofSizes (0 : Nat) [2 ^ 32, 2 ^ 32]).at2 0 0 = .ub := by
  refine ⟨by decide, fun h => absurd h.fits (by decide), by decide⟩

/-- Violation: ragged rows are accepted; a pixel inside the reported size is not stored. -/
theorem C01_ragged_violation :
    ∃ im : Image Nat, ofRows [[1, 2], [3]] = .ok im ∧ im.size = [2, 2] ∧ im.at2 1 1 = .ub :=
  ⟨_, rfl, rfl, by decide⟩

/-- Violation: a default-constructed image counts one pixel but stores none, so the checked
`set(0)` is undefined behaviour. -/
theorem C01_default_violation :
    (Image.default : Image Nat).count = 1 ∧ (Image.default : Image Nat).setIndex 0 7 = .ub := by
  decide

/-! ## C02 addressing is a bijection -/

/-- In every well-formed image, each in-bounds coordinate tuple addresses a stored element, the
position is the row-major one (first coordinate fastest), different tuples address different
elements, and every stored element is addressed. -/
theorem C02_addressing (im : Image α) (wf : im.WF) :
    (∀ idx, InBounds im.size idx → ∃ p, im.calculateIndex idx = .ok p ∧ p < im.data.length ∧
        p = rowMajor im.size idx ∧ im.at' idx = im.get p ∧ im.get p ≠ .ub) ∧
    (∀ i j p, InBounds im.size i → InBounds im.size j → im.calculateIndex i = .ok p →
        im.calculateIndex j = .ok p → i = j) ∧
    (∀ p, p < im.data.length → ∃ idx, InBounds im.size idx ∧ im.calculateIndex idx = .ok p) := by
  refine ⟨fun idx hb => ?_, fun i j p hi hj h1 h2 => ?_, fun p hp => ?_⟩
  · refine ⟨_, wf.calculateIndex hb, wf.rowMajor_lt hb, rfl, ?_, ?_⟩
    · rw [wf.at' hb, Image.get, vget_eq_ok (wf.rowMajor_lt hb)]
    · rw [Image.get, vget_eq_ok (wf.rowMajor_lt hb)]; simp
  · rw [wf.calculateIndex hi] at h1
    rw [wf.calculateIndex hj, ← h1] at h2
    injection h2 with h2
    exact rowMajor_inj hi hj h2.symm
  · rw [wf.len] at hp
    obtain ⟨idx, hb, hr⟩ := rowMajor_surj im.size p hp
    exact ⟨idx, hb, by rw [wf.calculateIndex hb, hr]⟩

example : sample.WF ∧ InBounds sample.size [1, 2, 1] :=
  ⟨sample_wf, by simp [InBounds, sample]⟩

/-- Consecutive positions along the first coordinate are adjacent in memory. -/
theorem C02_first_coordinate_fastest (im : Image α) (wf : im.WF) (i : Nat) (rest : List Nat)
    (h1 : InBounds im.size (i :: rest)) (h2 : InBounds im.size ((i + 1) :: rest)) (p : Nat)
    (hp : im.calculateIndex (i :: rest) = .ok p) :
    im.calculateIndex ((i + 1) :: rest) = .ok (p + 1) := by
  rw [wf.calculateIndex h1] at hp
  rw [wf.calculateIndex h2]
  injection hp with hp
  rw [← hp]
  cases hsz : im.size with
  | nil => rw [hsz] at h1; exact absurd h1 (by simp [InBounds])
  | cons s ss => simp [rowMajor]; omega

example : InBounds sample.size [0, 2, 1] ∧ InBounds sample.size [1, 2, 1] := by
  simp [InBounds, sample]

/-! ## C03 frame law of writes -/

/-- Writing at in-bounds coordinates succeeds; the written pixel reads back as the new value,
every other coordinate tuple reads as before, sizes and well-formedness are kept. -/
theorem C03_write_frame (im : Image α) (wf : im.WF) (idx : List Nat) (v : α)
    (hb : InBounds im.size idx) :
    ∃ im', im.setAt idx v = .ok im' ∧ im'.WF ∧ im'.size = im.size ∧ im'.at' idx = .ok v ∧
      ∀ j, j ≠ idx → im'.at' j = im.at' j := by
  refine ⟨_, wf.setAt v hb, wf.set_wf _ v, rfl, ?_, fun j hj => ?_⟩
  · rw [(wf.set_wf _ v).at' (show InBounds _ idx from hb)]; simp
  · by_cases hjb : InBounds im.size j
    · rw [(wf.set_wf _ v).at' (show InBounds _ j from hjb), wf.at' hjb]
      congr 1
      have hne : rowMajor im.size idx ≠ rowMajor im.size j :=
        fun he => hj (rowMajor_inj hb hjb he).symm
      simp [hne]
    · by_cases hl : j.length = im.size.length
      · simp [Image.at', Image.checkBoundary, hl, checkEach_throw hl hjb]
      · simp [Image.at', Image.checkBoundary, hl]

example : ∃ im', sample.setAt [1, 2, 1] 77 = .ok im' ∧ im'.WF ∧ im'.size = sample.size ∧
    im'.at' [1, 2, 1] = .ok 77 ∧ ∀ j, j ≠ [1, 2, 1] → im'.at' j = sample.at' j :=
  C03_write_frame sample sample_wf [1, 2, 1] 77 (by simp [InBounds, sample])

/-- The unchecked accessors (`operator[]`, `at_without_boundary_check`) behave like the checked
ones on in-bounds coordinates. -/
theorem C03_unchecked_agrees (im : Image α) (wf : im.WF) (idx : List Nat) (v : α)
    (hb : InBounds im.size idx) :
    im.atUnchecked idx = im.at' idx ∧ im.setAtUnchecked idx v = im.setAt idx v ∧
      im.atRangeUnchecked idx = im.at' idx ∧ im.setAtRangeUnchecked idx v = im.setAt idx v := by
  refine ⟨by rw [wf.atUnchecked hb, wf.at' hb], by rw [wf.setAtUnchecked v hb, wf.setAt v hb], ?_, ?_⟩
  · rw [wf.at' hb]; simp [Image.atRangeUnchecked, wf.calculateIndex hb, vget_eq_ok (wf.rowMajor_lt hb)]
  · rw [wf.setAt v hb]
    simp [Image.setAtRangeUnchecked, wf.calculateIndex hb, vset_eq_ok v (wf.rowMajor_lt hb)]

example : sample.atUnchecked [1, 2, 1] = sample.at' [1, 2, 1] :=
  (C03_unchecked_agrees sample sample_wf [1, 2, 1] 77 (by simp [InBounds, sample])).1

/-- Writes at different coordinates commute; a second write at the same coordinates wins. -/
theorem C03_writes_commute (im : Image α) (wf : im.WF) (i j : List Nat) (a b : α)
    (hi : InBounds im.size i) (hj : InBounds im.size j) :
    (i ≠ j → (im.setAt i a >>= fun m => m.setAt j b) = (im.setAt j b >>= fun m => m.setAt i a)) ∧
    (im.setAt i a >>= fun m => m.setAt i b) = im.setAt i b := by
  constructor
  · intro hij
    have hne : rowMajor im.size i ≠ rowMajor im.size j := fun he => hij (rowMajor_inj hi hj he)
    rw [wf.setAt a hi, wf.setAt b hj]
    simp only [Res.ok_bind]
    rw [(wf.set_wf _ a).setAt b hj, (wf.set_wf _ b).setAt a hi]
    simp only
    rw [List.set_comm _ _ hne]
  · rw [wf.setAt a hi, wf.setAt b hi]
    simp only [Res.ok_bind]
    rw [(wf.set_wf _ a).setAt b hi]; simp

example : sample.WF ∧ InBounds sample.size [1, 0, 1] ∧ InBounds sample.size [0, 2, 0] ∧
    ([1, 0, 1] : List Nat) ≠ [0, 2, 0] :=
  ⟨sample_wf, by simp [InBounds, sample], by simp [InBounds, sample], by decide⟩

/-! ## C04 checked access is memory safe -/

/-- The variadic `at` of a well-formed image, for every coordinate tuple of every length:
in-bounds tuples succeed, a wrong number of coordinates throws `runtime_error`, anything else
throws `out_of_range`; undefined behaviour never happens. -/
theorem C04_at_safe (im : Image α) (wf : im.WF) (idx : List Nat) (v : α) :
    (InBounds im.size idx → (∃ a, im.at' idx = .ok a) ∧ ∃ im', im.setAt idx v = .ok im') ∧
    (idx.length ≠ im.size.length →
      im.at' idx = .throw .runtime ∧ im.setAt idx v = .throw .runtime) ∧
    (idx.length = im.size.length → ¬ InBounds im.size idx →
      im.at' idx = .throw .outOfRange ∧ im.setAt idx v = .throw .outOfRange) := by
  refine ⟨fun hb => ⟨⟨_, wf.at' hb⟩, ⟨_, wf.setAt v hb⟩⟩, fun hl => ?_, fun hl hb => ?_⟩
  · simp [Image.at', Image.setAt, Image.checkBoundary, hl]
  · simp [Image.at', Image.setAt, Image.checkBoundary, hl, checkEach_throw hl hb]

-- A location of the right length outside a 2 × 3 × 2 image, and one of the wrong length.
example : sample.at' [1, 3, 1] = .throw .outOfRange ∧ sample.at' [1, 2] = .throw .runtime :=
  ⟨((C04_at_safe sample sample_wf [1, 3, 1] 77).2.2 rfl (by simp [InBounds, sample])).1,
    ((C04_at_safe sample sample_wf [1, 2] 77).2.1 (by decide)).1⟩

/-- `set(tuple, value)`: throws for a wrong number of coordinates, returns `false` and leaves the
image unchanged out of bounds, and otherwise writes like `at` and returns `true`. -/
theorem C04_setTuple_safe (im : Image α) (wf : im.WF) (loc : List Nat) (v : α) :
    (loc.length ≠ im.size.length → im.setTuple loc v = .throw .runtime) ∧
    (loc.length = im.size.length → ¬ InBounds im.size loc → im.setTuple loc v = .ok (im, false)) ∧
    (InBounds im.size loc →
      ∃ im', im.setTuple loc v = .ok (im', true) ∧ im.setAt loc v = .ok im') := by
  refine ⟨fun hl => by simp [Image.setTuple, hl], fun hl hb => ?_, fun hb => ?_⟩
  · have : ¬ Image.checkTupleEach im.size loc = true := by rw [checkTupleEach_iff hl]; exact hb
    simp [Image.setTuple, hl, this]
  · have := (checkTupleEach_iff hb.length_eq).mpr hb
    refine ⟨_, ?_, wf.setAt v hb⟩
    simp [Image.setTuple, hb.length_eq, this, wf.calculateIndex hb,
      vset_eq_ok v (wf.rowMajor_lt hb)]

example : sample.setTuple [1, 3, 1] 77 = .ok (sample, false) ∧ sample.setTuple [1, 2] 77 = .throw .runtime :=
  ⟨(C04_setTuple_safe sample sample_wf [1, 3, 1] 77).2.1 rfl (by simp [InBounds, sample]),
    (C04_setTuple_safe sample sample_wf [1, 2] 77).1 (by decide)⟩

/-- `set(index)`: throws exactly when the index is not below the number of pixels, otherwise
replaces that element. -/
theorem C04_setIndex_safe (im : Image α) (wf : im.WF) (i : Nat) (v : α) :
    (i < im.data.length → im.setIndex i v = .ok ⟨im.size, im.data.set i v⟩) ∧
    (¬ i < im.data.length → im.setIndex i v = .throw .outOfRange) := by
  have hc : im.count = im.data.length := by rw [Image.count, prodW_of_lt wf.fits, wf.len]
  constructor
  · intro h
    simp [Image.setIndex, hc, Nat.not_le.mpr h, vset_eq_ok v h]
  · intro h
    simp [Image.setIndex, hc, Nat.not_lt.mp h]

example : sample.setIndex 5 77 = .ok ⟨sample.size, sample.data.set 5 77⟩ ∧
    sample.setIndex 12 77 = .throw .outOfRange :=
  ⟨(C04_setIndex_safe sample sample_wf 5 77).1 (by decide), (C04_setIndex_safe sample sample_wf 12 77).2 (by decide)⟩

/-- The range overload of `at` with a matching number of indices is safe. Missing: it does not
check the number of indices (`C04_atRange_violation`). -/
theorem C04_atRange_partial (im : Image α) (wf : im.WF) (idx : List Nat)
    (hl : idx.length = im.size.length) :
    (InBounds im.size idx → im.atRange idx = im.at' idx) ∧
    (¬ InBounds im.size idx → im.atRange idx = .throw .outOfRange) := by
  constructor
  · intro hb
    rw [wf.at' hb]
    simp [Image.atRange, checkEach_ok hb, wf.calculateIndex hb, vget_eq_ok (wf.rowMajor_lt hb)]
  · intro hb; simp [Image.atRange, checkEach_throw hl hb]

example : ([1, 2, 1] : List Nat).length = sample.size.length := by decide

/-- Violation: the range overload of `at` silently accepts too few indices and runs into
undefined behaviour for too many, where the variadic overload throws. -/
theorem C04_atRange_violation :
    sample.WF ∧ sample.atRange [1] = .ok 1 ∧ sample.atRange [1, 2, 1, 0] = .ub ∧
      sample.at' [1] = .throw .runtime ∧ sample.at' [1, 2, 1, 0] = .throw .runtime :=
  ⟨sample_wf, by decide, by decide, by decide, by decide⟩

/-! ## C05 linear indices -/

/-- For every linear index of a well-formed image, `linear_index_to_indices` returns in-bounds
coordinates, and the pixel there is the element with that index. -/
theorem C05_linear_index (im : Image α) (wf : im.WF) (n : Nat) (hn : n < im.data.length) :
    ∃ idx, linearToIndices n im.size = .ok idx ∧ InBounds im.size idx ∧
      im.at' idx = im.get n ∧ im.calculateIndex idx = .ok n := by
  rw [wf.len] at hn
  obtain ⟨idx, h1, h2, h3⟩ := linearToIndicesGo_spec n im.size 1 (by decide) (by simpa using hn)
    (by simpa [W] using wf.fits)
  rw [Nat.div_one] at h3
  refine ⟨idx, h1, h2, ?_, by rw [wf.calculateIndex h2, h3]⟩
  rw [wf.at' h2, Image.get, vget_eq_ok (by rw [wf.len]; exact hn)]
  simp [h3]

example : ∃ idx, linearToIndices 7 sample.size = .ok idx ∧ InBounds sample.size idx ∧
    sample.at' idx = sample.get 7 ∧ sample.calculateIndex idx = .ok 7 :=
  C05_linear_index sample sample_wf 7 (by decide)

/-- The overload that takes the strides agrees, when the strides are those of the image. -/
theorem C05_linear_index_strides (im : Image α) (wf : im.WF) (n : Nat) (hn : n < im.data.length) :
    linearToIndicesStrides n ((List.range im.dim).map im.stride) im.size
      = linearToIndices n im.size := by
  have hpos : 0 < im.size.prod := by rw [← wf.len]; omega
  have h := linearToIndicesStrides_eq n im.size [] (by simpa [W] using wf.fits) (by simpa using hpos)
  have hst : ∀ k, im.stride k = (im.size.take k).prod := by
    intro k
    have := foldl_wmul (im.size.take k) 1
    rw [show (1 % W) = 1 from rfl] at this
    rw [Image.stride, this, Nat.one_mul, Nat.mod_eq_of_lt]
    refine Nat.lt_of_le_of_lt ?_ wf.fits
    conv_rhs => rw [← List.take_append_drop k im.size, List.prod_append]
    apply Nat.le_mul_of_pos_right
    rcases Nat.eq_zero_or_pos (im.size.drop k).prod with h0 | h0
    · rw [← List.take_append_drop k im.size, List.prod_append, h0] at hpos; simp at hpos
    · exact h0
  simp only [List.nil_append, List.length_nil, Nat.zero_add, List.prod_nil] at h
  rw [linearToIndices, ← h, Image.dim]
  congr 1
  exact List.map_congr_left fun k _ => hst k

example : linearToIndicesStrides 7 ((List.range sample.dim).map sample.stride) sample.size
    = linearToIndices 7 sample.size :=
  C05_linear_index_strides sample sample_wf 7 (by decide)

/-- Coordinates converted to a position and back are unchanged. -/
theorem C05_round_trip (im : Image α) (wf : im.WF) (idx : List Nat) (hb : InBounds im.size idx)
    (p : Nat) (hp : im.calculateIndex idx = .ok p) : linearToIndices p im.size = .ok idx := by
  rw [wf.calculateIndex hb] at hp
  injection hp with hp
  obtain ⟨idx', h1, h2, h3⟩ := linearToIndicesGo_spec p im.size 1 (by decide)
    (by rw [← hp]; simpa using rowMajor_lt hb) (by simpa [W] using wf.fits)
  rw [Nat.div_one, ← hp] at h3
  rw [linearToIndices, h1, rowMajor_inj h2 hb h3]

example : sample.WF ∧ 11 < sample.data.length := ⟨sample_wf, by decide⟩

/-! ## C06 pixel iteration -/

/-- Iterating over a 2-D image with positive width ends, visits every `(x, y)` exactly once in row
order, and at `(x, y)` yields the pixel `at(x, y)`. -/
theorem C06_pixel_iteration (im : Image α) (w h : Nat) (f : Nat → Nat → α) (s : im.Shows w h f)
    (hw : 0 < w) :
    im.pixels (w * h + 1) = some (.ok ((List.range h).flatMap fun y =>
      (List.range w).map fun x => (f x y, x + w * y, x, y))) := by
  rw [Image.pixels, if_neg (by rw [s.dim]; simp)]
  rcases Nat.eq_zero_or_pos h with rfl | hh
  · have : im.pixBegin = im.pixEnd := by
      simp [Image.pixBegin, Image.pixEnd, s.len, s.height]
    rw [Image.pixLoop, if_pos this]; simp
  · have := pixLoop_spec s hw (w * h) 0 0 hw hh (by simp)
    rw [visitsFrom_zero f w h hh] at this
    simpa [Image.pixBegin, s.width] using this

example : sample2.pixels 7 = some (.ok ((List.range 2).flatMap fun y =>
    (List.range 3).map fun x => (10 + x + 3 * y, x + 3 * y, x, y))) :=
  C06_pixel_iteration sample2 3 2 _ sample2_shows (by decide)

/-- No coordinate pair is visited twice and all pairs in bounds are visited. -/
theorem C06_each_once (im : Image α) (w h : Nat) (f : Nat → Nat → α) (s : im.Shows w h f)
    (hw : 0 < w) :
    ∃ visits, im.pixels (w * h + 1) = some (.ok visits) ∧
      (visits.map fun v => (v.2.2.1, v.2.2.2)).Nodup ∧
      ∀ x y, (∃ v p, (v, p, x, y) ∈ visits) ↔ x < w ∧ y < h := by
  refine ⟨_, C06_pixel_iteration im w h f s hw, ?_, ?_⟩
  · rw [List.map_flatMap]
    simp only [List.map_map, Function.comp_def]
    rw [List.nodup_flatMap]
    constructor
    · intro y _
      exact List.Nodup.map (fun a b hab => by simpa using hab) List.nodup_range
    · refine List.Pairwise.imp ?_ (List.nodup_range (n := h))
      intro a b hab
      simp only [Function.onFun]
      intro p hp hq
      simp at hp hq
      obtain ⟨_, _, rfl⟩ := hp
      obtain ⟨_, _, he⟩ := hq
      simp at he; omega
  · intro x y
    simp only [List.mem_flatMap, List.mem_map, List.mem_range, Prod.mk.injEq]
    constructor
    · rintro ⟨v, p, b, hb, a, ha, _, _, rfl, rfl⟩; exact ⟨ha, hb⟩
    · rintro ⟨hx, hy⟩; exact ⟨_, _, y, hy, x, hx, rfl, rfl, rfl, rfl⟩

example := C06_each_once sample2 3 2 _ sample2_shows (by decide)

/-- Images that are not two-dimensional are rejected. -/
theorem C06_not_2d (im : Image α) (fuel : Nat) (hd : im.dim ≠ 2) :
    im.pixels fuel = some (.throw .logic) := by
  simp [Image.pixels, hd]

example : (⟨[2, 1, 2], [1, 2, 3, 4]⟩ : Image Nat).pixels 9 = some (.throw .logic) := C06_not_2d _ _ (by decide)

/-- The excluded case is a violation: an image of width 0 and positive height is well-formed, but
iterating over it dereferences the end iterator at once. -/
theorem C06_zero_width_violation :
    (ofSizes (0 : Nat) [0, 3]).WF ∧ (ofSizes (0 : Nat) [0, 3]).pixels 1 = some .ub :=
  ⟨⟨by decide, by decide, by decide⟩, by decide⟩

example : sample2.Shows 3 2 (fun x y => 10 + x + 3 * y) ∧ 0 < 3 := ⟨sample2_shows, by decide⟩

/-! ## C07 in-place arithmetic -/

/-- Same sizes: the result has the sizes of the left operand and each pixel is the operation
applied to the two pixels at the same coordinates. Different sizes: an exception (and the left
operand is not modified, since nothing is written before the check). -/
theorem C07_opAssign (f : α → α → α) (a b : Image α) (wa : a.WF) (wb : b.WF) :
    (a.size ≠ b.size → opAssign f a b = .throw .runtime) ∧
    (a.size = b.size → ∃ c, opAssign f a b = .ok c ∧ c.WF ∧ c.size = a.size ∧
      ∀ idx va vb, a.at' idx = .ok va → b.at' idx = .ok vb → c.at' idx = .ok (f va vb)) := by
  constructor
  · intro h
    simp [opAssign, checkSizeSame, h.symm]
  · intro h
    have hlen : a.data.length = b.data.length := by rw [wa.len, wb.len, h]
    have wc : (⟨a.size, List.zipWith f a.data b.data⟩ : Image α).WF :=
      ⟨by simp [← hlen, wa.len], wa.fits, wa.sizes⟩
    refine ⟨⟨a.size, List.zipWith f a.data b.data⟩, ?_, wc, rfl, ?_⟩
    · simp only [opAssign, checkSizeSame, h.symm, ne_eq, not_true, if_false,
        stdTransform2_eq f _ _ hlen]
    intro idx va vb ha hb
    have hbnd : InBounds a.size idx := inBounds_of_at'_ok ha
    have hbnd' : InBounds b.size idx := h ▸ hbnd
    rw [wa.at' hbnd] at ha
    rw [wb.at' hbnd'] at hb
    injection ha with ha
    injection hb with hb
    rw [wc.at' (show InBounds _ idx from hbnd)]
    simp only [List.getElem_zipWith, ← ha, ← hb, h]

-- Two 3 × 2 pictures can be combined; a 3 × 2 and a 2 × 3 × 2 picture cannot.
example : (∃ c, opAssign (· + ·) sample2 sample2 = .ok c ∧ c.WF ∧ c.size = sample2.size ∧
      ∀ idx va vb, sample2.at' idx = .ok va → sample2.at' idx = .ok vb → c.at' idx = .ok (va + vb)) ∧
    opAssign (· + ·) sample2 sample = .throw .runtime :=
  ⟨(C07_opAssign (· + ·) sample2 sample2 sample2_shows.wf sample2_shows.wf).2 rfl,
    (C07_opAssign (· + ·) sample2 sample sample2_shows.wf sample_wf).1 (by decide)⟩

/-- For 8-bit (wrap-around) pixels `a += b` followed by `-= b` restores `a`. -/
theorem C07_add_sub_restores (a b : Image (BitVec 8)) (wa : a.WF) (wb : b.WF)
    (h : a.size = b.size) :
    (opAssign (· + ·) a b >>= fun c => opAssign (· - ·) c b) = .ok a := by
  have hlen : a.data.length = b.data.length := by rw [wa.len, wb.len, h]
  have key : ∀ (l m : List (BitVec 8)), l.length = m.length →
      List.zipWith (· - ·) (List.zipWith (· + ·) l m) m = l := by
    intro l
    induction l with
    | nil => intro m hm; simp
    | cons x xs ih =>
      intro m hm
      cases m with
      | nil => simp at hm
      | cons y ys => simp [ih ys (by simpa using hm), BitVec.add_sub_cancel]
  have h1 : opAssign (· + ·) a b = .ok ⟨a.size, List.zipWith (· + ·) a.data b.data⟩ := by
    simp [opAssign, checkSizeSame, h, stdTransform2_eq _ _ _ hlen]
  rw [h1, Res.ok_bind]
  have hlen2 : (List.zipWith (· + ·) a.data b.data).length = b.data.length := by simp [hlen]
  simp [opAssign, checkSizeSame, h, stdTransform2_eq _ _ _ hlen2, key _ _ hlen]
  cases a; simp_all

example := C07_add_sub_restores (picture 3 2 fun x y => BitVec.ofNat 8 (200 + x + 3 * y))
  (picture 3 2 fun x y => BitVec.ofNat 8 (100 + x * y)) (picture_wf ..) (picture_wf ..) rfl

/-- `a + b = b + a` for commutative element addition. -/
theorem C07_add_comm (f : α → α → α) (hf : ∀ x y, f x y = f y x) (a b : Image α) (wa : a.WF)
    (wb : b.WF) : opAssign f a b = opAssign f b a := by
  by_cases h : a.size = b.size
  · have hlen : a.data.length = b.data.length := by rw [wa.len, wb.len, h]
    have h1 := stdTransform2_eq f a.data b.data hlen
    have h2 := stdTransform2_eq f b.data a.data hlen.symm
    simp [opAssign, checkSizeSame, h, h1, h2]
    rw [List.zipWith_comm]; congr 1; funext x y; exact hf y x
  · simp [opAssign, checkSizeSame, h, Ne.symm h]

example : sample.WF ∧ sample.size = sample.size := ⟨sample_wf, rfl⟩

end TinyDIP.Props
