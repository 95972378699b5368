import Verif.Lemmas.Samples
import Verif.Model.Generate
import Verif.Spec.Generate
import Verif.Props.Pixelwise
import Verif.Props.Arith
import Verif.Props.Core

/-!
# Properties C121 (images made from nothing) and C122 (sign and size tests)
-/

namespace TinyDIP.Props

open TinyDIP Image Gen
open TinyDIP.Spec.Gen (stateAfter call)

variable {α β σ : Type}

/-! ## C121 -/

theorem draws_spec (gen : σ → α × σ) (n : Nat) (s : σ) :
    (draws gen n s).1 = (List.range n).map (call gen s) ∧ (draws gen n s).2 = stateAfter gen s n := by
  have hs : ∀ k (s : σ), stateAfter gen (gen s).2 k = stateAfter gen s (k + 1) := by
    intro k
    induction k with
    | zero => intro s; rfl
    | succ k ih => intro s; rw [stateAfter, ih, stateAfter]; rfl
  induction n generalizing s with
  | zero => simp [draws, stateAfter]
  | succ n ih =>
    obtain ⟨h1, h2⟩ := ih (gen s).2
    constructor
    · simp only [draws]
      rw [List.range_succ_eq_map, List.map_cons, List.map_map, h1]
      refine congrArg₂ List.cons rfl (List.map_congr_left fun k _ => ?_)
      simp only [call, Function.comp, hs]
    · simp only [draws]
      rw [h2, hs]

theorem toInt32_of_lt {n : Nat} (h : n < 2 ^ 31) : toInt32 n = n := by
  unfold toInt32; omega

theorem prod_pos_of {sizes : List Nat} (hpos : ∀ n ∈ sizes, 0 < n) : 0 < sizes.prod := by
  induction sizes with
  | nil => simp
  | cons n ns ih =>
    rw [List.prod_cons]
    exact Nat.mul_pos (hpos n (by simp)) (ih fun m hm => hpos m (by simp [hm]))

theorem mem_le_prod {sizes : List Nat} (hpos : ∀ n ∈ sizes, 0 < n) {n : Nat} (hn : n ∈ sizes) :
    n ≤ sizes.prod := by
  induction sizes with
  | nil => simp at hn
  | cons m ns ih =>
    have h2 : ∀ k ∈ ns, 0 < k := fun k hk => hpos k (by simp [hk])
    rw [List.prod_cons]
    rcases List.mem_cons.mp hn with rfl | hn
    · exact Nat.le_mul_of_pos_right _ (prod_pos_of h2)
    · exact (ih h2 hn).trans (Nat.le_mul_of_pos_left _ (hpos m (by simp)))

theorem intCount_go (sizes : List Nat) (hpos : ∀ n ∈ sizes, 0 < n) (a : Nat) (h : a * sizes.prod < 2 ^ 31) :
    sizes.foldl (fun acc (s : Nat) => toInt32 (acc * (s : Int))) (a : Int) = ((a * sizes.prod : Nat) : Int) := by
  induction sizes generalizing a with
  | nil => simp
  | cons s ss ih =>
    have hp : 0 < ss.prod := prod_pos_of fun n hn => hpos n (by simp [hn])
    rw [List.prod_cons, ← mul_assoc] at h
    have hlt : a * s < 2 ^ 31 := lt_of_le_of_lt (Nat.le_mul_of_pos_right _ hp) h
    rw [List.foldl_cons, ← Nat.cast_mul, toInt32_of_lt hlt, ih (fun n hn => hpos n (by simp [hn])) _ h,
      List.prod_cons, mul_assoc]

theorem intCount_eq (sizes : List Nat) (hpos : ∀ n ∈ sizes, 0 < n) (h : sizes.prod < 2 ^ 31) :
    intCount sizes = sizes.prod := by
  have := intCount_go sizes hpos 1 (by simpa using h)
  simpa [intCount] using this

theorem generate_ok (gen : σ → α × σ) (sizes : List Nat) (s : σ) (hpos : ∀ n ∈ sizes, 0 < n)
    (hp : sizes.prod < 2 ^ 31) :
    generate gen sizes s =
      .ok (⟨sizes, (List.range sizes.prod).map (call gen s)⟩, stateAfter gen s sizes.prod) := by
  have hc := intCount_eq sizes hpos hp
  obtain ⟨h1, h2⟩ := draws_spec gen sizes.prod s
  rw [generate, if_neg (by rw [hc]; omega), hc]
  simp only [Int.toNat_natCast]
  rw [h1, h2, ofData_ok (by simp) (by omega) (prod_pos_of hpos), Res.ok_bind]

theorem generated_wf (f : Nat → α) (sizes : List Nat) (hpos : ∀ n ∈ sizes, 0 < n)
    (hp : sizes.prod < 2 ^ 31) : (⟨sizes, (List.range sizes.prod).map f⟩ : Image α).WF :=
  ⟨by simp, by simp only; omega, fun n hn => lt_of_le_of_lt (mem_le_prod hpos hn) (by omega)⟩

/-- `generate(gen, sizes...)`. Full statement: for every size that an image can have. That fails from
2^31 pixels on, see the violations.

The generator is called once per pixel; the pixel at an index is the result of the call whose number is
the position of the pixel in row-major order; for two dimensions, call `x + width * y`. -/
theorem C121_generate_partial (gen : σ → α × σ) (sizes : List Nat) (s : σ) (hpos : ∀ n ∈ sizes, 0 < n)
    (hp : sizes.prod < 2 ^ 31) :
    ∃ im, generate gen sizes s = .ok (im, stateAfter gen s sizes.prod) ∧ im.WF ∧ im.size = sizes ∧
      (∀ idx, InBounds sizes idx → im.at' idx = .ok (call gen s (rowMajor sizes idx))) ∧
      ∀ w h x y, sizes = [w, h] → x < w → y < h → im.at2 x y = .ok (call gen s (x + w * y)) := by
  have wf := generated_wf (call gen s) sizes hpos hp
  have hat : ∀ idx, InBounds sizes idx →
      (⟨sizes, (List.range sizes.prod).map (call gen s)⟩ : Image α).at' idx =
        .ok (call gen s (rowMajor sizes idx)) := by
    intro idx hi
    rw [wf.at' (show InBounds _ idx from hi)]
    simp
  refine ⟨_, generate_ok gen sizes s hpos hp, wf, rfl, hat, ?_⟩
  rintro w h x y rfl hx hy
  rw [Image.at2, hat [x, y] (inBounds2.mpr ⟨hx, hy⟩)]
  simp [rowMajor]

example := C121_generate_partial (fun n : Nat => (n * n, n + 1)) [3, 2, 2] 5 (by decide) (by decide)

/-- Violation: the number of pixels is computed as an `int`. An image of 65536 by 65536 pixels is
rejected as empty, one of 65536 by 32768 pixels as too long. -/
theorem C121_generate_violation (gen : σ → α × σ) (s : σ) :
    generate gen [65536, 65536] s = .throw .runtime ∧ generate gen [65536, 32768] s = .throw .logic := by
  have h1 : intCount [65536, 65536] = 0 := by decide
  have h2 : intCount [65536, 32768] = -2 ^ 31 := by decide
  constructor
  · rw [generate, h1]
    simp [draws, ofData]
  · rw [generate, h2]
    rfl

/-- `zeros(sizes...)` and `ones(sizes...)` (`nan`): an image of the given sizes with that value
everywhere; sizes given as an empty range are rejected. -/
theorem C121_constant (zero v : α) (sizes : List Nat) (hs : ∀ n ∈ sizes, n < 2 ^ 64)
    (hp : sizes.prod < 2 ^ 64) :
    (zeros zero sizes).WF ∧ (zeros zero sizes).size = sizes ∧
    (∀ idx, InBounds sizes idx → (zeros zero sizes).at' idx = .ok zero) ∧
    (filled zero v sizes).WF ∧ (filled zero v sizes).size = sizes ∧
    (∀ idx, InBounds sizes idx → (filled zero v sizes).at' idx = .ok v) ∧
    (zerosRange zero sizes = if sizes = [] then .throw .runtime else .ok (zeros zero sizes)) := by
  obtain ⟨w, s, h⟩ := C01_ofSizes_partial zero sizes hs hp
  refine ⟨w, s, h, w.map _, s, fun idx hi => w.map_at (fun _ => v) (h idx hi), ?_⟩
  simp only [zerosRange, ofSizeRange, zeros, List.isEmpty_iff]

example := C121_constant (0 : Int) 7 [3, 2, 2] (by decide) (by decide)

/-- The constant images are neutral: adding `zeros` or multiplying with `ones` of the same sizes changes
nothing. -/
theorem C121_neutral [CommRing α] (im : Image α) (wf : im.WF) (h0 : 0 < im.size.prod) :
    add (· + ·) [im, zeros 0 im.size] = .ok im ∧
    pixelwiseMultiplies (· * ·) im (filled 0 1 im.size) = .ok im := by
  obtain ⟨wz, sz, hz, wo, so, ho, -⟩ := C121_constant (0 : α) 1 im.size wf.sizes wf.fits
  constructor
  · show (TinyDIP.add (· + ·) [zeros 0 im.size] >>= fun r => pixelwiseTransform2 (· + ·) im r) = _
    rw [add, Res.ok_bind, pixelwiseTransform2_ok _ wf wz sz.symm h0]
    congr 1
    refine (zip_wf wf wz sz.symm (· + ·)).ext_data wf rfl fun idx v hv => ?_
    have hb0 := inBounds_of_at'_ok hv
    have hb : InBounds im.size idx := hb0
    obtain ⟨x, hx⟩ : ∃ x, im.at' idx = .ok x := ⟨_, wf.at' hb⟩
    rw [zip_at wf wz sz.symm _ hx (hz idx hb)] at hv
    rw [hx, ← hv, add_zero]
  · obtain ⟨out, e, w, s, h⟩ := (Props.C110_multiply_two (· * ·) im (filled 0 1 im.size) wf wo).2 so.symm h0
    have e' : pixelwiseMultiplies (· * ·) im (filled 0 1 im.size) = .ok out := e
    rw [e']
    congr 1
    refine w.ext_data wf s fun idx v hv => ?_
    have hb : InBounds im.size idx := s ▸ inBounds_of_at'_ok hv
    obtain ⟨x, hx⟩ : ∃ x, im.at' idx = .ok x := ⟨_, wf.at' hb⟩
    rw [h idx x 1 hx (ho idx hb)] at hv
    rw [hx, ← hv, mul_one]

example := C121_neutral (picture 3 2 fun x y => (x : Int) - y) (picture_wf ..) (by decide)

/-- `rand`: if the distribution returns numbers of [0, 1), so are all pixels; without sizes the image has one row and
one column. Missing: sizes whose product is no `int`, see `C121_generate_violation`. -/
theorem C121_rand_partial {K : Type} [LinearOrder K] [Zero K] [One K] (dist : σ → K × σ)
    (hd : ∀ s, 0 ≤ (dist s).1 ∧ (dist s).1 < 1) (sizes : List Nat) (s : σ)
    (hpos : ∀ n ∈ sizes, 0 < n) (hp : sizes.prod < 2 ^ 31) :
    (∃ im s', rand dist sizes s = .ok (im, s') ∧ im.WF ∧ im.size = sizes ∧
      ∀ idx v, im.at' idx = .ok v → 0 ≤ v ∧ v < 1) ∧
    ∃ im s' v, rand1 dist s = .ok (im, s') ∧ im.size = [1, 1] ∧ im.at2 0 0 = .ok v ∧ 0 ≤ v ∧ v < 1 := by
  constructor
  · obtain ⟨im, e, w, hs, hat, -⟩ := C121_generate_partial dist sizes s hpos hp
    refine ⟨im, _, e, w, hs, fun idx v hv => ?_⟩
    rw [hat idx (hs ▸ inBounds_of_at'_ok hv)] at hv
    injection hv with hv
    exact hv ▸ hd _
  · refine ⟨⟨[1, 1], [(dist s).1]⟩, (dist s).2, (dist s).1, ?_, rfl, ?_, hd s⟩
    · have : ofData [(dist s).1] [1, 1] = .ok ⟨[1, 1], [(dist s).1]⟩ :=
        ofData_ok (by simp) (by simp) (by simp)
      simp only [rand1]
      rw [this, Res.ok_bind]
    · have wf : (⟨[1, 1], [(dist s).1]⟩ : Image K).WF := ⟨by simp, by simp, by simp⟩
      rw [Image.at2, wf.at' (inBounds2.mpr ⟨by simp, by simp⟩)]
      simp [rowMajor]

example := C121_rand_partial (K := ℚ) (fun n : Nat => (if n % 2 = 0 then 1 / 2 else 1 / 4, n + 1))
  (fun n => by dsimp only; split <;> decide +kernel) [3, 2] 0 (by decide) (by decide)

/-- `randi`: if the distribution on `[lo, hi]` returns numbers of that range, all pixels are in the
range; `randi(max, ...)` gives numbers from one to `max`. Full statement: for every bound; for an empty
range see the violation. -/
theorem C121_randi_partial (dist : Int → Int → σ → Int × σ)
    (hd : ∀ lo hi s, lo ≤ hi → lo ≤ (dist lo hi s).1 ∧ (dist lo hi s).1 ≤ hi) (lo hi : Int) (hle : lo ≤ hi)
    (sizes : List Nat) (s : σ) (hpos : ∀ n ∈ sizes, 0 < n) (hp : sizes.prod < 2 ^ 31) :
    (∃ im s', randi dist lo hi sizes s = .ok (im, s') ∧ im.WF ∧
      im.size = (if sizes = [] then [1] else sizes) ∧
      ∀ idx v, im.at' idx = .ok v → lo ≤ v ∧ v ≤ hi) ∧
    ∀ max, 1 ≤ max → ∃ im s', randiMax dist max sizes s = .ok (im, s') ∧
      ∀ idx v, im.at' idx = .ok v → 1 ≤ v ∧ v ≤ max := by
  have key : ∀ lo hi, lo ≤ hi → ∃ im s', randi dist lo hi sizes s = .ok (im, s') ∧ im.WF ∧
      im.size = (if sizes = [] then [1] else sizes) ∧ ∀ idx v, im.at' idx = .ok v → lo ≤ v ∧ v ≤ hi := by
    intro lo hi hle
    have step : ∀ sz : List Nat, (∀ n ∈ sz, 0 < n) → sz.prod < 2 ^ 31 →
        ∃ im s', generate (dist lo hi) sz s = .ok (im, s') ∧ im.WF ∧ im.size = sz ∧
          ∀ idx v, im.at' idx = .ok v → lo ≤ v ∧ v ≤ hi := by
      intro sz h1 h2
      obtain ⟨im, e, w, hs, hat, -⟩ := C121_generate_partial (dist lo hi) sz s h1 h2
      refine ⟨im, _, e, w, hs, fun idx v hv => ?_⟩
      rw [hat idx (hs ▸ inBounds_of_at'_ok hv)] at hv
      injection hv with hv
      exact hv ▸ hd _ _ _ hle
    rw [randi, if_neg (by omega)]
    by_cases hz : sizes = []
    · subst hz
      simpa using step [1] (by simp) (by simp)
    · simpa [hz] using step sizes hpos hp
  refine ⟨key lo hi hle, fun max hm => ?_⟩
  obtain ⟨im, s', e, -, -, h⟩ := key 1 max hm
  exact ⟨im, s', e, h⟩

example := C121_randi_partial (fun lo hi (n : Nat) => (if n % 2 = 0 then lo else hi, n + 1))
  (fun lo hi n h => by dsimp only; split <;> omega) (-3) 9 (by decide) [3, 2] 0 (by decide) (by decide)

/-- Violation: `randi(max, ...)` with `max` below one builds a distribution over an empty range, which is
undefined behaviour. -/
theorem C121_randi_violation (dist : Int → Int → σ → Int × σ) (s : σ) :
    randiMax dist 0 [2, 2] s = .ub := by simp [randiMax, randi]

example : ∃ im s', generate (fun n : Nat => (n, n + 1)) [2, 2] 5 = .ok (im, s') ∧
    im = ⟨[2, 2], [5, 6, 7, 8]⟩ ∧ s' = 9 := ⟨_, _, by decide +kernel, rfl, rfl⟩

/-! ## C122 -/

/-- The sign tests decide what their names say about all pixels; the `none_` tests are the `all_` tests
of the opposite condition, and an `any_` test is the negation of the `none_` test. -/
theorem C122_sign [LinearOrder α] [Zero α] (im : Image α) (wf : im.WF) :
    (allSign .positive im = true ↔ ∀ idx v, im.at' idx = .ok v → 0 < v) ∧
    (allSign .nonNegative im = true ↔ ∀ idx v, im.at' idx = .ok v → 0 ≤ v) ∧
    (allSign .zero im = true ↔ ∀ idx v, im.at' idx = .ok v → v = 0) ∧
    (allSign .negative im = true ↔ ∀ idx v, im.at' idx = .ok v → v < 0) ∧
    (allSign .nonPositive im = true ↔ ∀ idx v, im.at' idx = .ok v → v ≤ 0) ∧
    (anySign .positive im = true ↔ ∃ idx v, im.at' idx = .ok v ∧ 0 < v) ∧
    (anySign .nonNegative im = true ↔ ∃ idx v, im.at' idx = .ok v ∧ 0 ≤ v) ∧
    (anySign .zero im = true ↔ ∃ idx v, im.at' idx = .ok v ∧ v = 0) ∧
    (anySign .negative im = true ↔ ∃ idx v, im.at' idx = .ok v ∧ v < 0) ∧
    (anySign .nonPositive im = true ↔ ∃ idx v, im.at' idx = .ok v ∧ v ≤ 0) ∧
    noneSign .positive im = allSign .nonPositive im ∧ noneSign .nonNegative im = allSign .negative im ∧
    noneSign .negative im = allSign .nonNegative im ∧ noneSign .nonPositive im = allSign .positive im ∧
    ∀ s, noneSign s im = !anySign s im := by
  have q : ∀ s : Sign, (allSign s im = true ↔ ∀ idx v, im.at' idx = .ok v → s.test v = true) ∧
      (anySign s im = true ↔ ∃ idx v, im.at' idx = .ok v ∧ s.test v = true) ∧
      (noneSign s im = true ↔ ∀ idx v, im.at' idx = .ok v → s.test v = false) :=
    fun s => C75_quantifiers im wf s.test
  have eqb : ∀ a b : Bool, (a = true ↔ b = true) → a = b := by decide
  refine ⟨?_, ?_, ?_, ?_, ?_, ?_, ?_, ?_, ?_, ?_, ?_, ?_, ?_, ?_, fun s => rfl⟩
  · simpa [Sign.test] using (q .positive).1
  · simpa [Sign.test] using (q .nonNegative).1
  · simpa [Sign.test] using (q .zero).1
  · simpa [Sign.test] using (q .negative).1
  · simpa [Sign.test] using (q .nonPositive).1
  · simpa [Sign.test] using (q .positive).2.1
  · simpa [Sign.test] using (q .nonNegative).2.1
  · simpa [Sign.test] using (q .zero).2.1
  · simpa [Sign.test] using (q .negative).2.1
  · simpa [Sign.test] using (q .nonPositive).2.1
  · exact eqb _ _ ((q .positive).2.2.trans (by simpa [Sign.test] using (q .nonPositive).1.symm))
  · exact eqb _ _ ((q .nonNegative).2.2.trans (by simpa [Sign.test] using (q .negative).1.symm))
  · exact eqb _ _ ((q .negative).2.2.trans (by simpa [Sign.test] using (q .nonNegative).1.symm))
  · exact eqb _ _ ((q .nonPositive).2.2.trans (by simpa [Sign.test] using (q .positive).1.symm))

example := C122_sign (picture 3 2 fun x y => (x : Int) - y) (picture_wf ..)

/-- `is_size_same` for two-dimensional images. Full statement: it decides equality of the sizes of any
two images; with three dimensions it does not, see the violation. -/
theorem C122_size_partial (a b c : Image α) (ha : a.dim = 2) (hb : b.dim = 2) (hc : c.dim = 2) :
    (isSizeSame a b = true ↔ a.size = b.size) ∧
    (isSizeSame3 a b c = true ↔ a.size = b.size ∧ b.size = c.size) ∧
    ((checkWidthSame a b = .ok () ∧ checkHeightSame a b = .ok ()) ↔ a.size = b.size) := by
  obtain ⟨sa, da⟩ := a
  obtain ⟨sb, db⟩ := b
  obtain ⟨sc, dc⟩ := c
  obtain ⟨w, h, rfl⟩ := List.length_eq_two.mp ha
  obtain ⟨w', h', rfl⟩ := List.length_eq_two.mp hb
  obtain ⟨w'', h'', rfl⟩ := List.length_eq_two.mp hc
  refine ⟨by simp [isSizeSame, isWidthSame, isHeightSame, width, height],
    by simp [isSizeSame3, isSizeSame, isWidthSame, isHeightSame, width, height], ?_⟩
  by_cases h1 : w = w' <;> by_cases h2 : h = h' <;>
    simp [checkWidthSame, checkHeightSame, isWidthSame, isHeightSame, width, height, h1, h2]

example := C122_size_partial (picture 3 2 fun x _ => x) (picture 3 2 fun _ y => y) (picture 2 3 fun x _ => x) rfl rfl rfl

/-- Violation: `is_size_same` ignores every dimension after the second: a stack of two pictures and a
stack of three have "the same size". -/
theorem C122_size_violation :
    isSizeSame (⟨[1, 1, 2], [1, 2]⟩ : Image Nat) (⟨[1, 1, 3], [1, 2, 3]⟩ : Image Nat) = true ∧
    (⟨[1, 1, 2], [1, 2]⟩ : Image Nat).WF ∧ (⟨[1, 1, 3], [1, 2, 3]⟩ : Image Nat).WF :=
  ⟨by decide, ⟨by decide, by decide, by decide⟩, ⟨by decide, by decide, by decide⟩⟩

example : allSign .nonNegative (⟨[2, 1], [0, 3]⟩ : Image Int) = true ∧
    anySign .negative (⟨[2, 1], [0, 3]⟩ : Image Int) = false ∧
    allSign .positive (⟨[2, 1], [0, 3]⟩ : Image Int) = false := by decide

end TinyDIP.Props
