import Verif.Lemmas.Samples
import Verif.Lemmas.Hist
import Verif.Props.Core
import Mathlib.Data.Rat.Floor
import Mathlib.Tactic.FieldSimp
import Mathlib.Tactic.NormNum

/-!
# Properties C32, C33, C80, C81: histograms, bins, Otsu's threshold, thresholding
-/

namespace TinyDIP.Props

open TinyDIP Image Hist

/-! ## C32 histogram -/

/-- `uint8_t`/`uint16_t` images (`n` levels): the histogram exists, gives for each level the number
of pixels with that level, and every allowed result of the count sum is the number of pixels. -/
theorem C32_dense (n : Nat) (im : Image Nat) (w h : Nat) (f : Nat → Nat → Nat) (s : im.Shows w h f)
    (hlev : ∀ x y, x < w → y < h → f x y < n) :
    ∃ hist, ofImageDense n im = .ok hist ∧ hist.length = n ∧
      (∀ v, v < n → getCountDense hist v = .ok (pixelCount w h f fun a => a == v)) ∧
      (∃ t, CountSumDense hist t) ∧ ∀ t, CountSumDense hist t → t = w * h := by
  have hmem : ∀ v ∈ im.data, v < n := by
    intro v hv
    rw [s.data_eq, List.mem_map] at hv
    obtain ⟨p, hp, rfl⟩ := hv
    rw [mem_iterYX] at hp
    exact hlev _ _ hp.1 hp.2
  have hz : (List.replicate n 0).sum = 0 := by simp
  obtain ⟨out, e, hl, hs, hc⟩ := loop_addDense (β := Nat) id addDense im.data n (fun _ _ _ => rfl) hmem
    (List.replicate n 0) (by simp) (by rw [hz, s.len]; have := s.fits; omega)
  refine ⟨out, e, hl, ?_, ⟨_, stdReduce_exists _ _ _⟩, ?_⟩
  · intro v hv
    unfold getCountDense vget
    rw [if_pos (by omega), hc v hv]
    simp only [List.map_id, List.getD_eq_getElem?_getD, List.getElem?_replicate, hv, if_true,
      Option.getD_some, Nat.zero_add]
    rw [List.count_eq_countP, pixelCount_eq s]
  · intro t ht
    have := reduce_sum ht (by rw [hs, hz, s.len]; have := s.fits; omega)
    rw [this, hs, hz, s.len]; omega

example := C32_dense 17 _ 3 2 _ sample2_shows (fun x y hx hy => by omega)

/-- Other element types: the same for the map-based histogram, for every level of the element
type. -/
theorem C32_sparse {K : Type} [LinearOrder K] (im : Image K) (w h : Nat) (f : Nat → Nat → K)
    (s : im.Shows w h f) :
    ∃ hist, ofImageSparse im = .ok hist ∧
      (∀ v, getCountSparse hist v = .ok (pixelCount w h f fun a => a == v)) ∧
      (∃ t, CountSumSparse hist t) ∧ ∀ t, CountSumSparse hist t → t = w * h := by
  obtain ⟨out, e, _, hs, hc⟩ := loop_addSparse im.data [] (by simp [SMap.Sorted])
    (by simp only [List.map_nil, List.sum_nil]; rw [s.len]; have := s.fits; omega)
  refine ⟨out, e, ?_, ⟨_, stdReduce_exists _ _ _⟩, ?_⟩
  · intro v
    unfold getCountSparse
    rw [hc v, ← pixelCount_eq s, ← List.count_eq_countP]
    by_cases hm : v ∈ im.data
    · simp [hm, SMap.find]
    · simp [hm, SMap.find, List.count_eq_zero.2 hm]
  · intro t ht
    have := reduce_sum ht (by rw [hs]; simp only [List.map_nil, List.sum_nil]; rw [s.len]; have := s.fits; omega)
    rw [this, hs, s.len]; simp

example := C32_sparse _ 3 2 _ (picture_shows 3 2 fun x y => (x : Int) - y)

/-- Both storage forms give the same count for every level. -/
theorem C32_forms_agree (n : Nat) (im : Image Nat) (w h : Nat) (f : Nat → Nat → Nat)
    (s : im.Shows w h f) (hlev : ∀ x y, x < w → y < h → f x y < n) :
    ∃ d m, ofImageDense n im = .ok d ∧ ofImageSparse im = .ok m ∧
      ∀ v, v < n → getCountDense d v = getCountSparse m v := by
  obtain ⟨d, e, _, hc, _⟩ := C32_dense n im w h f s hlev
  obtain ⟨m, e', hc', _⟩ := C32_sparse im w h f s
  exact ⟨d, m, e, e', fun v hv => by rw [hc v hv, hc' v]⟩

example := C32_forms_agree 17 _ 3 2 _ sample2_shows (fun x y hx hy => by omega)

/-- Normalising the histogram of an image with at least one pixel (member function, dense form, and
the vector of probabilities; exact arithmetic): each value is the fraction of the pixels with that
level, and the values sum to 1. -/
theorem C32_normalize_dense {P : Type} [Field P] [CharZero P] (n : Nat) (im : Image Nat) (w h : Nat)
    (f : Nat → Nat → Nat) (s : im.Shows w h f) (hlev : ∀ x y, x < w → y < h → f x y < n)
    (hne : 0 < w * h) :
    ∃ hist out, ofImageDense n im = .ok hist ∧
      (∀ t, CountSumDense hist t → normalizeDense (P := P) n hist t = .ok out ∧
        toProbabilities (P := P) n hist t = .ok out) ∧
      out.length = n ∧ out.sum = 1 ∧
      ∀ v, v < n → out[v]? = some ((pixelCount w h f fun a => a == v : Nat) / ((w * h : Nat) : P)) := by
  obtain ⟨hist, e, hl, hc, ⟨t0, ht0⟩, ht⟩ := C32_dense n im w h f s hlev
  have hsum : hist.sum = w * h := by
    have hz : (List.replicate n 0).sum = 0 := by simp
    obtain ⟨out, e', _, hs, _⟩ := loop_addDense (β := Nat) id addDense im.data n (fun _ _ _ => rfl) (by
      intro v hv
      rw [s.data_eq, List.mem_map] at hv
      obtain ⟨p, hp, rfl⟩ := hv
      rw [mem_iterYX] at hp
      exact hlev _ _ hp.1 hp.2) (List.replicate n 0) (by simp) (by rw [hz, s.len]; have := s.fits; omega)
    have : out = hist := by
      have : Res.ok out = Res.ok hist := e'.symm.trans e
      injection this
    rw [← this, hs, hz, s.len]; omega
  refine ⟨hist, hist.map fun c : Nat => (c : P) / ((w * h : Nat) : P), e, ?_, by simpa using hl, ?_, ?_⟩
  · intro t htt
    rw [ht t htt]
    exact ⟨normalizeDense_ok hl _, toProbabilities_ok hl _⟩
  · rw [sum_map_div, hsum]
    exact div_self (Nat.cast_ne_zero.2 (by omega))
  · intro v hv
    have := hc v hv
    unfold getCountDense vget at this
    rw [if_pos (by omega), List.getElem?_eq_getElem (by omega)] at this
    injection this with this
    rw [List.getElem?_map, List.getElem?_eq_getElem (by omega), Option.map_some, this]

example := C32_normalize_dense (P := ℚ) 17 _ 3 2 _ sample2_shows (fun x y hx hy => by omega) (by decide)

/-- The same for the map-based form. -/
theorem C32_normalize_sparse {K P : Type} [LinearOrder K] [Field P] [CharZero P] (im : Image K)
    (w h : Nat) (f : Nat → Nat → K) (s : im.Shows w h f) (hne : 0 < w * h) :
    ∃ hist, ∃ out : SMap K P, ofImageSparse im = .ok hist ∧
      (∀ t, CountSumSparse hist t → normalizeSparse (P := P) hist t = out) ∧
      (out.map (·.2)).sum = 1 ∧
      ∀ x y, x < w → y < h → SMap.find (f x y) out =
        some ((pixelCount w h f fun a => a == f x y : Nat) / ((w * h : Nat) : P)) := by
  obtain ⟨out, e, so, hs, hc⟩ := loop_addSparse im.data [] (by simp [SMap.Sorted])
    (by simp only [List.map_nil, List.sum_nil]; rw [s.len]; have := s.fits; omega)
  simp only [List.map_nil, List.sum_nil, Nat.zero_add, s.len] at hs
  refine ⟨out, out.map fun kv => (kv.1, (kv.2 : P) / ((w * h : Nat) : P)), e, ?_, ?_, ?_⟩
  · intro t ht
    have := reduce_sum ht (by rw [hs]; have := s.fits; omega)
    rw [this, hs]
    exact SMap.foldl_emplace (fun kv : K × Nat => (kv.2 : P) / ((w * h : Nat) : P)) out so
  · rw [List.map_map]
    have := sum_map_div (out.map (·.2)) ((w * h : Nat) : P)
    rw [List.map_map] at this
    refine Eq.trans ?_ (this.trans ?_)
    · rfl
    · rw [hs]; exact div_self (Nat.cast_ne_zero.2 (by omega))
  · intro x y hx hy
    have hm : f x y ∈ im.data := by
      rw [s.data_eq, List.mem_map]; exact ⟨(x, y), mem_iterYX.2 ⟨hx, hy⟩, rfl⟩
    rw [SMap.find_map (fun c : Nat => (c : P) / ((w * h : Nat) : P)), hc, if_pos hm,
      ← pixelCount_eq s, ← List.count_eq_countP]
    simp [SMap.find]

example := C32_normalize_sparse (P := ℚ) _ 3 2 _ (picture_shows 3 2 fun x y => (x : Int) - y) (by decide)

/-- `histogram_normalized` (both forms) gives each level the fraction of pixels with that level. -/
theorem C32_histogram_normalized {P : Type} [Field P] [CharZero P] (n : Nat) (im : Image Nat)
    (w h : Nat) (f : Nat → Nat → Nat) (s : im.Shows w h f)
    (hlev : ∀ x y, x < w → y < h → f x y < n) (hne : 0 < w * h) :
    (∃ out, normalizedDense (P := P) n im = .ok out ∧
      ∀ v, v < n → out[v]? = some ((pixelCount w h f fun a => a == v : Nat) / ((w * h : Nat) : P))) ∧
    (∀ x y, x < w → y < h → SMap.find (f x y) (normalizedSparse (P := P) im) =
      some ((pixelCount w h f fun a => a == f x y : Nat) / ((w * h : Nat) : P))) ∧
    ((normalizedSparse (P := P) im).map (·.2)).sum = 1 := by
  have hcnt : im.count = w * h := s.count
  have h0 : ((w * h : Nat) : P) ≠ 0 := Nat.cast_ne_zero.2 (by omega)
  refine ⟨?_, ?_, ?_⟩
  · unfold normalizedDense
    rw [hcnt]
    obtain ⟨out, e, _, hc⟩ := loop_normalizedDense (1 / ((w * h : Nat) : P)) im.data n (by
      intro v hv
      rw [s.data_eq, List.mem_map] at hv
      obtain ⟨p, hp, rfl⟩ := hv
      rw [mem_iterYX] at hp
      exact hlev _ _ hp.1 hp.2) (List.replicate n 0) (by simp)
    refine ⟨out, e, fun v hv => ?_⟩
    rw [hc v hv, ← pixelCount_eq s, ← List.count_eq_countP]
    simp [List.getD_eq_getElem?_getD, List.getElem?_replicate, hv, div_eq_mul_inv]
  · intro x y hx hy
    have hm : f x y ∈ im.data := by
      rw [s.data_eq, List.mem_map]; exact ⟨(x, y), mem_iterYX.2 ⟨hx, hy⟩, rfl⟩
    unfold normalizedSparse
    rw [hcnt]
    obtain ⟨_, _, h3⟩ := foldl_normalizedSparse (1 / ((w * h : Nat) : P)) im.data ([] : SMap Nat P)
      (by simp [SMap.Sorted])
    refine (h3 (f x y)).trans ?_
    rw [if_pos hm, ← pixelCount_eq s, ← List.count_eq_countP]
    simp [SMap.find, div_eq_mul_inv]
  · unfold normalizedSparse
    rw [hcnt]
    obtain ⟨_, h2, _⟩ := foldl_normalizedSparse (1 / ((w * h : Nat) : P)) im.data ([] : SMap Nat P)
      (by simp [SMap.Sorted])
    refine h2.trans ?_
    rw [s.len]
    simp only [List.map_nil, List.sum_nil, zero_add]
    field_simp

example := C32_histogram_normalized (P := ℚ) 17 _ 3 2 _ sample2_shows (fun x y hx hy => by omega) (by decide)

/-- `normalize_histogram` of an array of counts with a positive sum that fits in `size_t`: the values
sum to 1 and are the counts divided by the sum. -/
theorem C32_normalize_array {P : Type} [Field P] [CharZero P] (hist : List Nat)
    (hpos : 0 < hist.sum) (hfit : hist.sum < 2 ^ 64) (t : Nat) (ht : StdReduce wadd 0 hist t) :
    (normalizeArray (P := P) hist t).sum = 1 ∧
    ∀ (i c : Nat), hist[i]? = some c →
      (normalizeArray (P := P) hist t)[i]? = some ((c : P) / ((hist.sum : Nat) : P)) := by
  rw [reduce_sum ht hfit]
  unfold normalizeArray
  refine ⟨?_, fun i c hc => by rw [List.getElem?_map, hc]; rfl⟩
  rw [sum_map_div]
  exact div_self (Nat.cast_ne_zero.2 (by omega))

/-- The hypotheses are met: a 3 × 1 image with levels 2, 0, 2. -/
example : (⟨[3, 1], [2, 0, 2]⟩ : Image Nat).Shows 3 1 (fun x _ => if x = 1 then 0 else 2) ∧
    (∀ x y, x < 3 → y < 1 → (if x = 1 then 0 else 2) < 256) ∧
    pixelCount 3 1 (fun x _ => if x = 1 then 0 else 2) (fun a => a == 2) = 2 :=
  ⟨Image.Shows.of_data (by omega) (by omega) (by omega) rfl rfl (by
    intro x y hx hy
    have : y = 0 := by omega
    subst this
    have : x = 0 ∨ x = 1 ∨ x = 2 := by omega
    rcases this with rfl | rfl | rfl <;> rfl), by intros; split <;> omega, by decide⟩

/-! ## C33 histogram_with_bins

Full statement: the bin whose interval of `[lowest, max]` contains the value, for every range. The
code divides the value itself, not its distance from `lowest`, by the bin width. -/

section Bins
variable {P K : Type} [Field P] [LinearOrder P] [IsStrictOrderedRing P] [FloorRing P]

/-- `v` lies in bin `b` of `bins` bins of equal width over `[lowest, max]`; the last bin is
closed. -/
def InBin (bins : Nat) (lowest max v : P) (b : Nat) : Prop :=
  lowest + b * ((max - lowest) / bins) ≤ v ∧
    (v < lowest + (b + 1) * ((max - lowest) / bins) ∨ b + 1 = bins ∧ v = max)

omit [FloorRing P] in
theorem inBin_iff {bins : Nat} (hb : 0 < bins) {max v : P} (hm : 0 < max) (b : Nat) :
    InBin bins 0 max v b ↔ ((b : P) ≤ v * bins / max ∧ v * bins / max < (b : P) + 1) ∨
      (b + 1 = bins ∧ v = max) := by
  have hb' : (0 : P) < bins := by exact_mod_cast hb
  unfold InBin
  simp only [sub_zero, zero_add]
  have e1 : (b : P) * (max / bins) ≤ v ↔ (b : P) ≤ v * bins / max := by
    rw [le_div_iff₀ hm, ← mul_div_assoc, div_le_iff₀ hb']
  have e2 : v < ((b : P) + 1) * (max / bins) ↔ v * bins / max < (b : P) + 1 := by
    rw [div_lt_iff₀ hm, ← mul_div_assoc, lt_div_iff₀ hb']
  rw [e1, e2]
  constructor
  · rintro ⟨h1, h2 | h2⟩
    · exact .inl ⟨h1, h2⟩
    · exact .inr h2
  · rintro (h | h)
    · exact ⟨h.1, .inl h.2⟩
    · refine ⟨?_, .inr h⟩
      rw [h.2, mul_div_assoc, mul_div_cancel₀ _ hm.ne', ← h.1]
      push_cast
      linarith

open Classical in
/-- The range starts at zero (as for the default range of unsigned types) and every pixel lies in
it: every bin counts exactly the pixels in its interval, every pixel lies in exactly one bin, and
the counts sum to the number of pixels. Missing: ranges that do not start at zero. -/
theorem C33_partial (num : K → P) (bins : Nat) (hb : 0 < bins) (hb64 : bins < 2 ^ 64) (im : Image K)
    (w h : Nat) (f : Nat → Nat → K) (s : im.Shows w h f) (lowest max : K) (hlow : num lowest = 0)
    (hmax : 0 < num max) (hr : ∀ x y, x < w → y < h → 0 ≤ num (f x y) ∧ num (f x y) ≤ num max) :
    ∃ out, withBins num bins im lowest max = .ok out ∧ out.length = bins ∧ out.sum = w * h ∧
      (∀ b, b < bins → out[b]? =
        some (pixelCount w h f fun v => decide (InBin bins (num lowest) (num max) (num v) b))) ∧
      ∀ x y, x < w → y < h → ∃! b, b < bins ∧ InBin bins (num lowest) (num max) (num (f x y)) b := by
  have hbP : (0 : P) < bins := by exact_mod_cast hb
  let t : K → Nat := fun v => if ⌊num v * bins / num max⌋.toNat = bins then bins - 1
    else ⌊num v * bins / num max⌋.toNat
  have hmem : ∀ v ∈ im.data, 0 ≤ num v ∧ num v ≤ num max := by
    intro v hv
    rw [s.data_eq, List.mem_map] at hv
    obtain ⟨p, hp, rfl⟩ := hv
    rw [mem_iterYX] at hp
    exact hr _ _ hp.1 hp.2
  have hfl : ∀ v, 0 ≤ num v ∧ num v ≤ num max →
      0 ≤ ⌊num v * bins / num max⌋ ∧ ⌊num v * bins / num max⌋ ≤ bins := by
    intro v ⟨h1, h2⟩
    constructor
    · rw [Int.floor_nonneg]; exact div_nonneg (mul_nonneg h1 hbP.le) hmax.le
    · have : num v * bins / num max ≤ (bins : Int) := by
        rw [div_le_iff₀ hmax, mul_comm]
        push_cast
        exact mul_le_mul_of_nonneg_left h2 hbP.le
      exact_mod_cast (Int.floor_le _).trans this
  have ht : ∀ v, 0 ≤ num v ∧ num v ≤ num max → t v < bins := by
    intro v hv
    have := hfl v hv
    simp only [t]
    split <;> omega
  have hbin : ∀ v, 0 ≤ num v ∧ num v ≤ num max → ∀ b, b < bins →
      (t v = b ↔ InBin bins (num lowest) (num max) (num v) b) := by
    intro v hv b hlt
    obtain ⟨q1, q2⟩ := hfl v hv
    rw [hlow, inBin_iff hb hmax]
    have hflb : ((b : P) ≤ num v * bins / num max ∧ num v * bins / num max < (b : P) + 1) ↔
        ⌊num v * bins / num max⌋ = (b : Int) := by
      rw [Int.floor_eq_iff]; push_cast; rfl
    rw [hflb]
    simp only [t]
    by_cases he : ⌊num v * bins / num max⌋.toNat = bins
    · rw [if_pos he]
      have hv' : num v = num max := by
        have h1 : (bins : P) ≤ num v * bins / num max := by
          have h3 : (bins : Int) ≤ ⌊num v * bins / num max⌋ := by omega
          have := Int.le_floor.1 h3
          exact_mod_cast this
        rw [le_div_iff₀ hmax, mul_comm] at h1
        exact le_antisymm hv.2 (le_of_mul_le_mul_right h1 hbP)
      constructor
      · intro hbe; right; exact ⟨by omega, hv'⟩
      · rintro (h1 | h1) <;> omega
    · rw [if_neg he]
      constructor
      · intro hbe; left; omega
      · rintro (h1 | ⟨h1, h2⟩)
        · omega
        · exfalso
          apply he
          rw [h2, mul_comm, mul_div_assoc, div_self hmax.ne', mul_one]
          simp
  have hz : (List.replicate bins 0).sum = 0 := by simp
  obtain ⟨out, e, hl, hs, hc⟩ := loop_addDense (β := K) t (fun out v => do
      let b ← binIndex bins (num lowest) (num max) (num v)
      if b = bins then addDense out (bins - 1) else addDense out b) im.data bins
    (by
      intro v hv d
      obtain ⟨q1, q2⟩ := hfl v (hmem v hv)
      unfold binIndex floorToSize
      rw [hlow, sub_zero, if_neg hmax.ne', if_pos (by omega)]
      simp only [Res.ok_bind, t]
      split <;> rfl)
    (fun v hv => ht v (hmem v hv)) (List.replicate bins 0) (by simp)
    (by rw [hz, s.len]; have := s.fits; omega)
  refine ⟨out, e, hl, by rw [hs, hz, s.len]; omega, ?_, ?_⟩
  · intro b hlt
    rw [hc b hlt, ← pixelCount_eq s]
    simp only [List.getD_eq_getElem?_getD, List.getElem?_replicate, hlt, if_true, Option.getD_some,
      Nat.zero_add, List.count_eq_countP, List.countP_map]
    congr 1
    apply List.countP_congr
    intro v hv
    simp only [Function.comp, beq_iff_eq, decide_eq_true_eq]
    exact hbin v (hmem v hv) b hlt
  · intro x y hx hy
    have hv := hr x y hx hy
    refine ⟨t (f x y), ⟨ht _ hv, (hbin _ hv _ (ht _ hv)).1 rfl⟩, ?_⟩
    rintro b ⟨h1, h2⟩
    exact ((hbin _ hv b h1).2 h2).symm

example := C33_partial (P := ℚ) (fun v : Nat => (v : ℚ)) 4 (by decide) (by decide) _ 3 2 _ sample2_shows 0 255 (by norm_num)
  (by norm_num) (fun x y hx hy => ⟨by positivity, by
    have : (10 + x + 3 * y : Nat) ≤ 255 := by omega
    exact_mod_cast this⟩)

end Bins

/-- A range that does not start at zero: with two bins over [100, 200], the pixel 150 belongs to the
second bin, and the code accesses a bin that does not exist. -/
theorem C33_violation :
    withBins (P := ℚ) (fun v : Nat => (v : ℚ)) 2 ⟨[1, 1], [150]⟩ 100 200 = .ub ∧
    InBin 2 (100 : ℚ) 200 150 1 := by
  refine ⟨?_, ?_⟩
  · have : ⌊((150 : Nat) : ℚ) * ((2 : Nat) : ℚ) / (((200 : Nat) : ℚ) - ((100 : Nat) : ℚ))⌋ = 3 := by
      rw [Int.floor_eq_iff]; norm_num
    simp only [withBins, loop, binIndex, this]
    rw [if_neg (by norm_num)]
    rfl
  · unfold InBin; norm_num

/-- A range with negative values: with two bins over [-10, 10], the pixel -5 belongs to the first
bin, and the code converts a negative number to an index (undefined behaviour); the pixel 5 belongs
to the second bin and is counted in the first. -/
theorem C33_negative_violation :
    withBins (P := ℚ) (fun v : Int => (v : ℚ)) 2 ⟨[1, 1], [-5]⟩ (-10) 10 = .ub ∧
    InBin 2 (-10 : ℚ) 10 (-5) 0 ∧
    withBins (P := ℚ) (fun v : Int => (v : ℚ)) 2 ⟨[1, 1], [5]⟩ (-10) 10 = .ok [1, 0] ∧
    InBin 2 (-10 : ℚ) 10 5 1 := by
  refine ⟨?_, ?_, ?_, ?_⟩
  · have : ⌊((-5 : Int) : ℚ) * ((2 : Nat) : ℚ) / (((10 : Int) : ℚ) - ((-10 : Int) : ℚ))⌋ = -1 := by
      rw [Int.floor_eq_iff]; norm_num
    simp only [withBins, loop, binIndex, this]
    rw [if_neg (by norm_num)]
    rfl
  · unfold InBin; norm_num
  · have : ⌊((5 : Int) : ℚ) * ((2 : Nat) : ℚ) / (((10 : Int) : ℚ) - ((-10 : Int) : ℚ))⌋ = 0 := by
      rw [Int.floor_eq_iff]; norm_num
    simp only [withBins, loop, binIndex, this]
    rw [if_neg (by norm_num)]
    rfl
  · unfold InBin; norm_num

/-- The hypotheses of `C33_partial` are met: levels 0 to 255 of type ℕ. -/
example : (fun v : Nat => (v : ℚ)) 0 = 0 ∧ 0 < (fun v : Nat => (v : ℚ)) 255 ∧
    (⟨[2, 1], [200, 255]⟩ : Image Nat).Shows 2 1 (fun x _ => if x = 0 then 200 else 255) :=
  ⟨by norm_num, by norm_num, Image.Shows.of_data (by omega) (by omega) (by omega) rfl rfl (by
    intro x y hx hy
    have : y = 0 := by omega
    subst this
    have : x = 0 ∨ x = 1 := by omega
    rcases this with rfl | rfl <;> rfl)⟩

/-! ## C80 otsu_threshold -/

/-- For every histogram with non-negative entries (exact arithmetic): if no level splits it into two
classes of positive weight, the result is the number of levels; otherwise the result is the first
level that maximises the variance between the classes. -/
theorem C80_otsu {P : Type} [Field P] [LinearOrder P] [IsStrictOrderedRing P] (h : List P)
    (h0 : ∀ x ∈ h, 0 ≤ x) :
    ((∀ k, k < h.length → ¬ (0 < lowWeight h k ∧ 0 < highWeight h k)) → otsu h = h.length) ∧
    ((∃ k, k < h.length ∧ 0 < lowWeight h k ∧ 0 < highWeight h k) →
      otsu h < h.length ∧ 0 < lowWeight h (otsu h) ∧ 0 < highWeight h (otsu h) ∧
      (∀ k, k < h.length → 0 < lowWeight h k → 0 < highWeight h k →
        betweenVar h k ≤ betweenVar h (otsu h)) ∧
      ∀ k, k < otsu h → 0 < lowWeight h k → 0 < highWeight h k →
        betweenVar h k < betweenVar h (otsu h)) := by
  have inv : ∀ n, n ≤ h.length → OtsuInv h n ((List.range n).foldl (otsuStep h)
      ⟨0, (otsuTotals h).1, 0, (otsuTotals h).2, -1000000, 0⟩) := by
    intro n
    induction n with
    | zero =>
      intro _
      rw [otsuTotals_eq]
      exact ⟨by simp, by simp, by simp, by simp, .inl ⟨rfl, by simp⟩⟩
    | succ n ih =>
      intro hn
      rw [List.range_succ, List.foldl_append]
      exact otsuStep_inv h0 (by omega) (ih (by omega))
  have hi := inv h.length (Nat.le_refl _)
  unfold otsu
  simp only
  obtain ⟨s, hs⟩ : ∃ s, s = (List.range h.length).foldl (otsuStep h)
      ⟨0, (otsuTotals h).1, 0, (otsuTotals h).2, -1000000, 0⟩ := ⟨_, rfl⟩
  rw [← hs] at hi ⊢
  rcases hi.best with ⟨b1, b2⟩ | ⟨b1, b2, b3, b4, b5⟩
  · rw [if_pos b1]
    refine ⟨fun _ => rfl, ?_⟩
    rintro ⟨k, hk, hsp⟩
    exact absurd hsp (b2 k hk)
  · have hne : ¬ s.ssMax = -1000000 := by
      rw [b3]
      have := betweenVar_nonneg b2
      intro he
      rw [he] at this
      norm_num at this
    rw [if_neg hne]
    refine ⟨fun hno => absurd b2 (hno _ b1), fun _ => ⟨b1, b2.1, b2.2, ?_, ?_⟩⟩
    · intro k hk h1 h2
      rw [← b3]; exact b4 k hk ⟨h1, h2⟩
    · intro k hk h1 h2
      rw [← b3]; exact b5 k hk ⟨h1, h2⟩

/-- The hypotheses are met: levels 0, 1 and 3 occur. -/
example : (∀ x ∈ [(1 : ℚ), 2, 0, 1], 0 ≤ x) ∧ 0 < lowWeight [(1 : ℚ), 2, 0, 1] 1 ∧
    0 < highWeight [(1 : ℚ), 2, 0, 1] 1 := by
  refine ⟨by decide, ?_, ?_⟩
  · simp [lowWeight, Finset.sum_range_succ]; norm_num
  · simp [highWeight, Finset.sum_Ico_eq_sum_range, Finset.sum_range_succ]

/-! ## C81 apply_threshold_openmp -/

/-- Every image with at least one pixel, whatever the order of the parallel iterations: a pixel
becomes the largest value when it is greater than the threshold and the smallest one otherwise. -/
theorem C81_threshold {K : Type} [LinearOrder K] (zero lo hi : K) (order : List Nat) (im : Image K)
    (w h : Nat) (f : Nat → Nat → K) (s : im.Shows w h f) (h0 : 0 < w * h)
    (hord : order.Perm (List.range (w * h))) (t : K) :
    ∃ out, applyThreshold zero lo hi order im t = .ok out ∧
      out.Shows w h fun x y => if f x y > t then hi else lo := by
  unfold applyThreshold
  have key := loop_listMap im.data s.len (fun v => if v > t then hi else lo) (fun out i => do
    let v ← vget im.data i
    vset out i (if v > t then hi else lo)) order (by
      intro i hi a ha d hd
      have : i < w * h := List.mem_range.1 (hord.mem_iff.1 hi)
      have hv : vget im.data i = .ok a := by unfold vget; rw [ha]
      rw [hv]
      exact vset_eq_ok _ (by omega)) (List.replicate im.count zero) (by simp [s.count]) hord
  rw [key]
  simp only [Res.ok_bind]
  have hp : im.size.prod = w * h := by rw [s.size]; simp
  rw [ofData_ok (by simp [s.len, hp]) (by rw [hp]; exact s.fits) (by rw [hp]; exact h0)]
  refine ⟨_, rfl, Image.Shows.of_data s.w_lt s.h_lt s.fits s.size (by simp [s.len]) ?_⟩
  intro x y hx hy
  simp only [List.getElem?_map, s.data? hx hy, Option.map_some]

/-- The hypotheses are met: a 5 × 5 image, iterations in reverse order. -/
example : (Image.ofSizes 0 [5, 5] : Image Nat).Shows 5 5 (fun _ _ => 0) ∧
    (List.range (5 * 5)).reverse.Perm (List.range (5 * 5)) :=
  ⟨ofSizes_shows 0 (by omega) (by omega) (by omega), List.reverse_perm _⟩

end TinyDIP.Props
