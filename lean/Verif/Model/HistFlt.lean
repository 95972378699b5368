import Verif.Model.Hist
import Verif.Model.Rounding

/-!
# Model: shares and bins of a histogram in floating arithmetic

`normalizeDense`, `toProbabilities`, `normalizeArray`, `normalizedDense` and `withBins` (Hist) with the rounding of every
conversion and operation. Numbers are real numbers with `p` significant bits (`double`: 53); overflow, underflow and
fused operations are left out, see `Rounding`.
-/

namespace TinyDIP.Hist

open TinyDIP Rnd

/-- histogram.h 148-156 `normalize`, dense, after `count_sum` has been computed; `n` levels. -/
noncomputable def normalizeDenseF (p n : Nat) (h : List Nat) (countSum : Nat) : Res (List ℝ) :=
  forUp h.length (fun out i => do
    let c ← vget h i
    vset out i (fl p (fl p (c : ℝ) / fl p (countSum : ℝ)))) (List.replicate n 0)

/-- histogram.h 199-210 `to_probabilities_vector`, dense, after `total_count` has been computed; `n` levels. -/
noncomputable def toProbabilitiesF (p n : Nat) (h : List Nat) (total : Nat) : Res (List ℝ) :=
  forUp n (fun out i => do
    let c ← getCountDense h i
    vset out i (fl p (fl p (c : ℝ) / fl p (total : ℝ)))) (List.replicate n 0)

/-- image_operations.h 1372-1418 `normalize_histogram` of an array (with or without a policy): `sum` is the result of
`std::reduce`. -/
noncomputable def normalizeArrayF (p : Nat) (h : List Nat) (sum : Nat) : List ℝ :=
  h.map fun c : Nat => fl p (fl p (c : ℝ) / fl p (sum : ℝ))

/-- image_operations.h 1309-1321 `histogram_normalized` for `uint8_t` and `uint16_t`, `n` levels. -/
noncomputable def normalizedDenseF (p n : Nat) (im : Image Nat) : Res (List ℝ) :=
  loop (fun out v => do
    let c ← vget out v
    vset out v (fl p (c + fl p (1 / fl p (im.count : ℝ))))) im.data (List.replicate n 0)

open Classical in
/-- image_operations.h 1356: the bin index. A zero range divides by zero (infinity or NaN), whose conversion to `size_t`
is undefined. -/
noncomputable def binIndexF (p bins : Nat) (lowest max v : ℝ) : Res Nat :=
  let range := fl p (fl p max - fl p lowest)
  if range = 0 then .ub else floorToSize ⌊fl p (fl p (fl p v * fl p (bins : ℝ)) / range)⌋

/-- image_operations.h 1344-1367 `histogram_with_bins`; `num` is the value of an element as a number, converted to
`double` in `binIndexF`. -/
noncomputable def withBinsF {K : Type} (p : Nat) (num : K → ℝ) (bins : Nat) (im : Image K) (lowest max : K) :
    Res (List Nat) :=
  loop (fun out v => do
    let b ← binIndexF p bins (num lowest) (num max) (num v)
    if b = bins then addDense out (bins - 1) else addDense out b) im.data (List.replicate bins 0)

end TinyDIP.Hist
