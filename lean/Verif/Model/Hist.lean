import Verif.Model.Pixelwise
import Mathlib.Order.Defs.LinearOrder
import Mathlib.Algebra.Field.Defs
import Mathlib.Algebra.Order.Floor.Ring

/-!
# Histograms (histogram.h; image_operations.h 1300-1551)

`std::map` is modelled by an association list sorted by key. Key comparison is a linear order (no
NaN keys). Counts are `size_t` with wrap-around; probabilities are exact numbers of a field.
-/

namespace TinyDIP

/-- A `std::map<K, C>`: pairs in increasing order of the keys. histogram.h 23. -/
abbrev SMap (K C : Type) := List (K × C)

namespace SMap
variable {K C : Type} [LinearOrder K]

/-- `std::map` element access with insertion: `f none` for a new key, `f (some c)` for an existing one.
histogram.h 413-430 (`operator[]`) and `addCount`, called at 65. -/
def upd (k : K) (f : Option C → C) : SMap K C → SMap K C
  | [] => [(k, f none)]
  | (k', c) :: rest =>
    if k < k' then (k, f none) :: (k', c) :: rest
    else if k = k' then (k', f (some c)) :: rest
    else (k', c) :: upd k f rest

/-- `std::map::find`. histogram.h 78. -/
def find (k : K) : SMap K C → Option C
  | [] => none
  | (k', c) :: rest => if k = k' then some c else find k rest

/-- `std::map::emplace`: an existing element stays. histogram.h 164. -/
def emplace (k : K) (v : C) (m : SMap K C) : SMap K C := upd k (fun o => o.getD v) m

end SMap

namespace Hist

/-- histogram.h 127-130, dense: `++get_result[input]`. -/
def addDense (h : List Nat) (v : Nat) : Res (List Nat) := do
  let c ← vget h v
  vset h v (wadd c 1)

/-- histogram.h 133-137, sparse: `++get_result[input]`. -/
def addSparse {K : Type} [LinearOrder K] (h : SMap K Nat) (v : K) : SMap K Nat :=
  SMap.upd v (fun o => wadd (o.getD 0) 1) h

/-- histogram.h 52-67 (and `histogram`, image_operations.h 1300-1305) for `uint8_t` and `uint16_t`
elements, `n` levels. -/
def ofImageDense (n : Nat) (im : Image Nat) : Res (List Nat) :=
  loop addDense im.data (List.replicate n 0)

/-- histogram.h 52-67 (and `histogram`, image_operations.h 1300-1305) for other element types. -/
def ofImageSparse {K : Type} [LinearOrder K] (im : Image K) : Res (SMap K Nat) :=
  loop (fun h v => .ok (addSparse h v)) im.data []

/-- histogram.h 70-75 `getCount`, dense: `at`. -/
def getCountDense (h : List Nat) (v : Nat) : Res Nat :=
  if v < h.length then vget h v else .throw .outOfRange

/-- histogram.h 76-87 `getCount`, sparse. -/
def getCountSparse {K : Type} [LinearOrder K] (h : SMap K Nat) (v : K) : Res Nat :=
  match SMap.find v h with
  | some c => .ok c
  | none => .ok 0

/-- histogram.h 91-120 `getCountSum`: the allowed results, dense. -/
def CountSumDense (h : List Nat) (s : Nat) : Prop := StdReduce wadd 0 h s

/-- histogram.h 91-120 `getCountSum`: the allowed results, sparse. -/
def CountSumSparse {K : Type} (h : SMap K Nat) (s : Nat) : Prop := StdReduce wadd 0 (h.map (·.2)) s

/-- histogram.h 148-156 `normalize`, dense, after `count_sum` has been computed; `n` levels. -/
def normalizeDense {P : Type} [Field P] (n : Nat) (h : List Nat) (countSum : Nat) : Res (List P) :=
  forUp h.length (fun out i => do
    let c ← vget h i
    vset out i ((c : P) / (countSum : P))) (List.replicate n 0)

/-- histogram.h 159-166 `normalize`, sparse, after `count_sum` has been computed. -/
def normalizeSparse {K P : Type} [LinearOrder K] [Field P] (h : SMap K Nat) (countSum : Nat) :
    SMap K P :=
  h.foldl (fun out kv => SMap.emplace kv.1 ((kv.2 : P) / (countSum : P)) out) []

/-- histogram.h 199-210 `to_probabilities_vector`, dense, after `total_count` has been computed;
`n` levels. The sparse branch (214-227) cannot be instantiated (`emplace_back` with a braced list). -/
def toProbabilities {P : Type} [Field P] (n : Nat) (h : List Nat) (total : Nat) : Res (List P) :=
  forUp n (fun out i => do
    let c ← getCountDense h i
    vset out i ((c : P) / (total : P))) (List.replicate n 0)

/-- image_operations.h 1309-1321 `histogram_normalized` for `uint8_t` and `uint16_t`, `n` levels. -/
def normalizedDense {P : Type} [Field P] (n : Nat) (im : Image Nat) : Res (List P) :=
  loop (fun out v => do
    let c ← vget out v
    vset out v (c + 1 / (im.count : P))) im.data (List.replicate n 0)

/-- image_operations.h 1324-1341 `histogram_normalized` for other element types. -/
def normalizedSparse {K P : Type} [LinearOrder K] [Field P] (im : Image K) : SMap K P :=
  im.data.foldl (fun out v =>
    SMap.upd v (fun o => match o with
      | some c => c + 1 / (im.count : P)
      | none => 1 / (im.count : P)) out) []

/-- image_operations.h 1372-1418 `normalize_histogram` of an array (with or without a policy: the
transform writes disjoint elements): `sum` is the result of `std::reduce`. -/
def normalizeArray {P : Type} [Field P] (h : List Nat) (sum : Nat) : List P :=
  h.map fun c : Nat => (c : P) / (sum : P)

/-- The conversion of a `double` to `size_t`: undefined behaviour unless the truncated value is
representable. The argument is a result of `std::floor`. Used at image_operations.h 1356. -/
def floorToSize (z : Int) : Res Nat := if 0 ≤ z ∧ z < 2 ^ 64 then .ok z.toNat else .ub

section Bins
variable {P : Type} [Field P] [LinearOrder P] [IsStrictOrderedRing P] [FloorRing P]

/-- image_operations.h 1356: the bin index. A zero range divides by zero (infinity or NaN), whose
conversion to `size_t` is undefined. -/
def binIndex (bins : Nat) (lowest max v : P) : Res Nat :=
  if max - lowest = 0 then .ub else floorToSize ⌊(v * bins) / (max - lowest)⌋

/-- image_operations.h 1344-1367 `histogram_with_bins`; `num` is the conversion of the element type
to `double`, exact here. -/
def withBins {K : Type} (num : K → P) (bins : Nat) (im : Image K) (lowest max : K) :
    Res (List Nat) :=
  loop (fun out v => do
    let b ← binIndex bins (num lowest) (num max) (num v)
    if b = bins then addDense out (bins - 1) else addDense out b) im.data (List.replicate bins 0)

/-- State of the loop of `otsu_threshold`: `w1`, `w2`, `m1`, `m2`, `ssMax`, `maxInd`. image_operations.h
1450-1461. -/
structure OtsuState (P : Type) where
  w1 : P
  w2 : P
  m1 : P
  m2 : P
  ssMax : P
  maxInd : Nat

/-- image_operations.h 1455-1459: total weight and weighted sum. -/
def otsuTotals (h : List P) : P × P :=
  (List.range h.length).foldl (fun s i => (s.1 + h.getD i 0, s.2 + h.getD i 0 * (i : P))) (0, 0)

/-- image_operations.h 1462-1478: one level. A zero weight makes `ss` a NaN (`0/0`, or `0` times an
infinity), and the comparison with a NaN is false. -/
def otsuStep (h : List P) (s : OtsuState P) (i : Nat) : OtsuState P :=
  let tmp := h.getD i 0
  let w1 := s.w1 + tmp
  let w2 := s.w2 - tmp
  let m1 := s.m1 + tmp * (i : P)
  let m2 := s.m2 - tmp * (i : P)
  if w1 = 0 ∨ w2 = 0 then ⟨w1, w2, m1, m2, s.ssMax, s.maxInd⟩
  else
    let c := m1 / w1 - m2 / w2
    let ss := w1 * w2 * c * c
    if ss > s.ssMax then ⟨w1, w2, m1, m2, ss, i⟩ else ⟨w1, w2, m1, m2, s.ssMax, s.maxInd⟩

/-- image_operations.h 1445-1481 `otsu_threshold` of a histogram. -/
def otsu (h : List P) : Nat :=
  let t := otsuTotals h
  let s := (List.range h.length).foldl (otsuStep h) ⟨0, t.1, 0, t.2, -1000000, 0⟩
  if s.ssMax = -1000000 then h.length else s.maxInd

end Bins

/-- image_operations.h 1542-1551 `apply_threshold_openmp` with 1527-1540 `apply_each_pixel_openmp`:
the iterations run in the order `order`; `lo`, `hi` are the limits of the element type. -/
def applyThreshold {K : Type} [LinearOrder K] (zero lo hi : K) (order : List Nat) (im : Image K)
    (threshold : K) : Res (Image K) := do
  let out ← loop (fun out i => do
    let v ← vget im.data i
    vset out i (if v > threshold then hi else lo)) order (List.replicate im.count zero)
  Image.ofData out im.size

end Hist
end TinyDIP
