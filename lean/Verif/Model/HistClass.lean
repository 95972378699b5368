import Verif.Model.Hist
import Mathlib.Order.Fin.Basic

/-!
# The class `Histogram` (histogram.h) as an object, and `otsu_threshold` of an image

The member `histogram` is a `std::variant` of a vector and a map. Which alternative a member function asks
for is fixed by the element type (`is_dense`); asking for the other one throws `std::bad_variant_access`,
written `.throw .logic` here (that class is derived from `std::exception` only). Counts are `std::size_t`.

The compound operators (`+=`, `+`, `-=`, `-`, histogram.h 326-410) are `const` members that assign to the
object, or return a temporary through a reference: they do not compile when used, and are not modelled.
-/

namespace TinyDIP.Hist

/-- The variant member, histogram.h 23. -/
inductive Store (K : Type)
  | vec (v : List Nat)
  | map (m : SMap K Nat)

section
variable {K : Type} [LinearOrder K]

/-- histogram.h 24-25 `is_dense`, the number of levels `numeric_limits::max() + 1` (31), and the conversion of
an element to an index (129). -/
structure Levels (K : Type) where
  dense : Bool
  n : Nat
  idx : K → Nat

/-- `std::uint8_t` (`n = 256`) and `std::uint16_t` (`n = 65536`): histogram.h 24-25. -/
def Levels.unsigned (n : Nat) : Levels (Fin n) := ⟨true, n, Fin.val⟩

/-- Every other element type: histogram.h 24-25. -/
def Levels.other (K : Type) : Levels K := ⟨false, 0, fun _ => 0⟩

/-- `std::get<std::vector<CountT>>(histogram)`, e.g. histogram.h 74: the wrong alternative throws. -/
def Store.getVec : Store K → Res (List Nat)
  | .vec v => .ok v
  | .map _ => .throw .logic

/-- `std::get<std::map<ElementT, CountT>>(histogram)`, e.g. histogram.h 78: the wrong alternative throws. -/
def Store.getMap : Store K → Res (SMap K Nat)
  | .map m => .ok m
  | .vec _ => .throw .logic

/-- histogram.h 29-39, the default constructor. -/
def Store.empty (L : Levels K) : Store K :=
  if L.dense then .vec (List.replicate L.n 0) else .map []

/-- histogram.h 41-44, the constructor from a map. -/
def Store.ofMap (m : SMap K Nat) : Store K := .map m

/-- histogram.h 46-49, the constructor from a vector. -/
def Store.ofVec (v : List Nat) : Store K := .vec v

/-- histogram.h 123-139 `addCount`. -/
def Store.addCount (L : Levels K) (h : Store K) (k : K) : Res (Store K) :=
  if L.dense then do
    let v ← h.getVec
    let v' ← addDense v (L.idx k)
    .ok (.vec v')
  else do
    let m ← h.getMap
    .ok (.map (addSparse m k))

/-- histogram.h 52-67, the constructor from an image. -/
def Store.ofImage (L : Levels K) (im : Image K) : Res (Store K) :=
  loop (Store.addCount L) im.data (Store.empty L)

/-- histogram.h 70-88 `getCount`. -/
def Store.getCount (L : Levels K) (h : Store K) (k : K) : Res Nat :=
  if L.dense then do
    let v ← h.getVec
    getCountDense v (L.idx k)
  else do
    let m ← h.getMap
    getCountSparse m k

/-- histogram.h 91-120 `getCountSum`: the allowed results. -/
def Store.CountSum (L : Levels K) (h : Store K) (r : Res Nat) : Prop :=
  if L.dense then
    match h with
    | .vec v => ∃ s, CountSumDense v s ∧ r = .ok s
    | .map _ => r = .throw .logic
  else
    match h with
    | .map m => ∃ s, CountSumSparse m s ∧ r = .ok s
    | .vec _ => r = .throw .logic

/-- histogram.h 175-187 `size`. -/
def Store.size (L : Levels K) (h : Store K) : Res Nat :=
  if L.dense then do
    let v ← h.getVec
    .ok v.length
  else do
    let m ← h.getMap
    .ok m.length

/-- histogram.h 413-430, `operator[]` of a non-constant histogram: the value referred to, and the histogram
afterwards (a map inserts an absent key). -/
def Store.index (L : Levels K) (h : Store K) (k : K) : Res (Nat × Store K) :=
  if L.dense then do
    let v ← h.getVec
    if L.idx k ≥ v.length then .throw .outOfRange
    else do
      let c ← vget v (L.idx k)
      .ok (c, .vec v)
  else do
    let m ← h.getMap
    let m' := SMap.upd k (fun o => o.getD 0) m
    .ok ((SMap.find k m').getD 0, .map m')

/-- histogram.h 413-430, `h[k] = c` through the returned reference. -/
def Store.assign (L : Levels K) (h : Store K) (k : K) (c : Nat) : Res (Store K) :=
  if L.dense then do
    let v ← h.getVec
    if L.idx k ≥ v.length then .throw .outOfRange
    else do
      let v' ← vset v (L.idx k) c
      .ok (.vec v')
  else do
    let m ← h.getMap
    .ok (.map (SMap.upd k (fun _ => c) m))

/-- histogram.h 433-458, `operator[]` of a constant histogram. -/
def Store.indexConst (L : Levels K) (h : Store K) (k : K) : Res Nat :=
  if L.dense then do
    let v ← h.getVec
    if L.idx k ≥ v.length then .ok 0
    else vget v (L.idx k)
  else do
    let m ← h.getMap
    match SMap.find k m with
    | some c => .ok c
    | none => .ok 0

/-! ### Iterating over a histogram: histogram.h 240-323

`begin`, `end`, `cbegin` and `cend` copy the container into a local variable and return an iterator into
that copy, which is destroyed when the function returns. Containers are blocks of memory: `none` is a block
whose container has been destroyed. -/

/-- An iterator: which container, and the position in it. histogram.h 240-323. -/
structure Iter where
  blk : Nat
  pos : Nat

/-- The memory: the containers created so far. histogram.h 240-323. -/
abbrev Mem (β : Type) := List (Option (List β))

/-- The elements seen by iterating: counts of a vector, or key and count of a map. histogram.h 240-323. -/
def Store.elems : Store K → List (Option K × Nat)
  | .vec v => v.map fun c => (none, c)
  | .map m => m.map fun kc => (some kc.1, kc.2)

/-- A call of `begin()` or `end()` (histogram.h 240-323): the local copy is created, the iterator at `pos` is
made, and the copy is destroyed at the return. -/
def Store.localIter (L : Levels K) (h : Store K) (atEnd : Bool) (mem : Mem (Option K × Nat)) :
    Res (Iter × Mem (Option K × Nat)) :=
  let ret (n : Nat) := Res.ok (⟨mem.length, if atEnd then n else 0⟩, mem ++ [none])
  if L.dense then do
    let v ← h.getVec
    ret v.length
  else do
    let m ← h.getMap
    ret m.length

/-- `a != b`: iterators may be compared only when both point into the same container and it exists. Used by
every loop over a histogram (histogram.h 273-323). -/
def Iter.ne {β : Type} (mem : Mem β) (a b : Iter) : Res Bool :=
  if a.blk ≠ b.blk then .ub
  else match mem[a.blk]? with
    | some (some _) => .ok (a.pos != b.pos)
    | _ => .ub

/-- `*a`: the container must exist and the position be one of its elements (histogram.h 273-323). -/
def Iter.deref {β : Type} (mem : Mem β) (a : Iter) : Res β :=
  match mem[a.blk]? with
  | some (some l) => vget l a.pos
  | _ => .ub

/-- The loop of a range-`for` statement: `for (; it != last; ++it) body(*it)`, at most `fuel` rounds; `none`
means it has not ended by then. The statement runs on the iterators of histogram.h 273-323. -/
def rangeLoop {β σ : Type} (mem : Mem β) (last : Iter) (body : σ → β → σ) :
    Nat → Iter → σ → Res (Option σ)
  | 0, _, _ => .ok none
  | fuel + 1, it, s => do
    let go ← it.ne mem last
    if go then do
      let e ← it.deref mem
      rangeLoop mem last body fuel ⟨it.blk, it.pos + 1⟩ (body s e)
    else .ok (some s)

/-- `for (auto& e : histogram) body(e)`: histogram.h 273-297 supply `begin()` and `end()`. -/
def Store.forEach {σ : Type} (L : Levels K) (h : Store K) (mem : Mem (Option K × Nat))
    (body : σ → Option K × Nat → σ) (s : σ) (fuel : Nat) : Res (Option σ) := do
  let (b, mem1) ← h.localIter L false mem
  let (e, mem2) ← h.localIter L true mem1
  rangeLoop mem2 e body fuel b s

/-! ### Otsu's threshold of an image -/

variable {P : Type} [Field P]

/-- histogram.h 199-210 with 91-120 `to_probabilities_vector` for `n` unsigned levels, whatever the grouping of the
sum. The sparse branch (214-227) cannot be instantiated (`emplace_back` with a braced list). -/
def Store.Probabilities (n : Nat) [NeZero n] (h : Store (Fin n)) (r : Res (List P)) : Prop :=
  ∃ t, h.CountSum (.unsigned n) t ∧ r = (do
    let total ← t
    forUp n (fun out i => do
      let c ← h.getCount (.unsigned n) (Fin.ofNat n i)
      vset out i ((c : P) / (total : P))) (List.replicate n 0))

/-- image_operations.h 1490-1512 `otsu_threshold` of an image (both overloads): the allowed results. -/
def OtsuImage (P : Type) [Field P] [LinearOrder P] (n : Nat) [NeZero n]
    (im : Image (Fin n)) (r : Res Nat) : Prop :=
  ∃ hist, Store.ofImage (.unsigned n) im = hist ∧
    match hist with
    | .ok h => ∃ p : Res (List P), h.Probabilities n p ∧ r = (do let l ← p; .ok (otsu l))
    | .throw e => r = .throw e
    | .ub => r = .ub

/-- image_operations.h 1420-1442 `normalize_histogram` of a `std::map` (both overloads) with the sum of
`sum_second_element` (basic_functions.h 3312-3323), for an unsigned count type of `M` values: the sum has the
count type. -/
def normalizeMap {P : Type} [Field P] (M : Nat) (input : SMap K Nat) : SMap K P :=
  let sum := input.foldl (fun s kv => (s + kv.2) % M) 0
  input.foldl (fun out kv => SMap.emplace kv.1 ((kv.2 : P) / (sum : P)) out) []

end
end TinyDIP.Hist
