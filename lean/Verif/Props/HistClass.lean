import Verif.Lemmas.Samples
import Verif.Lemmas.HistClass
import Verif.Props.Hist
import Mathlib.Algebra.BigOperators.Field

/-!
# Properties C161 to C164: histogram objects, loops over them, thresholds of images, normalised maps
-/

namespace TinyDIP.Props

open TinyDIP Image Hist

variable {K : Type} [LinearOrder K] {L : Levels K} {hist : Store K} {cnt : K → Nat}

theorem unsigned_good (n : Nat) : (Levels.unsigned n).Good :=
  fun _ => ⟨fun a b h => Fin.ext h, fun k => k.isLt⟩

theorem other_good (K : Type) : (Levels.other K).Good := fun h => absurd h (by simp [Levels.other])

/-! ## C161 histogram objects -/

/-- A new histogram counts nothing. -/
theorem C161_new (hL : L.Good) : (Store.empty L).Counts L fun _ => 0 := by
  unfold Store.empty
  cases hd : L.dense with
  | true =>
    refine ⟨hd, by simp, fun k => ?_⟩
    rw [List.getElem?_replicate, if_pos ((hL hd).2 k)]
  | false => exact ⟨hd, by simp, by simp, by simp⟩

example := C161_new (unsigned_good 4)

/-- Counting one more element adds one to its level and to no other. -/
theorem C161_addCount (hL : L.Good) (hc : hist.Counts L cnt) (k : K) (hb : cnt k + 1 < 2 ^ 64) :
    ∃ h', hist.addCount L k = .ok h' ∧ h'.Counts L (Function.update cnt k (cnt k + 1)) := by
  cases hist with
  | vec v =>
    obtain ⟨hd, hl, hv⟩ := hc
    have hlt : L.idx k < v.length := by rw [hl]; exact (hL hd).2 k
    have hk : v[L.idx k] = cnt k := by
      have := hv k; rw [List.getElem?_eq_getElem hlt] at this; injection this
    refine ⟨.vec (v.set (L.idx k) (cnt k + 1)), ?_, hd, by simpa using hl, fun j => ?_⟩
    · unfold Store.addCount
      simp only [hd, if_true, Store.getVec, Res.ok_bind]
      rw [addDense_ok hlt (by rw [hk]; exact hb), hk]
      rfl
    · rw [List.getElem?_set]
      by_cases hj : j = k
      · subst hj; simp [hlt]
      · rw [if_neg (fun e => hj ((hL hd).1 _ _ e).symm), hv j, Function.update_of_ne hj]
  | map m =>
    rw [counts_map] at hc
    obtain ⟨hd, hs, hf⟩ := hc
    refine ⟨.map (addSparse m k), ?_, ?_⟩
    · unfold Store.addCount; simp [hd, Store.getMap]
    · rw [counts_map]
      refine ⟨hd, hs.upd, fun j => ?_⟩
      unfold addSparse
      rw [SMap.find_upd hs]
      by_cases hj : j = k
      · subst hj
        rw [if_pos rfl, hf j, wadd_of_lt hb]; simp
      · rw [if_neg hj, hf j, Function.update_of_ne hj]

example := C161_addCount (unsigned_good 4) (C161_new (unsigned_good 4)) 3 (by decide)

/-- The histogram of an image holds, for every level, the number of pixels of that level. -/
theorem C161_image (hL : L.Good) {im : Image K} {w h : Nat} {f : Nat → Nat → K} (s : im.Shows w h f) :
    ∃ hist, Store.ofImage L im = .ok hist ∧
      hist.Counts L fun k => pixelCount w h f fun a => a == k := by
  have key : ∀ (l : List K) (h0 : Store K) (c0 : K → Nat), h0.Counts L c0 →
      (∀ k, c0 k + l.length < 2 ^ 64) →
      ∃ h', loop (Store.addCount L) l h0 = .ok h' ∧ h'.Counts L fun k => c0 k + l.count k := by
    intro l
    induction l with
    | nil => intro h0 c0 hc _; exact ⟨h0, rfl, by simpa using hc⟩
    | cons a l ih =>
      intro h0 c0 hc hb
      simp only [List.length_cons] at hb
      obtain ⟨h1, e1, c1⟩ := C161_addCount hL hc a (by have := hb a; omega)
      obtain ⟨h2, e2, c2⟩ := ih h1 _ c1 (by
        intro k
        by_cases hk : k = a
        · subst hk; have := hb k; simp; omega
        · rw [Function.update_of_ne hk]; have := hb k; omega)
      refine ⟨h2, by rw [loop, e1]; exact e2, ?_⟩
      have : (fun k => c0 k + (a :: l).count k) =
          fun k => Function.update c0 a (c0 a + 1) k + l.count k := by
        funext k
        by_cases hk : k = a
        · subst hk; simp [List.count_cons_self]; omega
        · rw [Function.update_of_ne hk, List.count_cons_of_ne (Ne.symm hk)]
      rw [this]; exact c2
  obtain ⟨h', e, c⟩ := key im.data (Store.empty L) _ (C161_new hL) (by
    intro k; rw [s.len]; have := s.fits; omega)
  refine ⟨h', e, ?_⟩
  have : (fun k => pixelCount w h f fun a => a == k) = fun k => 0 + im.data.count k := by
    funext k; rw [← pixelCount_eq s, List.count_eq_countP]; omega
  rw [this]; exact c

example := C161_image (unsigned_good 4) (picture_shows 2 2 fun x y => (if x = y then 1 else 3 : Fin 4))

/-- All four ways of asking for the count of a level agree, and asking changes no count. -/
theorem C161_read (hL : L.Good) (hc : hist.Counts L cnt) (k : K) :
    hist.getCount L k = .ok (cnt k) ∧ hist.indexConst L k = .ok (cnt k) ∧
    ∃ h', hist.index L k = .ok (cnt k, h') ∧ h'.Counts L cnt := by
  cases hist with
  | vec v =>
    obtain ⟨hd, hl, hv⟩ := hc
    have hlt : L.idx k < v.length := by rw [hl]; exact (hL hd).2 k
    have hg : vget v (L.idx k) = .ok (cnt k) := by unfold vget; rw [hv k]
    refine ⟨?_, ?_, .vec v, ?_, hd, hl, hv⟩
    · simp [Store.getCount, hd, Store.getVec, getCountDense, hlt, hg]
    · simp only [Store.indexConst, hd, if_true, Store.getVec, Res.ok_bind]
      rw [if_neg (by omega), hg]
    · simp only [Store.index, hd, if_true, Store.getVec, Res.ok_bind]
      rw [if_neg (by omega), hg]; rfl
  | map m =>
    rw [counts_map] at hc
    obtain ⟨hd, hs, hf⟩ := hc
    have hfind : (match SMap.find k m with | some c => (Res.ok c : Res Nat) | none => .ok 0) = .ok (cnt k) := by
      rw [← hf k]
      cases SMap.find k m <;> rfl
    refine ⟨?_, ?_, .map (SMap.upd k (fun o => o.getD 0) m), ?_, ?_⟩
    · simp only [Store.getCount, hd, Store.getMap, Res.ok_bind, getCountSparse]; exact hfind
    · simp only [Store.indexConst, hd, Store.getMap, Res.ok_bind]; exact hfind
    · simp only [Store.index, hd, Store.getMap, Res.ok_bind]
      rw [SMap.find_upd hs, if_pos rfl, hf k]
      rfl
    · rw [counts_map]
      refine ⟨hd, hs.upd, fun j => ?_⟩
      rw [SMap.find_upd hs]
      by_cases hj : j = k
      · subst hj; rw [if_pos rfl, hf j]; rfl
      · rw [if_neg hj, hf j]

example := C161_read (unsigned_good 4) (C161_new (unsigned_good 4)) 2

/-- `h[k] = c` stores `c` for `k` and changes no other count. -/
theorem C161_write (hL : L.Good) (hc : hist.Counts L cnt) (k : K) (c : Nat) :
    ∃ h', hist.assign L k c = .ok h' ∧ h'.Counts L (Function.update cnt k c) := by
  cases hist with
  | vec v =>
    obtain ⟨hd, hl, hv⟩ := hc
    have hlt : L.idx k < v.length := by rw [hl]; exact (hL hd).2 k
    refine ⟨.vec (v.set (L.idx k) c), ?_, hd, by simpa using hl, fun j => ?_⟩
    · simp only [Store.assign, hd, if_true, Store.getVec, Res.ok_bind]
      rw [if_neg (by omega), vset_eq_ok _ hlt]; rfl
    · rw [List.getElem?_set]
      by_cases hj : j = k
      · subst hj; simp [hlt]
      · rw [if_neg (fun e => hj ((hL hd).1 _ _ e).symm), hv j, Function.update_of_ne hj]
  | map m =>
    rw [counts_map] at hc
    obtain ⟨hd, hs, hf⟩ := hc
    refine ⟨.map (SMap.upd k (fun _ => c) m), by simp [Store.assign, hd, Store.getMap], ?_⟩
    rw [counts_map]
    refine ⟨hd, hs.upd, fun j => ?_⟩
    rw [SMap.find_upd hs]
    by_cases hj : j = k
    · subst hj; simp
    · rw [if_neg hj, hf j, Function.update_of_ne hj]

example := C161_write (unsigned_good 4) (C161_new (unsigned_good 4)) 2 17

/-- `size()` of a histogram of unsigned elements is the number of levels, whatever has been counted. -/
theorem C161_size_dense (hc : hist.Counts L cnt) (hd : L.dense = true) : hist.size L = .ok L.n := by
  cases hist with
  | vec v => simp [Store.size, hd, Store.getVec, hc.2.1]
  | map m => rw [hc.1] at hd; cases hd

example := C161_size_dense (C161_new (unsigned_good 4)) rfl

/-- Reading `h[k]` of a non-constant map histogram inserts the level `k` when it is absent: `size()` grows by
one although nothing has been counted. -/
theorem C161_size_violation {m : SMap K Nat} (hc : (Store.map m).Counts L cnt) (k : K)
    (hk : k ∉ m.map (·.1)) :
    ∃ h', (Store.map m).index L k = .ok (0, h') ∧ (Store.map m).size L = .ok m.length ∧
      h'.size L = .ok (m.length + 1) := by
  rw [counts_map] at hc
  obtain ⟨hd, hs, hf⟩ := hc
  have h0 : SMap.find k m = none := (find_none_iff m k).2 hk
  refine ⟨.map (SMap.upd k (fun o => o.getD 0) m), ?_, by simp [Store.size, hd, Store.getMap], ?_⟩
  · simp only [Store.index, hd, Store.getMap, Res.ok_bind]
    rw [SMap.find_upd hs, if_pos rfl, h0]; rfl
  · simp only [Store.size, hd, Store.getMap, Res.ok_bind]
    rw [upd_length _ _ _ hs, if_neg hk]; rfl

/-- A histogram built from a container of the wrong kind for its element type refuses everything. -/
theorem C161_wrong_kind (m : SMap K Nat) (v : List Nat) (k : K) (c : Nat) :
    (L.dense = true → (Store.ofMap m).getCount L k = .throw .logic ∧ (Store.ofMap m).addCount L k = .throw .logic ∧
      (Store.ofMap m).index L k = .throw .logic ∧ (Store.ofMap m).indexConst L k = .throw .logic ∧
      (Store.ofMap m).assign L k c = .throw .logic ∧ (Store.ofMap m).size L = .throw .logic) ∧
    (L.dense = false → (Store.ofVec v : Store K).getCount L k = .throw .logic ∧
      (Store.ofVec v : Store K).addCount L k = .throw .logic ∧
      (Store.ofVec v : Store K).index L k = .throw .logic ∧ (Store.ofVec v : Store K).indexConst L k = .throw .logic ∧
      (Store.ofVec v : Store K).assign L k c = .throw .logic ∧ (Store.ofVec v : Store K).size L = .throw .logic) := by
  constructor <;> intro hd <;>
    simp [Store.ofMap, Store.ofVec, Store.getCount, Store.addCount, Store.index, Store.indexConst, Store.assign,
      Store.size, hd, Store.getVec, Store.getMap]

/-- A histogram built from too short a vector: `getCount` and `h[k]` throw for the missing levels, a constant
`h[k]` answers 0, and `addCount` writes outside the vector. -/
theorem C161_short_vector (v : List Nat) (k : K) (hd : L.dense = true) (hk : v.length ≤ L.idx k) :
    (Store.ofVec v : Store K).getCount L k = .throw .outOfRange ∧
    (Store.ofVec v : Store K).index L k = .throw .outOfRange ∧
    (Store.ofVec v : Store K).indexConst L k = .ok 0 ∧ (Store.ofVec v : Store K).addCount L k = .ub := by
  refine ⟨?_, ?_, ?_, ?_⟩
  · simp only [Store.ofVec, Store.getCount, hd, if_true, Store.getVec, Res.ok_bind, getCountDense]
    rw [if_neg (by omega)]
  · simp only [Store.ofVec, Store.index, hd, if_true, Store.getVec, Res.ok_bind]
    rw [if_pos (by omega)]
  · simp only [Store.ofVec, Store.indexConst, hd, if_true, Store.getVec, Res.ok_bind]
    rw [if_pos (by omega)]
  · simp only [Store.ofVec, Store.addCount, hd, if_true, Store.getVec, Res.ok_bind, addDense, vget]
    rw [List.getElem?_eq_none hk]; rfl

/-- Concrete cases: a vector for four levels and a map over the integers. -/
example : (Levels.unsigned 4).Good ∧
    (Store.vec [0, 2, 0, 1] : Store (Fin 4)).Counts (.unsigned 4) (fun k => [0, 2, 0, 1].getD k.val 0) ∧
    (Store.map [(-3, 2), (5, 1)] : Store Int).Counts (.other Int)
      (fun k => if k = -3 then 2 else if k = 5 then 1 else 0) ∧
    (7 : Int) ∉ ([(-3, 2), (5, 1)] : SMap Int Nat).map (·.1) ∧
    ([1, 2] : List Nat).length ≤ (Levels.unsigned 4).idx 3 := by
  refine ⟨unsigned_good 4, ⟨rfl, rfl, by decide⟩, ⟨rfl, by decide, ?_, ?_⟩, by decide, by decide⟩
  · intro k c hm
    simp only [List.mem_cons, Prod.mk.injEq, List.not_mem_nil, or_false] at hm
    rcases hm with ⟨rfl, rfl⟩ | ⟨rfl, rfl⟩ <;> rfl
  · intro k hk
    simp only [List.map_cons, List.map_nil, List.mem_cons, List.not_mem_nil, or_false, not_or] at hk
    simp only [if_neg hk.1, if_neg hk.2]

/-! ## C162 loops over a histogram -/

/-- What a loop does when its iterators point into a container that exists: it runs the body on every element, in
order, and ends. Missing: the loop as the class offers it, see `C162_violation`. -/
theorem C162_live_loop_partial {β σ : Type} (mem : Mem β) (i : Nat) (l : List β) (hi : mem[i]? = some (some l))
    (body : σ → β → σ) (s : σ) :
    ∀ fuel, l.length < fuel → rangeLoop mem ⟨i, l.length⟩ body fuel ⟨i, 0⟩ s = .ok (some (l.foldl body s)) := by
  have key : ∀ (rest pre : List β) (s : σ) (fuel : Nat), l = pre ++ rest → rest.length < fuel →
      rangeLoop mem ⟨i, l.length⟩ body fuel ⟨i, pre.length⟩ s = .ok (some (rest.foldl body s)) := by
    intro rest
    induction rest with
    | nil =>
      intro pre s fuel hl hf
      obtain ⟨fuel, rfl⟩ : ∃ m, fuel = m + 1 := ⟨fuel - 1, by simp at hf; omega⟩
      have : l.length = pre.length := by rw [hl]; simp
      simp [rangeLoop, Iter.ne, hi, this]
    | cons a rest ih =>
      intro pre s fuel hl hf
      obtain ⟨fuel, rfl⟩ : ∃ m, fuel = m + 1 := ⟨fuel - 1, by simp at hf; omega⟩
      have hlen : l.length = pre.length + (rest.length + 1) := by rw [hl]; simp
      have hget : l[pre.length]? = some a := by rw [hl]; simp
      have h1 := ih (pre ++ [a]) (body s a) fuel (by rw [hl]; simp) (by simp at hf; omega)
      rw [List.length_append] at h1
      have hne : (pre.length != l.length) = true := by simp; omega
      simp only [rangeLoop, Iter.ne, hi, ne_eq, not_true_eq_false, if_false, Res.ok_bind, hne, if_true,
        Iter.deref, vget, hget]
      exact h1
  intro fuel hf
  simpa using key l [] s fuel rfl hf

example := C162_live_loop_partial [none, some [3, 4, 5]] 1 [3, 4, 5] rfl (fun s b : Nat => 10 * s + b) 0 4 (by decide)

/-- A range-`for` over a `Histogram` has undefined behaviour, whatever the histogram holds (even nothing),
whatever the body does: `begin()` and `end()` return iterators into two copies that no longer exist. -/
theorem C162_violation {σ : Type} (hc : hist.Counts L cnt) (mem : Mem (Option K × Nat))
    (body : σ → Option K × Nat → σ) (s : σ) (fuel : Nat) :
    hist.forEach L mem body s (fuel + 1) = .ub := by
  have hne : ¬ mem.length = (mem ++ [(none : Option (List (Option K × Nat)))]).length := by simp
  cases hist with
  | vec v =>
    obtain ⟨hd, _, _⟩ := hc
    simp only [Store.forEach, Store.localIter, hd, if_true, Store.getVec, Res.ok_bind, rangeLoop, Iter.ne,
      ne_eq, hne, not_false_eq_true]
    rfl
  | map m =>
    obtain ⟨hd, _, _⟩ := hc
    simp only [Store.forEach, Store.localIter, hd, Bool.false_eq_true, if_false, Store.getMap, Res.ok_bind,
      rangeLoop, Iter.ne, ne_eq, hne, not_false_eq_true, if_true]
    rfl

/-- Even the first element cannot be read through `begin()`. -/
theorem C162_first_violation (hc : hist.Counts L cnt) (mem : Mem (Option K × Nat)) :
    ∃ it mem', hist.localIter L false mem = .ok (it, mem') ∧ it.deref mem' = .ub := by
  refine ⟨⟨mem.length, 0⟩, mem ++ [none], ?_, by simp [Iter.deref]⟩
  cases hist with
  | vec v => simp [Store.localIter, hc.1, Store.getVec]
  | map m => simp [Store.localIter, hc.1, Store.getMap]

/-- Concrete case: the container of the loop that works exists. -/
example : ([none, some [(none, 3), (none, 4)]] : Mem (Option Int × Nat))[1]? = some (some [(none, 3), (none, 4)]) :=
  rfl

/-! ## C163 the threshold of an image -/

section Otsu
variable {n : Nat} [NeZero n]

theorem probabilities_ok {P : Type} [Field P] {h : Store (Fin n)} {c : Fin n → Nat} (hc : h.Counts (.unsigned n) c)
    (total : Nat) :
    forUp n (fun out i => do
      let c ← h.getCount (.unsigned n) (Fin.ofNat n i)
      vset out i ((c : P) / (total : P))) (List.replicate n 0) =
      .ok ((List.finRange n).map fun v => (c v : P) / (total : P)) := by
  unfold forUp
  refine loop_listMap (List.finRange n) (by simp) (fun v => (c v : P) / (total : P)) _ (List.range n) ?_
    (List.replicate n 0) List.length_replicate (.refl _)
  intro i hi a ha d hd
  rw [List.mem_range] at hi
  have ea : a = Fin.ofNat n i := by
    rw [List.getElem?_eq_getElem (by simpa using hi)] at ha
    injection ha with ha
    rw [← ha, List.getElem_finRange]
    ext
    simp [Nat.mod_eq_of_lt hi]
  rw [(C161_read (unsigned_good n) hc (Fin.ofNat n i)).1, ← ea]
  simp only [Res.ok_bind]
  exact vset_eq_ok _ (by omega)

/-- The histogram of an image and its total. -/
theorem levels_of_image {im : Image (Fin n)} {w h : Nat} {f : Nat → Nat → Fin n} (s : im.Shows w h f) :
    ∃ v, Store.ofImage (.unsigned n) im = .ok (.vec v) ∧
      (Store.vec v : Store (Fin n)).Counts (.unsigned n) (fun i => pixelCount w h f fun a => a == i) ∧
      (∀ i : Fin n, v[i.val]? = some ((im.data.map Fin.val).count i.val)) ∧
      (∀ r, (Store.vec v : Store (Fin n)).CountSum (.unsigned n) r → r = .ok (w * h)) ∧
      ∃ t, (Store.vec v : Store (Fin n)).CountSum (.unsigned n) t := by
  obtain ⟨hist, he, hc⟩ := C161_image (unsigned_good n) s
  obtain ⟨v, rfl⟩ : ∃ v, hist = .vec v := by
    cases hist with
    | vec v => exact ⟨v, rfl⟩
    | map m => exact absurd hc.1 (by simp [Levels.unsigned])
  -- the total
  have hcnt : ∀ i : Fin n, v[i.val]? = some ((im.data.map Fin.val).count i.val) := by
    intro i
    have := hc.2.2 i
    simp only [Levels.unsigned] at this
    rw [this, ← pixelCount_eq s, List.count_eq_countP, List.countP_map]
    congr 2
    funext a
    simp [Fin.ext_iff, Function.comp, BEq.beq]
  have hsum : v.sum = w * h := by
    have hv : v = (List.range n).map fun i => (im.data.map Fin.val).count i := by
      apply List.ext_getElem?
      intro i
      by_cases hi : i < n
      · rw [hcnt ⟨i, hi⟩, List.getElem?_map, List.getElem?_range hi]; rfl
      · rw [List.getElem?_eq_none (by rw [hc.2.1]; simp [Levels.unsigned]; omega), List.getElem?_eq_none (by simp; omega)]
    obtain ⟨m, rfl⟩ : ∃ m, n = m + 1 := ⟨n - 1, by have := NeZero.pos n; omega⟩
    have := sum_count_le im.data m
    have hr : ∀ (g : Nat → Nat) (j : Nat), ((List.range j).map g).sum = ∑ i ∈ Finset.range j, g i := by
      intro g j
      induction j with
      | zero => rfl
      | succ j ih => simp [List.range_succ, Finset.sum_range_succ, ih]
    rw [hv, hr, this, List.countP_eq_length.2, s.len]
    intro a _
    have := a.isLt
    simp; omega
  have htot : ∀ r, (Store.vec v : Store (Fin n)).CountSum (.unsigned n) r → r = .ok (w * h) := by
    rintro r ⟨t, ht, rfl⟩
    rw [reduce_sum ht (by rw [hsum]; have := s.fits; omega), hsum]
  have hex : ∃ t, (Store.vec v : Store (Fin n)).CountSum (.unsigned n) t :=
    ⟨_, _, stdReduce_exists _ _ _, rfl⟩
  exact ⟨v, he, hc, hcnt, htot, hex⟩

/-- Each level's share of the pixels. -/
def shares (n : Nat) [NeZero n] (w h : Nat) (f : Nat → Nat → Fin n) : List ℚ := (List.finRange n).map fun i =>
  ((pixelCount w h f fun a => a == i : Nat) : ℚ) / ((w * h : Nat) : ℚ)

theorem shares_facts {im : Image (Fin n)} {w h : Nat} {f : Nat → Nat → Fin n} (s : im.Shows w h f) (hne : 0 < w * h) :
    (shares n w h f).length = n ∧ (∀ k, k < n → lowWeight (shares n w h f) k = (darkCount w h f k : ℚ) / ((w * h : Nat) : ℚ)) ∧
    (∀ k, k < n → highWeight (shares n w h f) k = (brightCount w h f k : ℚ) / ((w * h : Nat) : ℚ)) ∧
    ∀ k, k < n → betweenVar (shares n w h f) k = separation w h f k / ((w * h : Nat) : ℚ) ^ 2 := by
  obtain ⟨v, he, hc, hcnt, htot, hex⟩ := levels_of_image s
  obtain ⟨prob, hprobdef⟩ : ∃ prob, prob = shares n w h f := ⟨_, rfl⟩
  rw [← hprobdef]
  have hN : (0 : ℚ) < ((w * h : Nat) : ℚ) := by exact_mod_cast hne
  have hlen : prob.length = n := by simp [hprobdef, shares]
  have hgetD : ∀ i, i < n → prob.getD i 0 = ((im.data.map Fin.val).count i : ℚ) / ((w * h : Nat) : ℚ) := by
    intro i hi
    have e1 := hc.2.2 ⟨i, hi⟩
    have e2 := hcnt ⟨i, hi⟩
    simp only [Levels.unsigned] at e1
    rw [e1] at e2
    injection e2 with e2
    simp only [hprobdef, shares, List.getD_eq_getElem?_getD, List.getElem?_map]
    rw [List.getElem?_eq_getElem (by simpa using hi), List.getElem_finRange]
    simp only [Option.map_some, Option.getD_some]
    rw [← e2]
    rfl
  have low : ∀ k, k < n → lowWeight prob k = (darkCount w h f k : ℚ) / ((w * h : Nat) : ℚ) := by
    intro k hk
    unfold lowWeight darkCount
    rw [Finset.sum_congr rfl fun i hi => hgetD i (by rw [Finset.mem_range] at hi; omega), ← Finset.sum_div,
      ← pixelCount_eq s, ← sum_count_le]
    push_cast; rfl
  have high : ∀ k, k < n → highWeight prob k = (brightCount w h f k : ℚ) / ((w * h : Nat) : ℚ) := by
    intro k hk
    unfold highWeight brightCount
    rw [hlen, Finset.sum_congr rfl fun i hi => hgetD i (by rw [Finset.mem_Ico] at hi; omega), ← Finset.sum_div,
      ← pixelCount_eq s, ← sum_count_gt]
    push_cast; rfl
  have lmean : ∀ k, k < n → lowMean prob k = darkMean w h f k := by
    intro k hk
    unfold lowMean darkMean
    rw [low k hk, Finset.sum_congr rfl fun i hi => by
        rw [hgetD i (by rw [Finset.mem_range] at hi; omega), div_mul_eq_mul_div],
      ← Finset.sum_div, div_div_div_cancel_right₀ hN.ne', ← pixelSum_eq s Fin.val, ← sum_mul_le]
    push_cast; rfl
  have hmean : ∀ k, k < n → highMean prob k = brightMean w h f k := by
    intro k hk
    unfold highMean brightMean
    rw [hlen, high k hk, Finset.sum_congr rfl fun i hi => by
        rw [hgetD i (by rw [Finset.mem_Ico] at hi; omega), div_mul_eq_mul_div],
      ← Finset.sum_div, div_div_div_cancel_right₀ hN.ne', ← pixelSum_eq s Fin.val, ← sum_mul_gt]
    push_cast; rfl
  have hvar : ∀ k, k < n → betweenVar prob k = separation w h f k / ((w * h : Nat) : ℚ) ^ 2 := by
    intro k hk
    unfold betweenVar separation
    rw [low k hk, high k hk, lmean k hk, hmean k hk]
    field_simp
  exact ⟨hlen, low, high, hvar⟩

/-- For every image of unsigned elements with at least one pixel (exact arithmetic), whatever the grouping of the sums: if all
pixels are equal the result is the number of levels; otherwise it is the first level that separates the
pixels best. -/
theorem C163_threshold {im : Image (Fin n)} {w h : Nat} {f : Nat → Nat → Fin n} (s : im.Shows w h f)
    (hne : 0 < w * h) :
    (∃ r, OtsuImage ℚ n im r) ∧ ∀ r, OtsuImage ℚ n im r → ∃ t, r = .ok t ∧
      ((∀ k, k < n → darkCount w h f k = 0 ∨ brightCount w h f k = 0) → t = n) ∧
      ((∃ k, k < n ∧ 0 < darkCount w h f k ∧ 0 < brightCount w h f k) →
        t < n ∧ 0 < darkCount w h f t ∧ 0 < brightCount w h f t ∧
        (∀ k, k < n → 0 < darkCount w h f k → 0 < brightCount w h f k →
          separation w h f k ≤ separation w h f t) ∧
        ∀ k, k < t → 0 < darkCount w h f k → 0 < brightCount w h f k →
          separation w h f k < separation w h f t) := by
  obtain ⟨v, he, hc, hcnt, htot, hex⟩ := levels_of_image s
  -- the probabilities
  let prob : List ℚ := shares n w h f
  have hprob : ∀ p : Res (List ℚ), (Store.vec v).Probabilities n p → p = .ok prob := by
    rintro p ⟨t, ht, rfl⟩
    rw [htot t ht]
    simp only [Res.ok_bind]
    exact probabilities_ok hc (w * h)
  have hr : ∀ r, OtsuImage ℚ n im r ↔ r = .ok (otsu prob) := by
    intro r
    constructor
    · rintro ⟨hs, e, hm⟩
      rw [he] at e
      subst e
      obtain ⟨p, hp, rfl⟩ := hm
      rw [hprob p hp]; rfl
    · rintro rfl
      refine ⟨_, he, ?_⟩
      obtain ⟨t, ht⟩ := hex
      refine ⟨.ok prob, ⟨t, ht, ?_⟩, rfl⟩
      rw [htot t ht]
      simp only [Res.ok_bind]
      exact (probabilities_ok hc (w * h)).symm
  refine ⟨⟨_, (hr _).2 rfl⟩, fun r h1 => ⟨otsu prob, (hr r).1 h1, ?_⟩⟩
  have hN : (0 : ℚ) < ((w * h : Nat) : ℚ) := by exact_mod_cast hne
  obtain ⟨hlen, low, high, hvar⟩ := shares_facts s hne
  have hlowp : ∀ k, k < n → (0 < lowWeight prob k ↔ 0 < darkCount w h f k) := by
    intro k hk
    rw [low k hk, div_pos_iff_of_pos_right hN]; exact Nat.cast_pos
  have hhighp : ∀ k, k < n → (0 < highWeight prob k ↔ 0 < brightCount w h f k) := by
    intro k hk
    rw [high k hk, div_pos_iff_of_pos_right hN]; exact Nat.cast_pos
  have main := C80_otsu prob (by
    intro x hx
    simp only [prob, shares, List.mem_map] at hx
    obtain ⟨i, _, rfl⟩ := hx
    exact div_nonneg (Nat.cast_nonneg _) hN.le)
  rw [hlen] at main
  refine ⟨fun hall => main.1 fun k hk => ?_, fun ⟨k, hk, h1, h2⟩ => ?_⟩
  · rw [hlowp k hk, hhighp k hk]
    rcases hall k hk with e | e <;> omega
  · obtain ⟨m1, m2, m3, m4, m5⟩ := main.2 ⟨k, hk, (hlowp k hk).2 h1, (hhighp k hk).2 h2⟩
    have hN2 : (0 : ℚ) < ((w * h : Nat) : ℚ) ^ 2 := by positivity
    refine ⟨m1, (hlowp _ m1).1 m2, (hhighp _ m1).1 m3, fun j hj a b => ?_, fun j hj a b => ?_⟩
    · have := m4 j hj ((hlowp j hj).2 a) ((hhighp j hj).2 b)
      rw [hvar j hj, hvar _ m1] at this
      exact (div_le_div_iff_of_pos_right hN2).1 this
    · have := m5 j hj ((hlowp j (by omega)).2 a) ((hhighp j (by omega)).2 b)
      rw [hvar j (by omega), hvar _ m1] at this
      exact (div_lt_div_iff_of_pos_right hN2).1 this

end Otsu

/-- The hypotheses are met: a picture with dark and bright pixels, and one of a single value. -/
example : ∃ im : Image (Fin 4), ∃ f : Nat → Nat → Fin 4, im.Shows 2 2 f ∧ 0 < 2 * 2 ∧
    ∃ k, k < 4 ∧ 0 < darkCount 2 2 f k ∧ 0 < brightCount 2 2 f k := by
  refine ⟨⟨[2, 2], [0, 1, 3, 3]⟩, fun x y => if y = 0 then (if x = 0 then 0 else 1) else 3,
    Image.Shows.of_data (by omega) (by omega) (by omega) rfl rfl ?_, by omega, 1, by omega, by decide, by decide⟩
  intro x y hx hy
  obtain rfl | rfl : x = 0 ∨ x = 1 := by omega
  all_goals obtain rfl | rfl : y = 0 ∨ y = 1 := by omega
  all_goals rfl

example : ∀ k, k < 4 → darkCount 2 2 (fun _ _ => (2 : Fin 4)) k = 0 ∨ brightCount 2 2 (fun _ _ => (2 : Fin 4)) k = 0 := by
  decide

/-! ## C164 normalising a map of counts -/

theorem foldl_mod (M : Nat) (l : SMap K Nat) (a : Nat) (hb : a + (l.map (·.2)).sum < M) :
    l.foldl (fun s kv => (s + kv.2) % M) a = a + (l.map (·.2)).sum := by
  induction l generalizing a with
  | nil => simp
  | cons p l ih =>
    simp only [List.map_cons, List.sum_cons] at hb ⊢
    rw [List.foldl_cons, Nat.mod_eq_of_lt (by omega), ih _ (by omega)]
    omega

/-- While the total fits the count type, and is not zero, every level keeps its place and gets its share of the total,
and the shares add up to one (exact arithmetic). Missing: totals that do not fit, see `C164_violation`. -/
theorem C164_partial (M : Nat) (m : SMap K Nat) (hs : (m.map (·.1)).Pairwise (· < ·))
    (hpos : 0 < (m.map (·.2)).sum) (hfit : (m.map (·.2)).sum < M) :
    ((normalizeMap M m : SMap K ℚ).map (·.1)) = m.map (·.1) ∧
    ((normalizeMap M m : SMap K ℚ).map (·.2)).sum = 1 ∧
    ∀ k (c : Nat), (k, c) ∈ m → (k, (c : ℚ) / ((m.map (·.2)).sum : Nat)) ∈ (normalizeMap M m : SMap K ℚ) := by
  have e : (normalizeMap M m : SMap K ℚ) =
      m.map fun kv => (kv.1, (kv.2 : ℚ) / (((m.map (·.2)).sum : Nat) : ℚ)) := by
    unfold normalizeMap
    rw [foldl_mod M m 0 (by omega), Nat.zero_add]
    exact SMap.foldl_emplace (fun kv : K × Nat => (kv.2 : ℚ) / (((m.map (·.2)).sum : Nat) : ℚ)) m hs
  rw [e]
  refine ⟨by simp [List.map_map, Function.comp_def], ?_, fun k c hm => List.mem_map.2 ⟨(k, c), hm, rfl⟩⟩
  rw [List.map_map]
  have := sum_map_div (P := ℚ) (m.map (·.2)) (((m.map (·.2)).sum : Nat) : ℚ)
  rw [List.map_map] at this
  refine Eq.trans ?_ (this.trans (div_self (by exact_mod_cast hpos.ne')))
  rfl

example := C164_partial (2 ^ 64) [((2 : Nat), 3), (5, 0), (9, 1)] (by decide) (by decide) (by decide)

/-- The total is kept in the count type: with 8-bit counts 200 and 100 it wraps to 44, and the first level's
"share" is 200 / 44, more than one. -/
theorem C164_violation :
    (normalizeMap 256 [(0, 200), (1, 100)] : SMap Nat ℚ) = [(0, 200 / 44), (1, 100 / 44)] := by
  simp [normalizeMap, SMap.emplace, SMap.upd]

/-- Concrete case: a total that fits. -/
example : ([(0, 20), (3, 100)] : SMap Nat Nat).map (·.1) |>.Pairwise (· < ·) := by decide
example : 0 < (([(0, 20), (3, 100)] : SMap Nat Nat).map (·.2)).sum ∧
    (([(0, 20), (3, 100)] : SMap Nat Nat).map (·.2)).sum < 256 := by decide

end TinyDIP.Props
