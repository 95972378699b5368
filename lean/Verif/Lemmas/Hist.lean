import Verif.Lemmas.Pixelwise
import Verif.Model.Hist
import Verif.Spec.Hist
import Mathlib.Data.List.Count
import Mathlib.Tactic.Ring
import Mathlib.Tactic.Positivity
import Mathlib.Algebra.BigOperators.Group.List.Basic

namespace TinyDIP

/-! ### counting pixels -/

theorem iterYX_getElem {w h x y : Nat} (hx : x < w) (hy : y < h) :
    (iterYX w h)[x + w * y]? = some (x, y) := by
  induction h generalizing y with
  | zero => omega
  | succ n ih =>
    have e : iterYX w (n + 1) = iterYX w n ++ (List.range w).map fun x => (x, n) := by
      simp [iterYX, List.range_succ]
    have hl : (iterYX w n).length = w * n := by
      simp [iterYX, List.length_flatMap, Nat.mul_comm]
    rw [e]
    by_cases hyn : y < n
    · rw [List.getElem?_append_left, ih hyn]
      rw [hl]
      calc x + w * y < w + w * y := by omega
        _ = w * (y + 1) := by rw [Nat.mul_add]; omega
        _ ≤ w * n := Nat.mul_le_mul_left _ hyn
    · have : y = n := by omega
      subst this
      rw [List.getElem?_append_right (by rw [hl]; omega), hl]
      rw [show x + w * y - w * y = x by omega]
      simp [hx]

theorem Image.Shows.data_eq {α : Type} {im : Image α} {w h : Nat} {f : Nat → Nat → α}
    (s : im.Shows w h f) : im.data = (iterYX w h).map fun p => f p.1 p.2 := by
  have hl : (iterYX w h).length = w * h := by simp [iterYX, List.length_flatMap, Nat.mul_comm]
  apply List.ext_getElem?
  intro i
  by_cases hi : i < w * h
  · have hw : 0 < w := by
      rcases Nat.eq_zero_or_pos w with h0 | h0
      · subst h0; simp at hi
      · exact h0
    have hx : i % w < w := Nat.mod_lt _ hw
    have hy : i / w < h := Nat.div_lt_of_lt_mul hi
    have e : i = i % w + w * (i / w) := (Nat.mod_add_div i w).symm
    rw [e, s.data? hx hy, List.getElem?_map, iterYX_getElem hx hy]
    rfl
  · rw [List.getElem?_eq_none (by rw [s.len]; omega),
      List.getElem?_eq_none (by rw [List.length_map, hl]; omega)]

theorem pixelCount_eq {α : Type} {im : Image α} {w h : Nat} {f : Nat → Nat → α}
    (s : im.Shows w h f) (p : α → Bool) : im.data.countP p = pixelCount w h f p := by
  rw [s.data_eq, List.countP_map]
  unfold iterYX pixelCount
  rw [List.countP_flatMap]
  congr 1
  apply List.map_congr_left
  intro y _
  simp only [Function.comp, List.countP_map, ← List.countP_eq_length_filter]
  rfl

theorem pixelCount_true {α : Type} (w h : Nat) (f : Nat → Nat → α) :
    pixelCount w h f (fun _ => true) = w * h := by
  unfold pixelCount
  simp [Nat.mul_comm]

/-! ### sums of counts -/

theorem wadd_assoc (a b c : Nat) : wadd (wadd a b) c = wadd a (wadd b c) := by
  unfold wadd; rw [Nat.mod_add_mod, Nat.add_mod_mod, Nat.add_assoc]

theorem wadd_comm (a b : Nat) : wadd a b = wadd b a := by unfold wadd; rw [Nat.add_comm]

theorem foldl_wadd (l : List Nat) (a : Nat) (h : a + l.sum < 2 ^ 64) :
    l.foldl wadd a = a + l.sum := by
  induction l generalizing a with
  | nil => simp
  | cons x l ih =>
    simp only [List.sum_cons] at h
    rw [List.foldl_cons, wadd_of_lt (by omega), ih _ (by omega), List.sum_cons]; omega

theorem reduce_sum {l : List Nat} {s : Nat} (h : StdReduce wadd 0 l s) (hl : l.sum < 2 ^ 64) :
    s = l.sum := by
  rw [stdReduce_eq wadd wadd_assoc wadd_comm h, foldl_wadd _ _ (by omega)]; omega

/-! ### dense histograms -/

theorem addDense_ok {h : List Nat} {v : Nat} (hv : v < h.length) (hb : h[v] + 1 < 2 ^ 64) :
    Hist.addDense h v = .ok (h.set v (h[v] + 1)) := by
  unfold Hist.addDense
  rw [vget_eq_ok hv]
  simp only [Res.ok_bind, wadd_of_lt hb, vset_eq_ok _ hv]

theorem sum_set {l : List Nat} {i v : Nat} (hi : i < l.length) :
    (l.set i v).sum + l[i] = l.sum + v := by
  induction l generalizing i with
  | nil => simp at hi
  | cons a l ih =>
    cases i with
    | zero => simp; omega
    | succ i =>
      simp only [List.set_cons_succ, List.sum_cons, List.getElem_cons_succ]
      have := ih (i := i) (by simpa using hi)
      omega

theorem le_sum {l : List Nat} {i : Nat} (hi : i < l.length) : l[i] ≤ l.sum := by
  induction l generalizing i with
  | nil => simp at hi
  | cons a l ih =>
    cases i with
    | zero => simp
    | succ i =>
      simp only [List.getElem_cons_succ, List.sum_cons]
      have := ih (i := i) (by simpa using hi)
      omega

/-- Counting a list into a dense histogram: `t` gives the level of each element. -/
theorem loop_addDense {β : Type} (t : β → Nat) (body : List Nat → β → Res (List Nat)) (l : List β)
    (n : Nat) (hb : ∀ b ∈ l, ∀ h, body h b = Hist.addDense h (t b)) (ht : ∀ b ∈ l, t b < n) :
    ∀ (h : List Nat), h.length = n → h.sum + l.length < 2 ^ 64 →
    ∃ out, loop body l h = .ok out ∧ out.length = n ∧ out.sum = h.sum + l.length ∧
      ∀ v, v < n → out[v]? = some (h.getD v 0 + (l.map t).count v) := by
  induction l with
  | nil =>
    intro h hn _
    refine ⟨h, rfl, hn, by simp, ?_⟩
    intro v hv
    have : v < h.length := by omega
    simp [this, List.getD_eq_getElem?_getD]
  | cons b l ih =>
    intro h hn hs
    simp only [List.length_cons] at hs
    have htb := ht b (by simp)
    have hlt : t b < h.length := by omega
    have hle := le_sum hlt
    have hsum := sum_set (v := h[t b] + 1) hlt
    obtain ⟨out, e, hl, hsm, hc⟩ := ih (fun b hb' => hb b (by simp [hb'])) (fun b hb' => ht b (by simp [hb']))
      (h.set (t b) (h[t b] + 1)) (by simpa using hn) (by omega)
    refine ⟨out, ?_, hl, by rw [hsm, List.length_cons]; omega, ?_⟩
    · rw [loop, hb b (by simp), addDense_ok hlt (by omega)]; exact e
    · intro v hv
      rw [hc v hv]
      have hv' : v < h.length := by omega
      simp only [List.getD_eq_getElem?_getD, List.getElem?_set, List.map_cons, List.count_cons]
      by_cases he : t b = v
      · subst he
        simp [hlt]; omega
      · simp [he]

/-! ### sparse histograms -/

namespace SMap
variable {K C : Type} [LinearOrder K]

/-- Keys in strictly increasing order. -/
def Sorted (m : SMap K C) : Prop := (m.map (·.1)).Pairwise (· < ·)

theorem mem_keys_upd {k a : K} {f : Option C → C} {m : SMap K C} :
    a ∈ (upd k f m).map (·.1) ↔ a = k ∨ a ∈ m.map (·.1) := by
  induction m with
  | nil => simp [upd]
  | cons p m ih =>
    obtain ⟨k', c⟩ := p
    unfold upd
    split
    · simp
    · split
      · next h => simp [h]
      · simp only [List.map_cons, List.mem_cons, ih]; tauto

theorem Sorted.upd {k : K} {f : Option C → C} {m : SMap K C} (h : Sorted m) :
    Sorted (SMap.upd k f m) := by
  unfold Sorted at *
  induction m with
  | nil => simp [SMap.upd]
  | cons p m ih =>
    obtain ⟨k', c⟩ := p
    simp only [List.map_cons, List.pairwise_cons] at h
    unfold SMap.upd
    split
    · next hlt =>
      simp only [List.map_cons, List.pairwise_cons, List.mem_cons]
      refine ⟨?_, h⟩
      rintro a (rfl | ha)
      · exact hlt
      · exact lt_trans hlt (h.1 a ha)
    · next hlt =>
      split
      · simpa using h
      · next hne =>
        simp only [List.map_cons, List.pairwise_cons]
        refine ⟨?_, ih h.2⟩
        intro a ha
        rw [mem_keys_upd] at ha
        rcases ha with rfl | ha
        · exact lt_of_le_of_ne (not_lt.1 hlt) (Ne.symm hne)
        · exact h.1 a ha

theorem find_none_of_lt {k : K} {m : SMap K C} (h : ∀ a ∈ m.map (·.1), k < a) : find k m = none := by
  induction m with
  | nil => rfl
  | cons p m ih =>
    obtain ⟨k', c⟩ := p
    simp only [List.map_cons, List.mem_cons] at h
    unfold find
    rw [if_neg (ne_of_lt (h k' (.inl rfl))), ih (fun a ha => h a (.inr ha))]

theorem find_upd {k a : K} {f : Option C → C} {m : SMap K C} (h : Sorted m) :
    find a (SMap.upd k f m) = if a = k then some (f (find k m)) else find a m := by
  unfold Sorted at h
  induction m with
  | nil => simp [SMap.upd, find]
  | cons p m ih =>
    obtain ⟨k', c⟩ := p
    simp only [List.map_cons, List.pairwise_cons] at h
    unfold SMap.upd
    split
    · next hlt =>
      have : find k ((k', c) :: m) = none := by
        apply find_none_of_lt
        simp only [List.map_cons, List.mem_cons]
        rintro b (rfl | hb)
        · exact hlt
        · exact lt_trans hlt (h.1 b hb)
      rw [this]
      by_cases ha : a = k
      · simp [ha, find]
      · rw [if_neg ha, find, if_neg ha]
    · split
      · next heq =>
        subst heq
        by_cases ha : a = k
        · simp [find, ha]
        · simp [find, ha]
      · next hne =>
        rw [find, ih h.2]
        by_cases ha : a = k
        · subst ha
          simp [find, hne]
        · simp only [if_neg ha]
          rw [find]

theorem find_map {D : Type} (g : C → D) (k : K) (m : SMap K C) :
    find k (m.map fun p => (p.1, g p.2)) = (find k m).map g := by
  induction m with
  | nil => rfl
  | cons p m ih =>
    simp only [List.map_cons, find]
    split
    · rfl
    · exact ih

theorem upd_append {k : K} {f : Option C → C} {m : SMap K C} (h : ∀ a ∈ m.map (·.1), a < k) :
    SMap.upd k f m = m ++ [(k, f none)] := by
  induction m with
  | nil => rfl
  | cons p m ih =>
    obtain ⟨k', c⟩ := p
    simp only [List.map_cons, List.mem_cons] at h
    unfold SMap.upd
    have := h k' (.inl rfl)
    rw [if_neg (not_lt.2 this.le), if_neg this.ne', ih (fun a ha => h a (.inr ha))]
    rfl

/-- Copying a map by `emplace` in key order. -/
theorem foldl_emplace {D : Type} (g : K × C → D) (m : SMap K C) (h : Sorted m) :
    m.foldl (fun out kv => emplace kv.1 (g kv) out) [] = m.map fun kv => (kv.1, g kv) := by
  have key : ∀ (m : SMap K C) (pre : SMap K D), Sorted m →
      (∀ a ∈ pre.map (·.1), ∀ b ∈ m.map (·.1), a < b) →
      m.foldl (fun out kv => emplace kv.1 (g kv) out) pre = pre ++ m.map fun kv => (kv.1, g kv) := by
    intro m
    induction m with
    | nil => simp
    | cons p m ih =>
      intro pre hs hp
      unfold Sorted at hs
      simp only [List.map_cons, List.pairwise_cons] at hs
      rw [List.foldl_cons]
      unfold emplace
      rw [upd_append (fun a ha => hp a ha p.1 (by simp))]
      have := ih (pre ++ [(p.1, (none : Option D).getD (g p))]) hs.2 (by
        intro a ha b hb
        simp only [List.map_append, List.mem_append, List.map_cons, List.map_nil,
          List.mem_singleton] at ha
        rcases ha with ha | rfl
        · exact hp a ha b (by rw [List.map_cons]; exact List.mem_cons_of_mem _ hb)
        · exact hs.1 b hb)
      unfold emplace at this
      rw [this]
      simp
  simpa using key m [] h (by simp)

end SMap

open SMap in
theorem sum_upd {K : Type} [LinearOrder K] (k : K) {m : SMap K Nat} (hs : Sorted m)
    (hb : (m.map (·.2)).sum + 1 < 2 ^ 64) :
    ((SMap.upd k (fun o => wadd (o.getD 0) 1) m).map (·.2)).sum = (m.map (·.2)).sum + 1 := by
  induction m with
  | nil => simp [SMap.upd, wadd_of_lt]
  | cons p m ih =>
    obtain ⟨k', c⟩ := p
    unfold Sorted at hs
    simp only [List.map_cons, List.pairwise_cons, List.sum_cons] at hs hb
    unfold SMap.upd
    split
    · simp [wadd_of_lt]; omega
    · split
      · simp only [List.map_cons, List.sum_cons, Option.getD_some]
        rw [wadd_of_lt (by omega)]; omega
      · simp only [List.map_cons, List.sum_cons]
        rw [ih hs.2 (by omega)]; omega

theorem find_le_sum {K : Type} [LinearOrder K] {k : K} {m : SMap K Nat} :
    (SMap.find k m).getD 0 ≤ (m.map (·.2)).sum := by
  induction m with
  | nil => simp [SMap.find]
  | cons p m ih =>
    obtain ⟨k', c⟩ := p
    unfold SMap.find
    simp only [List.map_cons, List.sum_cons]
    split
    · simp
    · omega

theorem loop_addSparse {K : Type} [LinearOrder K] (l : List K) :
    ∀ (m : SMap K Nat), SMap.Sorted m → (m.map (·.2)).sum + l.length < 2 ^ 64 →
    ∃ out, loop (fun h v => .ok (Hist.addSparse h v)) l m = .ok out ∧ SMap.Sorted out ∧
      (out.map (·.2)).sum = (m.map (·.2)).sum + l.length ∧
      ∀ v, SMap.find v out = if v ∈ l then some ((SMap.find v m).getD 0 + l.count v)
        else SMap.find v m := by
  induction l with
  | nil => intro m hs _; exact ⟨m, rfl, hs, by simp, by simp⟩
  | cons b l ih =>
    intro m hs hb
    simp only [List.length_cons] at hb
    have hsm := sum_upd b hs (by omega)
    have hle := find_le_sum (k := b) (m := m)
    obtain ⟨out, e, so, hsum, hc⟩ := ih (Hist.addSparse m b) hs.upd (by
      unfold Hist.addSparse; omega)
    refine ⟨out, by rw [loop]; exact e, so, ?_, ?_⟩
    · rw [hsum]; unfold Hist.addSparse; rw [hsm, List.length_cons]; omega
    · intro v
      rw [hc v]
      unfold Hist.addSparse
      rw [SMap.find_upd hs]
      by_cases hv : v = b
      · subst hv
        simp only [if_true, List.mem_cons, true_or, Option.getD_some, List.count_cons_self]
        rw [wadd_of_lt (by omega)]
        split
        · congr 1; omega
        · next hnot => rw [List.count_eq_zero.2 hnot]
      · by_cases hm : v ∈ l
        · simp [hm, hv, List.count_cons_of_ne (Ne.symm hv)]
        · simp [hm, hv]

/-! ### normalising -/

theorem sum_map_div {P : Type} [Field P] (l : List Nat) (c : P) :
    (l.map fun (n : Nat) => (n : P) / c).sum = ((l.sum : Nat) : P) / c := by
  induction l with
  | nil => simp
  | cons a l ih => simp [ih, add_div]

theorem normalizeDense_ok {P : Type} [Field P] {n : Nat} {h : List Nat} (hn : h.length = n)
    (s : Nat) : Hist.normalizeDense (P := P) n h s = .ok (h.map fun c : Nat => (c : P) / (s : P)) := by
  unfold Hist.normalizeDense forUp
  rw [hn]
  refine loop_listMap h hn (fun c => (c : P) / (s : P)) _ (List.range n) ?_ (List.replicate n 0)
    List.length_replicate (.refl _)
  intro i hi a ha d hd
  rw [List.mem_range] at hi
  have : vget h i = .ok a := by unfold vget; rw [ha]
  rw [this]
  simp only [Res.ok_bind]
  exact vset_eq_ok _ (by omega)

theorem toProbabilities_ok {P : Type} [Field P] {n : Nat} {h : List Nat} (hn : h.length = n)
    (s : Nat) : Hist.toProbabilities (P := P) n h s = .ok (h.map fun c : Nat => (c : P) / (s : P)) := by
  unfold Hist.toProbabilities forUp
  refine loop_listMap h hn (fun c => (c : P) / (s : P)) _ (List.range n) ?_ (List.replicate n 0)
    List.length_replicate (.refl _)
  intro i hi a ha d hd
  rw [List.mem_range] at hi
  have : Hist.getCountDense h i = .ok a := by
    unfold Hist.getCountDense vget; rw [if_pos (by omega), ha]
  rw [this]
  simp only [Res.ok_bind]
  exact vset_eq_ok _ (by omega)

theorem loop_normalizedDense {P : Type} [Field P] (c : P) (l : List Nat) (n : Nat)
    (hl : ∀ v ∈ l, v < n) : ∀ h : List P, h.length = n →
    ∃ out, loop (fun out v => do
        let x ← vget out v
        vset out v (x + c)) l h = .ok out ∧ out.length = n ∧
      ∀ v, v < n → out[v]? = some (h.getD v 0 + (l.count v : P) * c) := by
  induction l with
  | nil =>
    intro h hn
    refine ⟨h, rfl, hn, fun v hv => ?_⟩
    have : v < h.length := by omega
    simp [this, List.getD_eq_getElem?_getD]
  | cons b l ih =>
    intro h hn
    have hb : b < h.length := by have := hl b (by simp); omega
    obtain ⟨out, e, ho, hc⟩ := ih (fun v hv => hl v (by simp [hv])) (h.set b (h[b] + c))
      (by simpa using hn)
    refine ⟨out, ?_, ho, ?_⟩
    · rw [loop, vget_eq_ok hb]
      simp only [Res.ok_bind, vset_eq_ok _ hb]
      exact e
    · intro v hv
      rw [hc v hv]
      simp only [List.getD_eq_getElem?_getD, List.getElem?_set, List.count_cons]
      by_cases hbv : b = v
      · subst hbv
        simp [hb]; ring
      · simp [hbv]

theorem foldl_normalizedSparse {K P : Type} [LinearOrder K] [Field P] (c : P) (l : List K) :
    ∀ m : SMap K P, SMap.Sorted m →
    SMap.Sorted (l.foldl (fun out v => SMap.upd v (fun o => match o with
      | some x => x + c
      | none => c) out) m) ∧
    ((l.foldl (fun out v => SMap.upd v (fun o => match o with
      | some x => x + c
      | none => c) out) m).map (·.2)).sum = (m.map (·.2)).sum + (l.length : P) * c ∧
    ∀ v, SMap.find v (l.foldl (fun out v => SMap.upd v (fun o => match o with
      | some x => x + c
      | none => c) out) m) =
      if v ∈ l then some ((SMap.find v m).getD 0 + (l.count v : P) * c) else SMap.find v m := by
  have hsum : ∀ (k : K) (m : SMap K P), ((SMap.upd k (fun o => match o with
      | some x => x + c
      | none => c) m).map (·.2)).sum = (m.map (·.2)).sum + c := by
    intro k m
    induction m with
    | nil => simp [SMap.upd]
    | cons p m ih =>
      obtain ⟨k', x⟩ := p
      unfold SMap.upd
      split
      · simp; ring
      · split
        · simp; ring
        · simp only [List.map_cons, List.sum_cons, ih]; ring
  induction l with
  | nil => intro m hs; exact ⟨hs, by simp, by simp⟩
  | cons b l ih =>
    intro m hs
    obtain ⟨h1, h2, h3⟩ := ih (SMap.upd b (fun o => match o with
      | some x => x + c
      | none => c) m) hs.upd
    refine ⟨h1, ?_, ?_⟩
    · rw [List.foldl_cons, h2, hsum]; push_cast [List.length_cons]; ring
    · intro v
      rw [List.foldl_cons, h3 v, SMap.find_upd hs]
      by_cases hv : v = b
      · subst hv
        simp only [if_true, List.mem_cons, true_or, Option.getD_some, List.count_cons_self]
        cases hf : SMap.find v m with
        | none =>
          by_cases hm : v ∈ l
          · simp [hm]; ring
          · simp [hm, List.count_eq_zero.2 hm]
        | some x =>
          by_cases hm : v ∈ l
          · simp [hm]; ring
          · simp [hm, List.count_eq_zero.2 hm]
      · by_cases hm : v ∈ l
        · simp [hm, hv, List.count_cons_of_ne (Ne.symm hv)]
        · simp [hm, hv]

/-! ### Otsu -/

section Otsu
variable {P : Type} [Field P] [LinearOrder P] [IsStrictOrderedRing P]

theorem otsuTotals_eq (h : List P) : Hist.otsuTotals h =
    (∑ i ∈ Finset.range h.length, h.getD i 0, ∑ i ∈ Finset.range h.length, h.getD i 0 * (i : P)) := by
  have key : ∀ n, (List.range n).foldl (fun (s : P × P) i =>
      (s.1 + h.getD i 0, s.2 + h.getD i 0 * (i : P))) (0, 0) =
      (∑ i ∈ Finset.range n, h.getD i 0, ∑ i ∈ Finset.range n, h.getD i 0 * (i : P)) := by
    intro n
    induction n with
    | zero => simp
    | succ n ih =>
      rw [List.range_succ, List.foldl_append, ih]
      simp [Finset.sum_range_succ]
  exact key _

/-- A level that splits the histogram into two classes of positive weight. -/
def Splits (h : List P) (k : Nat) : Prop := 0 < lowWeight h k ∧ 0 < highWeight h k

structure OtsuInv (h : List P) (n : Nat) (s : Hist.OtsuState P) : Prop where
  w1 : s.w1 = ∑ i ∈ Finset.range n, h.getD i 0
  m1 : s.m1 = ∑ i ∈ Finset.range n, h.getD i 0 * (i : P)
  w2 : s.w2 = ∑ i ∈ Finset.Ico n h.length, h.getD i 0
  m2 : s.m2 = ∑ i ∈ Finset.Ico n h.length, h.getD i 0 * (i : P)
  best : (s.ssMax = -1000000 ∧ ∀ k, k < n → ¬ Splits h k) ∨
    (s.maxInd < n ∧ Splits h s.maxInd ∧ s.ssMax = betweenVar h s.maxInd ∧
      (∀ k, k < n → Splits h k → betweenVar h k ≤ s.ssMax) ∧
      ∀ k, k < s.maxInd → Splits h k → betweenVar h k < s.ssMax)

theorem betweenVar_nonneg {h : List P} {k : Nat} (hs : Splits h k) : 0 ≤ betweenVar h k := by
  unfold betweenVar
  exact mul_nonneg (mul_nonneg hs.1.le hs.2.le) (sq_nonneg _)

theorem otsuStep_inv {h : List P} (h0 : ∀ x ∈ h, 0 ≤ x) {n : Nat} (hn : n < h.length)
    {s : Hist.OtsuState P} (hi : OtsuInv h n s) : OtsuInv h (n + 1) (Hist.otsuStep h s n) := by
  obtain ⟨w1, m1, w2, m2, best⟩ := hi
  have hnn : ∀ i, 0 ≤ h.getD i 0 := by
    intro i
    rw [List.getD_eq_getElem?_getD]
    by_cases hlt : i < h.length
    · simp only [List.getElem?_eq_getElem hlt, Option.getD_some]; exact h0 _ (List.getElem_mem _)
    · simp [List.getElem?_eq_none (Nat.le_of_not_lt hlt)]
  have a1 : s.w1 + h.getD n 0 = lowWeight h n := by
    rw [w1]; unfold lowWeight; rw [Finset.sum_range_succ]
  have a2 : s.m1 + h.getD n 0 * (n : P) = ∑ i ∈ Finset.range (n + 1), h.getD i 0 * (i : P) := by
    rw [m1, Finset.sum_range_succ]
  have a3 : s.w2 - h.getD n 0 = highWeight h n := by
    rw [w2]; unfold highWeight; rw [Finset.sum_eq_sum_Ico_succ_bot hn]; ring
  have a4 : s.m2 - h.getD n 0 * (n : P) = ∑ i ∈ Finset.Ico (n + 1) h.length, h.getD i 0 * (i : P) := by
    rw [m2, Finset.sum_eq_sum_Ico_succ_bot hn]; ring
  have p1 : 0 ≤ lowWeight h n := Finset.sum_nonneg fun i _ => hnn i
  have p2 : 0 ≤ highWeight h n := Finset.sum_nonneg fun i _ => hnn i
  unfold Hist.otsuStep
  simp only [a1, a2, a3, a4]
  have keep : ∀ (t : Hist.OtsuState P), t.w1 = lowWeight h n →
      t.m1 = ∑ i ∈ Finset.range (n + 1), h.getD i 0 * (i : P) → t.w2 = highWeight h n →
      t.m2 = ∑ i ∈ Finset.Ico (n + 1) h.length, h.getD i 0 * (i : P) → t.ssMax = s.ssMax →
      t.maxInd = s.maxInd → (Splits h n → betweenVar h n ≤ s.ssMax) →
      (s.ssMax = -1000000 → ¬ Splits h n) → OtsuInv h (n + 1) t := by
    intro t t1 t2 t3 t4 t5 t6 t7 t8
    refine ⟨t1, t2, t3, t4, ?_⟩
    rw [t5, t6]
    rcases best with ⟨b1, b2⟩ | ⟨b1, b2, b3, b4, b5⟩
    · left
      refine ⟨b1, fun k hk => ?_⟩
      by_cases hkn : k < n
      · exact b2 k hkn
      · rw [show k = n by omega]; exact t8 b1
    · right
      refine ⟨by omega, b2, b3, fun k hk hs => ?_, b5⟩
      by_cases hkn : k < n
      · exact b4 k hkn hs
      · rw [show k = n by omega] at hs ⊢; exact t7 hs
  by_cases hz : lowWeight h n = 0 ∨ highWeight h n = 0
  · rw [if_pos hz]
    have hns : ¬ Splits h n := by
      rintro ⟨q1, q2⟩
      rcases hz with hz | hz
      · exact absurd hz q1.ne'
      · exact absurd hz q2.ne'
    exact keep _ rfl rfl rfl rfl rfl rfl (fun h => absurd h hns) (fun _ => hns)
  · rw [if_neg hz]
    have hsp : Splits h n := by
      constructor
      · exact lt_of_le_of_ne p1 (fun e => hz (.inl e.symm))
      · exact lt_of_le_of_ne p2 (fun e => hz (.inr e.symm))
    have hss : lowWeight h n * highWeight h n *
        ((∑ i ∈ Finset.range (n + 1), h.getD i 0 * (i : P)) / lowWeight h n -
          (∑ i ∈ Finset.Ico (n + 1) h.length, h.getD i 0 * (i : P)) / highWeight h n) *
        ((∑ i ∈ Finset.range (n + 1), h.getD i 0 * (i : P)) / lowWeight h n -
          (∑ i ∈ Finset.Ico (n + 1) h.length, h.getD i 0 * (i : P)) / highWeight h n) =
        betweenVar h n := by
      unfold betweenVar lowMean highMean; ring
    rw [hss]
    have hnn := betweenVar_nonneg hsp
    by_cases hgt : betweenVar h n > s.ssMax
    · rw [if_pos hgt]
      refine ⟨rfl, rfl, rfl, rfl, .inr ⟨by simp, hsp, rfl, ?_, ?_⟩⟩
      · intro k hk hs
        by_cases hkn : k < n
        · rcases best with ⟨_, b2⟩ | ⟨b1, b2, b3, b4, b5⟩
          · exact absurd hs (b2 k hkn)
          · exact le_trans (b4 k hkn hs) hgt.le
        · rw [show k = n by omega]
      · intro k hk hs
        rcases best with ⟨_, b2⟩ | ⟨b1, b2, b3, b4, b5⟩
        · exact absurd hs (b2 k hk)
        · exact lt_of_le_of_lt (b4 k hk hs) hgt
    · rw [if_neg hgt]
      refine keep _ rfl rfl rfl rfl rfl rfl (fun _ => not_lt.1 hgt) ?_
      intro he
      rw [he] at hgt
      exact absurd (lt_of_lt_of_le (by norm_num) hnn) hgt

end Otsu

end TinyDIP
