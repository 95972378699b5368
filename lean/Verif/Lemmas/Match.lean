import Verif.Spec.Match
import Verif.Lemmas.Image
import Verif.Lemmas.Loop
import Mathlib.Data.List.Nodup
import Mathlib.Data.List.Perm.Basic
import Mathlib.Tactic.Linarith
import Mathlib.Tactic.ByContra

/-!
# Lemmas about matching
-/

namespace TinyDIP.Match

variable {K D : Type} [Field K] [LinearOrder K] [IsStrictOrderedRing K]

omit [IsStrictOrderedRing K] in
theorem nearest_ok (dist : D → D → K) (big : K) (q : D) (ds : List D) (hne : ds ≠ []) (d : Nat → K)
    (hd : ∀ k (hk : k < ds.length), d k = dist q ds[k]) (hb : ∀ k < ds.length, d k < big) :
    ∃ i s, nearest dist big q ds = .ok (d i, s, i) ∧ FirstNearest d ds.length i ∧ s ≤ big ∧
      (∀ l < ds.length, l ≠ i → s ≤ d l) ∧ (s = big ∨ ∃ l < ds.length, l ≠ i ∧ s = d l) := by
  unfold nearest
  obtain ⟨st, e, h⟩ := forUp_inv (n := ds.length)
    (body := fun (s : K × K × Nat) j => do
      let t ← vget ds j
      let d := dist q t
      if d < s.1 then Res.ok (d, s.1, j)
      else if d < s.2.1 then .ok (s.1, d, s.2.2)
      else .ok s)
    (fun n (s : K × K × Nat) => (n = 0 ∧ s = (big, big, 2 ^ 64 - 1)) ∨ (0 < n ∧ s.1 = d s.2.2 ∧
      FirstNearest d n s.2.2 ∧ s.2.1 ≤ big ∧ (∀ l < n, l ≠ s.2.2 → s.2.1 ≤ d l) ∧
      (s.2.1 = big ∨ ∃ l < n, l ≠ s.2.2 ∧ s.2.1 = d l))) (by
    rintro n ⟨b, s, i⟩ hn hP
    rw [vget_eq_ok hn]
    simp only [Res.ok_bind]
    rw [← hd n hn]
    have hbn := hb n hn
    rcases hP with ⟨rfl, he⟩ | ⟨hn0, hbi, hf, hsb, hsl, hse⟩
    · simp only [Prod.mk.injEq] at he
      obtain ⟨rfl, rfl, rfl⟩ := he
      rw [if_pos hbn]
      refine ⟨_, rfl, Or.inr ⟨by omega, rfl, ⟨Nat.lt_succ_self _, ?_, ?_⟩, le_refl _, ?_, Or.inl rfl⟩⟩
      · intro k hk; have : k = 0 := by omega
        subst this; exact le_refl _
      · intro k hk; simp only at hk; omega
      · intro l hl hl'; simp only at hl'; omega
    · simp only at hbi hf hsb hsl hse
      subst hbi
      obtain ⟨hf1, hf2, hf3⟩ := hf
      by_cases h1 : d n < d i
      · rw [if_pos h1]
        refine ⟨_, rfl, Or.inr ⟨by omega, rfl, ⟨Nat.lt_succ_self _, ?_, ?_⟩, ?_, ?_, Or.inr ⟨i, by omega, ?_, rfl⟩⟩⟩
        · intro k hk
          rcases Nat.lt_succ_iff_lt_or_eq.1 hk with hk | rfl
          · exact le_of_lt (lt_of_lt_of_le h1 (hf2 k hk))
          · exact le_refl _
        · intro k hk
          exact lt_of_lt_of_le h1 (hf2 k hk)
        · exact le_of_lt (hb i (by omega))
        · intro l hl hl'
          simp only at hl'
          exact hf2 l (by omega)
        · simp only; omega
      · rw [if_neg h1]
        have h1' : d i ≤ d n := not_lt.1 h1
        have hfn : FirstNearest d (n + 1) i := by
          refine ⟨by omega, ?_, hf3⟩
          intro k hk
          rcases Nat.lt_succ_iff_lt_or_eq.1 hk with hk | rfl
          · exact hf2 k hk
          · exact h1'
        by_cases h2 : d n < s
        · rw [if_pos h2]
          refine ⟨_, rfl, Or.inr ⟨by omega, rfl, hfn, le_of_lt hbn, ?_, Or.inr ⟨n, by omega, ?_, rfl⟩⟩⟩
          · intro l hl hl'
            rcases Nat.lt_succ_iff_lt_or_eq.1 hl with hl | rfl
            · exact le_trans (le_of_lt h2) (hsl l hl hl')
            · exact le_refl _
          · simp only; omega
        · rw [if_neg h2]
          refine ⟨_, rfl, Or.inr ⟨by omega, rfl, hfn, hsb, ?_, ?_⟩⟩
          · intro l hl hl'
            rcases Nat.lt_succ_iff_lt_or_eq.1 hl with hl | rfl
            · exact hsl l hl hl'
            · exact not_lt.1 h2
          · rcases hse with h | ⟨l, hl, hl', e⟩
            · exact Or.inl h
            · exact Or.inr ⟨l, by omega, hl', e⟩)
    (big, big, 2 ^ 64 - 1) (Or.inl ⟨rfl, rfl⟩)
  obtain ⟨b, s, i⟩ := st
  have hpos : 0 < ds.length := List.length_pos_iff.2 hne
  rcases h with ⟨h, _⟩ | ⟨_, h1, h2, h3, h4, h5⟩
  · omega
  · simp only at h1 h2 h3 h4 h5
    subst h1
    exact ⟨i, s, e, h2, h3, h4, h5⟩

theorem ratio_iff {d : Nat → K} {n i : Nat} {s big ratio : K} (hs : s ≤ big)
    (h1 : ∀ l < n, l ≠ i → s ≤ d l) (h2 : s = big ∨ ∃ l < n, l ≠ i ∧ s = d l) :
    d i < ratio * ratio * s ↔ RatioTest d n i ratio big := by
  unfold RatioTest
  rw [sq]
  have h0 : 0 ≤ ratio * ratio := mul_self_nonneg _
  constructor
  · intro h
    exact ⟨fun k hk hki => lt_of_lt_of_le h (mul_le_mul_of_nonneg_left (h1 k hk hki) h0),
      lt_of_lt_of_le h (mul_le_mul_of_nonneg_left hs h0)⟩
  · rintro ⟨ha, hb⟩
    rcases h2 with rfl | ⟨l, hl, hli, rfl⟩
    · exact hb
    · exact ha l hl hli

omit [Field K] [IsStrictOrderedRing K] in
theorem firstNearest_unique {d d' : Nat → K} {n i j : Nat} (hd : ∀ k < n, d k = d' k) (h1 : FirstNearest d n i)
    (h2 : FirstNearest d' n j) : i = j := by
  obtain ⟨a1, a2, a3⟩ := h1
  obtain ⟨b1, b2, b3⟩ := h2
  by_contra hne
  rcases Nat.lt_or_gt_of_ne hne with h | h
  · have := b3 i h
    rw [← hd i a1, ← hd j b1] at this
    exact absurd (a2 j b1) (not_le.2 this)
  · have := a3 j h
    have := b2 i a1
    rw [← hd i a1, ← hd j b1] at this
    exact absurd this (not_le.2 (a3 j h))

open Classical in
/-- The match of one descriptor. -/
noncomputable def matchOf (dist : D → D → K) (big ratio : K) (ds1 ds2 : List D) (i : Nat) : List (Nat × Nat) :=
  if h : ∃ j, RawMatch dist big ratio ds1 ds2 i j then [(i, h.choose)] else []

omit [IsStrictOrderedRing K] in
theorem rawMatch_unique {dist : D → D → K} {big ratio : K} {ds1 ds2 : List D} {i j j' : Nat}
    (h : RawMatch dist big ratio ds1 ds2 i j) (h' : RawMatch dist big ratio ds1 ds2 i j') : j = j' := by
  obtain ⟨q, hq, d, hd, hf, _⟩ := h
  obtain ⟨q', hq', d', hd', hf', _⟩ := h'
  rw [hq] at hq'
  obtain rfl : q = q' := by simpa using hq'
  exact firstNearest_unique (fun k hk => by rw [hd k hk, hd' k hk]) hf hf'

omit [IsStrictOrderedRing K] in
theorem mem_matchOf {dist : D → D → K} {big ratio : K} {ds1 ds2 : List D} {i : Nat} {m : Nat × Nat} :
    m ∈ matchOf dist big ratio ds1 ds2 i ↔ m.1 = i ∧ RawMatch dist big ratio ds1 ds2 m.1 m.2 := by
  unfold matchOf
  split
  · next h =>
    rw [List.mem_singleton]
    constructor
    · rintro rfl; exact ⟨rfl, h.choose_spec⟩
    · rintro ⟨rfl, hm⟩
      exact Prod.ext rfl (rawMatch_unique hm h.choose_spec)
  · next h =>
    simp only [List.not_mem_nil, false_iff]
    rintro ⟨rfl, hm⟩
    exact h ⟨_, hm⟩

theorem loop_collectL {β γ : Type} (body : List γ → β → Res (List γ)) (g : β → List γ) (l : List β)
    (h : ∀ b ∈ l, ∀ out, body out b = .ok (out ++ g b)) (out : List γ) :
    loop body l out = .ok (out ++ l.flatMap g) := by
  induction l generalizing out with
  | nil => simp [loop]
  | cons b l ih =>
    rw [loop, h b (by simp) out]
    simp only
    rw [ih (fun b hb => h b (by simp [hb]))]
    simp

theorem findRawMatches_ok {sched : List Nat → List Nat} (hs : ∀ l, (sched l).Perm l) (dist : D → D → K) (big : K)
    (ds1 ds2 : List D) (ratio : K) (hb : ∀ a ∈ ds1, ∀ b ∈ ds2, dist a b < big) :
    findRawMatches sched dist big ds1 ds2 ratio =
      .ok ((sched (List.range ds1.length)).flatMap (matchOf dist big ratio ds1 ds2)) := by
  unfold findRawMatches
  by_cases hne : ds1 = [] ∨ ds2 = []
  · rw [if_pos hne]
    rcases hne with rfl | rfl
    · have : sched (List.range ([] : List D).length) = [] := (hs _).eq_nil
      rw [this]
      rfl
    · have : (sched (List.range ds1.length)).flatMap (matchOf dist big ratio ds1 []) = [] := by
        rw [List.flatMap_eq_nil_iff]
        intro i _
        rw [List.eq_nil_iff_forall_not_mem]
        intro m hm
        obtain ⟨_, q, _, d, _, hf, _⟩ := mem_matchOf.1 hm
        simp [FirstNearest] at hf
      rw [this]
  · rw [if_neg hne]
    push Not at hne
    rw [loop_collectL _ (matchOf dist big ratio ds1 ds2)]
    · rfl
    · intro i hi out
      have hi : i < ds1.length := List.mem_range.1 ((hs _).mem_iff.1 hi)
      rw [vget_eq_ok hi]
      simp only [Res.ok_bind]
      generalize hq : ds1[i] = q
      have hq' : ds1[i]? = some q := by rw [List.getElem?_eq_getElem hi, hq]
      have hqm : q ∈ ds1 := hq ▸ List.getElem_mem hi
      obtain ⟨d, hd'⟩ : ∃ d : Nat → K, ∀ k (hk : k < ds2.length), d k = dist q ds2[k] :=
        ⟨fun k => if hk : k < ds2.length then dist q ds2[k] else 0, fun k hk => by simp [hk]⟩
      obtain ⟨j, s, e, hf, h3, h4, h5⟩ := nearest_ok dist big q ds2 hne.2 d hd'
        (fun k hk => by rw [hd' k hk]; exact hb q hqm _ (List.getElem_mem hk))
      have hr := ratio_iff (ratio := ratio) h3 h4 h5
      rw [e]
      simp only [Res.ok_bind]
      by_cases hc : d j < ratio * ratio * s
      · rw [if_pos hc]
        have hm : RawMatch dist big ratio ds1 ds2 i j := ⟨q, hq', d, hd', hf, hr.1 hc⟩
        have : matchOf dist big ratio ds1 ds2 i = [(i, j)] := by
          unfold matchOf
          rw [dif_pos ⟨j, hm⟩]
          rw [rawMatch_unique (Exists.choose_spec ⟨j, hm⟩) hm]
        rw [this]
      · rw [if_neg hc]
        have : matchOf dist big ratio ds1 ds2 i = [] := by
          unfold matchOf
          rw [dif_neg]
          rintro ⟨j', q', hq2, d', hd2, hf', hrt⟩
          rw [hq'] at hq2
          obtain rfl : q = q' := by simpa using hq2
          have hdd : ∀ k < ds2.length, d' k = d k := fun k hk => by rw [hd' k hk, hd2 k hk]
          have hjj := firstNearest_unique hdd hf' hf
          subst hjj
          apply hc
          rw [hr]
          refine ⟨fun k hk hkj => ?_, ?_⟩
          · rw [← hdd k hk, ← hdd j' hf.1]; exact hrt.1 k hk hkj
          · rw [← hdd j' hf.1]; exact hrt.2
        rw [this, List.append_nil]

omit [IsStrictOrderedRing K] in
theorem raw_nodup (dist : D → D → K) (big ratio : K) (ds1 ds2 : List D) {l : List Nat} (hl : l.Nodup) :
    ((l.flatMap (matchOf dist big ratio ds1 ds2)).map Prod.fst).Nodup := by
  induction l with
  | nil => simp
  | cons i l ih =>
    rw [List.nodup_cons] at hl
    rw [List.flatMap_cons, List.map_append, List.nodup_append]
    refine ⟨?_, ih hl.2, ?_⟩
    · unfold matchOf; split <;> simp
    · intro a ha b hb heq
      subst heq
      obtain ⟨m, hm, rfl⟩ := List.mem_map.1 ha
      obtain ⟨m', hm', he⟩ := List.mem_map.1 hb
      obtain ⟨k, hk, hmk⟩ := List.mem_flatMap.1 hm'
      have h1 := (mem_matchOf.1 hm).1
      have h2 := (mem_matchOf.1 hmk).1
      rw [← h1, ← he, h2] at hl
      exact hl.1 hk

end TinyDIP.Match

namespace TinyDIP.Match

variable {K D : Type} [Field K] [LinearOrder K]

theorem nearest_total (dist : D → D → K) (big : K) (q : D) (ds : List D) :
    ∃ st, nearest dist big q ds = .ok st := by
  obtain ⟨st, e, _⟩ := forUp_inv (n := ds.length)
    (body := fun (s : K × K × Nat) j => do
      let t ← vget ds j
      let d := dist q t
      if d < s.1 then Res.ok (d, s.1, j)
      else if d < s.2.1 then .ok (s.1, d, s.2.2)
      else .ok s) (fun _ _ => True) (by
    intro n s hn _
    rw [vget_eq_ok hn]
    simp only [Res.ok_bind]
    by_cases h1 : dist q ds[n] < s.1
    · rw [if_pos h1]; exact ⟨_, rfl, trivial⟩
    · rw [if_neg h1]
      by_cases h2 : dist q ds[n] < s.2.1
      · rw [if_pos h2]; exact ⟨_, rfl, trivial⟩
      · rw [if_neg h2]; exact ⟨_, rfl, trivial⟩) (big, big, 2 ^ 64 - 1) trivial
  exact ⟨st, e⟩

/-- Without any condition on the distances. -/
theorem findRawMatches_total (dist : D → D → K) (big : K) (ds1 ds2 : List D) (ratio : K) :
    ∃ g : Nat → List (Nat × Nat), (∀ i, g i = [] ∨ ∃ j, g i = [(i, j)]) ∧
      ∀ sched : List Nat → List Nat, (∀ l, (sched l).Perm l) →
      findRawMatches sched dist big ds1 ds2 ratio = .ok ((sched (List.range ds1.length)).flatMap g) := by
  by_cases hne : ds1 = [] ∨ ds2 = []
  · refine ⟨fun _ => [], fun _ => Or.inl rfl, fun sched _ => ?_⟩
    unfold findRawMatches
    rw [if_pos hne]
    simp
  · have : ∀ i, ∃ g : List (Nat × Nat), (g = [] ∨ ∃ j, g = [(i, j)]) ∧ (i < ds1.length →
        ∀ acc, (do
          let q ← vget ds1 i
          let s ← nearest dist big q ds2
          if s.1 < ratio * ratio * s.2.1 then Res.ok (acc ++ [(i, s.2.2)]) else .ok acc) = .ok (acc ++ g)) := by
      intro i
      by_cases hi : i < ds1.length
      · obtain ⟨st, e⟩ := nearest_total dist big ds1[i] ds2
        by_cases hc : st.1 < ratio * ratio * st.2.1
        · refine ⟨[(i, st.2.2)], Or.inr ⟨_, rfl⟩, fun _ acc => ?_⟩
          rw [vget_eq_ok hi]
          simp only [Res.ok_bind, e]
          rw [if_pos hc]
        · refine ⟨[], Or.inl rfl, fun _ acc => ?_⟩
          rw [vget_eq_ok hi]
          simp only [Res.ok_bind, e]
          rw [if_neg hc, List.append_nil]
      · exact ⟨[], Or.inl rfl, fun h => absurd h hi⟩
    choose g hg hg' using this
    refine ⟨g, hg, fun sched hs => ?_⟩
    unfold findRawMatches
    rw [if_neg hne, loop_collectL _ g]
    · rfl
    · intro i hi out
      exact hg' i (List.mem_range.1 ((hs _).mem_iff.1 hi)) out

theorem flatMap_fst_nodup {g : Nat → List (Nat × Nat)} (hg : ∀ i, g i = [] ∨ ∃ j, g i = [(i, j)]) {l : List Nat}
    (hl : l.Nodup) : ((l.flatMap g).map Prod.fst).Nodup := by
  have hfst : ∀ i, ∀ m ∈ g i, m.1 = i := by
    intro i m hm
    rcases hg i with h | ⟨j, h⟩
    · rw [h] at hm; simp at hm
    · rw [h] at hm; rw [List.mem_singleton.1 hm]
  induction l with
  | nil => simp
  | cons i l ih =>
    rw [List.nodup_cons] at hl
    rw [List.flatMap_cons, List.map_append, List.nodup_append]
    refine ⟨?_, ih hl.2, ?_⟩
    · rcases hg i with h | ⟨j, h⟩ <;> simp [h]
    · intro a ha b hb heq
      subst heq
      obtain ⟨m, hm, rfl⟩ := List.mem_map.1 ha
      obtain ⟨m', hm', he⟩ := List.mem_map.1 hb
      obtain ⟨k, hk, hmk⟩ := List.mem_flatMap.1 hm'
      rw [← hfst i m hm, ← he, hfst k m' hmk] at hl
      exact hl.1 hk

end TinyDIP.Match
