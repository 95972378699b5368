import Verif.Spec.HistClass
import Verif.Lemmas.Hist
import Mathlib.Tactic.FieldSimp
import Mathlib.Tactic.Ring

/-!
# Lemmas: histogram objects and thresholds of images
-/

namespace TinyDIP.Hist
variable {K : Type} [LinearOrder K]

theorem find_some_iff {C : Type} {m : SMap K C} (h : SMap.Sorted m) (k : K) (c : C) :
    SMap.find k m = some c ↔ (k, c) ∈ m := by
  unfold SMap.Sorted at h
  induction m with
  | nil => simp [SMap.find]
  | cons p m ih =>
    obtain ⟨k', c'⟩ := p
    simp only [List.map_cons, List.pairwise_cons] at h
    unfold SMap.find
    by_cases hk : k = k'
    · subst hk
      rw [if_pos rfl]
      constructor
      · intro e; injection e with e; subst e; simp
      · intro hm
        simp only [List.mem_cons, Prod.mk.injEq, true_and] at hm
        rcases hm with rfl | hm
        · rfl
        · exact absurd (h.1 k (List.mem_map.2 ⟨_, hm, rfl⟩)) (lt_irrefl _)
    · rw [if_neg hk, ih h.2]
      simp [hk]

theorem find_none_iff {C : Type} (m : SMap K C) (k : K) :
    SMap.find k m = none ↔ k ∉ m.map (·.1) := by
  induction m with
  | nil => simp [SMap.find]
  | cons p m ih =>
    obtain ⟨k', c'⟩ := p
    unfold SMap.find
    by_cases hk : k = k'
    · subst hk; simp
    · rw [if_neg hk, ih]; simp [hk]

theorem counts_map {L : Levels K} {m : SMap K Nat} {cnt : K → Nat} :
    (Store.map m).Counts L cnt ↔ L.dense = false ∧ SMap.Sorted m ∧ ∀ k, (SMap.find k m).getD 0 = cnt k := by
  unfold Store.Counts
  constructor
  · rintro ⟨h1, h2, h3, h4⟩
    refine ⟨h1, h2, fun k => ?_⟩
    cases e : SMap.find k m with
    | none => rw [find_none_iff] at e; simp [h4 k e]
    | some c => rw [find_some_iff h2] at e; simp [h3 k c e]
  · rintro ⟨h1, h2, h3⟩
    refine ⟨h1, h2, fun k c hm => ?_, fun k hk => ?_⟩
    · rw [← find_some_iff h2] at hm; rw [← h3 k, hm]; rfl
    · rw [← find_none_iff] at hk; rw [← h3 k, hk]; rfl

theorem upd_length {C : Type} (k : K) (f : Option C → C) (m : SMap K C) (hs : SMap.Sorted m) :
    (SMap.upd k f m).length = if k ∈ m.map (·.1) then m.length else m.length + 1 := by
  unfold SMap.Sorted at hs
  induction m with
  | nil => simp [SMap.upd]
  | cons p m ih =>
    obtain ⟨k', c⟩ := p
    simp only [List.map_cons, List.pairwise_cons] at hs
    unfold SMap.upd
    by_cases h1 : k < k'
    · rw [if_pos h1, if_neg]
      · rfl
      · simp only [List.map_cons, List.mem_cons, not_or]
        exact ⟨h1.ne, fun hm => absurd (hs.1 _ hm) (not_lt.2 h1.le)⟩
    · rw [if_neg h1]
      by_cases h2 : k = k'
      · rw [if_pos h2, if_pos (by simp [h2])]; rfl
      · rw [if_neg h2, List.length_cons, ih hs.2]
        simp only [List.map_cons, List.mem_cons, h2, false_or, List.length_cons]
        split <;> rfl

/-! ### sums over levels -/

theorem sum_count_le {n : Nat} (l : List (Fin n)) (k : Nat) :
    ∑ i ∈ Finset.range (k + 1), (l.map Fin.val).count i = l.countP fun v => decide (v.val ≤ k) := by
  induction l with
  | nil => simp
  | cons a l ih =>
    simp only [List.map_cons, List.count_cons, List.countP_cons, Finset.sum_add_distrib, ih]
    congr 1
    simp only [beq_iff_eq, decide_eq_true_eq, Finset.sum_ite_eq, Finset.mem_range]
    split <;> split <;> omega

theorem sum_mul_le {n : Nat} (l : List (Fin n)) (k : Nat) :
    ∑ i ∈ Finset.range (k + 1), (l.map Fin.val).count i * i =
      (l.map fun v => if decide (v.val ≤ k) then v.val else 0).sum := by
  induction l with
  | nil => simp
  | cons a l ih =>
    simp only [List.map_cons, List.count_cons, List.sum_cons, add_mul, Finset.sum_add_distrib, ih]
    rw [add_comm]
    congr 1
    simp only [beq_iff_eq, decide_eq_true_eq, ite_mul, one_mul, zero_mul, Finset.sum_ite_eq, Finset.mem_range]
    split <;> split <;> omega

theorem sum_count_gt {n : Nat} (l : List (Fin n)) (k : Nat) :
    ∑ i ∈ Finset.Ico (k + 1) n, (l.map Fin.val).count i = l.countP fun v => decide (k < v.val) := by
  induction l with
  | nil => simp
  | cons a l ih =>
    simp only [List.map_cons, List.count_cons, List.countP_cons, Finset.sum_add_distrib, ih]
    congr 1
    have := a.isLt
    simp only [beq_iff_eq, decide_eq_true_eq, Finset.sum_ite_eq, Finset.mem_Ico]
    split <;> split <;> omega

theorem sum_mul_gt {n : Nat} (l : List (Fin n)) (k : Nat) :
    ∑ i ∈ Finset.Ico (k + 1) n, (l.map Fin.val).count i * i =
      (l.map fun v => if decide (k < v.val) then v.val else 0).sum := by
  induction l with
  | nil => simp
  | cons a l ih =>
    simp only [List.map_cons, List.count_cons, List.sum_cons, add_mul, Finset.sum_add_distrib, ih]
    rw [add_comm]
    congr 1
    have := a.isLt
    simp only [beq_iff_eq, decide_eq_true_eq, ite_mul, one_mul, zero_mul, Finset.sum_ite_eq, Finset.mem_Ico]
    split <;> split <;> omega

theorem pixelSum_eq {α : Type} {im : Image α} {w h : Nat} {f : Nat → Nat → α}
    (s : im.Shows w h f) (val : α → Nat) (p : α → Bool) :
    (im.data.map fun v => if p v then val v else 0).sum = pixelSum w h f val p := by
  rw [s.data_eq]
  unfold iterYX pixelSum
  rw [List.map_map, List.map_flatMap, List.flatMap_def, List.sum_flatten, List.map_map]
  congr 1
  apply List.map_congr_left
  intro y _
  simp only [Function.comp, List.map_map]
  rfl

end TinyDIP.Hist
