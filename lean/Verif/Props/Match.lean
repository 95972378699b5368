import Verif.Lemmas.Samples
import Verif.Lemmas.Match
import Mathlib.Algebra.Order.Ring.Rat

/-!
# Matching of descriptors: C51, C52
-/

namespace TinyDIP.Props

open TinyDIP Match

variable {K D : Type} [Field K] [LinearOrder K] [IsStrictOrderedRing K]

/-! ## C51 find_raw_matches -/

/-- All lists of descriptors whose distances are below the largest number, every ratio and every order
of the parallel iterations: `(i, j)` is returned exactly when `j` is the first nearest neighbour of `i`
and passes the ratio test, no descriptor of the first list occurs twice, and another order gives the
same matches. Missing: distances that exceed the largest number. -/
theorem C51_raw_partial (sched sched' : List Nat → List Nat) (hs : ∀ l, (sched l).Perm l)
    (hs' : ∀ l, (sched' l).Perm l) (dist : D → D → K) (big : K)
    (ds1 ds2 : List D) (ratio : K) (hb : ∀ a ∈ ds1, ∀ b ∈ ds2, dist a b < big) :
    ∃ out out', findRawMatches sched dist big ds1 ds2 ratio = .ok out ∧
      findRawMatches sched' dist big ds1 ds2 ratio = .ok out' ∧ out.Perm out' ∧
      (∀ i j, (i, j) ∈ out ↔ RawMatch dist big ratio ds1 ds2 i j) ∧ (out.map Prod.fst).Nodup := by
  refine ⟨_, _, findRawMatches_ok hs dist big ds1 ds2 ratio hb, findRawMatches_ok hs' dist big ds1 ds2 ratio hb,
    ((hs _).trans (hs' _).symm).flatMap_right _, ?_, ?_⟩
  · intro i j
    rw [List.mem_flatMap]
    constructor
    · rintro ⟨k, _, hk⟩
      exact (mem_matchOf.1 hk).2
    · intro h
      have hi : i < ds1.length := by
        obtain ⟨q, hq, _⟩ := h
        by_contra hc
        rw [List.getElem?_eq_none (by omega)] at hq
        simp at hq
      exact ⟨i, (hs _).mem_iff.2 (List.mem_range.2 hi), mem_matchOf.2 ⟨rfl, h⟩⟩
  · exact raw_nodup dist big ratio ds1 ds2 ((hs _).nodup_iff.2 List.nodup_range)

example := C51_raw_partial List.reverse id (fun l => l.reverse_perm) (fun _ => .refl _) (fun a b : ℚ => (a - b) ^ 2) 1000
  [1, 5, 9] [9, 2, 5, 5] (7 / 10) (by decide +kernel)

/-- The property fails when every distance exceeds the largest number (an overflow) and the ratio is
above one: the best index is still `size_t(-1)` and is returned. -/
theorem C51_overflow_violation :
    findRawMatches id (fun a b : ℚ => (a - b) ^ 2) 100 [0] [50] 2 = .ok [(0, 2 ^ 64 - 1)] := by
  decide +kernel

/-- The hypotheses are met and there are matches, unmatched descriptors and a tie. -/
example : findRawMatches id (fun a b : ℚ => (a - b) ^ 2) 1000 [1, 5, 9] [9, 2, 5, 5] (7 / 10) =
    .ok [(0, 1), (2, 0)] ∧
    ∀ a ∈ [(1 : ℚ), 5, 9], ∀ b ∈ [(9 : ℚ), 2, 5, 5], (a - b) ^ 2 < 1000 := by
  constructor <;> decide +kernel

/-! ## C52 find_robust_matches -/

omit [IsStrictOrderedRing K] in
/-- All descriptor lists, ratios and orders: the result holds exactly the pairs that are raw matches in
both directions, and no descriptor of either image occurs in two pairs. -/
theorem C52_robust (sched1 sched2 : List Nat → List Nat) (hs1 : ∀ l, (sched1 l).Perm l)
    (hs2 : ∀ l, (sched2 l).Perm l) (dist : D → D → K) (big : K) (ds1 ds2 : List D) (ratio : K) :
    ∃ m12 m21 out, findRawMatches sched1 dist big ds1 ds2 ratio = .ok m12 ∧
      findRawMatches sched2 dist big ds2 ds1 ratio = .ok m21 ∧
      findRobustMatches sched1 sched2 dist big ds1 ds2 ratio = .ok out ∧
      (∀ i j, (i, j) ∈ out ↔ (i, j) ∈ m12 ∧ (j, i) ∈ m21) ∧
      (out.map Prod.fst).Nodup ∧ (out.map Prod.snd).Nodup := by
  obtain ⟨g1, hg1, e1⟩ := findRawMatches_total dist big ds1 ds2 ratio
  obtain ⟨g2, hg2, e2⟩ := findRawMatches_total dist big ds2 ds1 ratio
  have e1 := e1 sched1 hs1
  have e2 := e2 sched2 hs2
  have n1 := flatMap_fst_nodup hg1 ((hs1 _).nodup_iff.2 (List.nodup_range (n := ds1.length)))
  have n2 := flatMap_fst_nodup hg2 ((hs2 _).nodup_iff.2 (List.nodup_range (n := ds2.length)))
  generalize (sched1 (List.range ds1.length)).flatMap g1 = m12 at e1 n1
  generalize (sched2 (List.range ds2.length)).flatMap g2 = m21 at e2 n2
  have hl : ∀ (l acc : List (Nat × Nat)), loop (fun acc (m : Nat × Nat) =>
      if m21.any fun k => m.1 == k.2 && m.2 == k.1 then Res.ok (acc ++ [m]) else .ok acc) l acc =
      .ok (acc ++ l.filter fun m => decide ((m.2, m.1) ∈ m21)) := by
    intro l
    induction l with
    | nil => intro acc; simp [loop]
    | cons m l ih =>
      intro acc
      have hc : (m21.any fun k => m.1 == k.2 && m.2 == k.1) = decide ((m.2, m.1) ∈ m21) := by
        rw [Bool.eq_iff_iff, List.any_eq_true, decide_eq_true_eq]
        constructor
        · rintro ⟨k, hk, h⟩
          simp at h
          rw [h.1, h.2]
          exact hk
        · intro h
          exact ⟨_, h, by simp⟩
      rw [loop, hc]
      by_cases hm : (m.2, m.1) ∈ m21
      · simp only [hm, decide_true, if_true]
        rw [ih, List.filter_cons_of_pos (by simpa using hm)]
        simp
      · simp only [hm, decide_false, Bool.false_eq_true, if_false]
        rw [ih, List.filter_cons_of_neg (by simpa using hm)]
  refine ⟨m12, m21, m12.filter fun m => decide ((m.2, m.1) ∈ m21), e1, e2, ?_, ?_, ?_, ?_⟩
  · unfold findRobustMatches
    rw [e1, e2]
    simp only [Res.ok_bind]
    rw [hl]
    rfl
  · intro i j
    rw [List.mem_filter]
    simp
  · exact List.Nodup.sublist (List.filter_sublist.map _) n1
  · have hf : (m12.filter fun m => decide ((m.2, m.1) ∈ m21)).Nodup :=
      List.Nodup.sublist List.filter_sublist (List.Nodup.of_map _ n1)
    rw [List.nodup_map_iff_inj_on hf]
    intro a ha b hb hab
    have ha' : (a.2, a.1) ∈ m21 := by simpa using (List.mem_filter.1 ha).2
    have hb' : (b.2, b.1) ∈ m21 := by simpa using (List.mem_filter.1 hb).2
    have := List.inj_on_of_nodup_map n2 ha' hb' hab
    simp only [Prod.mk.injEq] at this
    exact Prod.ext this.2 this.1

example := C52_robust List.reverse id (fun l => l.reverse_perm) (fun _ => .refl _)
  (fun a b : ℚ => |a - b|) 1000 [1, 5, 9] [9, 2, 4] (4 / 5)

/-- With distances below the largest number: exactly the pairs that are each other's first nearest
neighbours and pass the ratio test in both directions. -/
theorem C52_mutual (sched1 sched2 : List Nat → List Nat) (hs1 : ∀ l, (sched1 l).Perm l)
    (hs2 : ∀ l, (sched2 l).Perm l) (dist : D → D → K) (big : K) (ds1 ds2 : List D) (ratio : K)
    (hb : ∀ a ∈ ds1, ∀ b ∈ ds2, dist a b < big) (hb' : ∀ a ∈ ds2, ∀ b ∈ ds1, dist a b < big) :
    ∃ out, findRobustMatches sched1 sched2 dist big ds1 ds2 ratio = .ok out ∧
      ∀ i j, (i, j) ∈ out ↔ RawMatch dist big ratio ds1 ds2 i j ∧ RawMatch dist big ratio ds2 ds1 j i := by
  obtain ⟨m12, m21, out, e1, e2, e, h, _, _⟩ := C52_robust sched1 sched2 hs1 hs2 dist big ds1 ds2 ratio
  obtain ⟨o1, _, f1, _, _, h1, _⟩ := C51_raw_partial sched1 sched1 hs1 hs1 dist big ds1 ds2 ratio hb
  obtain ⟨o2, _, f2, _, _, h2, _⟩ := C51_raw_partial sched2 sched2 hs2 hs2 dist big ds2 ds1 ratio hb'
  rw [e1] at f1
  rw [e2] at f2
  simp only [Res.ok.injEq] at f1 f2
  subst f1 f2
  refine ⟨out, e, fun i j => ?_⟩
  rw [h, h1, h2]

/-- A concrete case: 9 matches 9 and 1 matches 2 in both directions. -/
example : findRobustMatches id List.reverse (fun a b : ℚ => (a - b) ^ 2) 1000 [1, 5, 9] [9, 2, 5, 5] (7 / 10) =
    .ok [(0, 1), (2, 0)] := by
  decide +kernel

end TinyDIP.Props
