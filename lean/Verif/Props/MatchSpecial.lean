import Verif.Spec.MatchSpecial
import Verif.Lemmas.Special
import Verif.Lemmas.Match
import Verif.Props.HistSpecial
import Verif.Props.FitSpecial
import Mathlib.Tactic.Push
import Mathlib.Tactic.IntervalCases
import Mathlib.Tactic.Choose
import Mathlib.Tactic.ByContra

/-!
# Property C216: matching descriptors whose distances may be infinite or NaN

Full statement of C216: whatever the distances are, `find_raw_matches` returns a pair `(i, j)` exactly when `j` is the
first nearest descriptor of `i` and passes the ratio test, both indices are valid, the result does not depend on the
schedule, and a descriptor with an entry that is no number is in no match.

What is missing: with a ratio above one a descriptor without any usable distance is matched with the index
`size_t(-1)`.
-/

namespace TinyDIP.Props

open TinyDIP Rnd Sp Dbl

open scoped Classical

variable {D : Type}

/-! ## C216 -/

theorem lt_trans' {a b c : Dbl} (h1 : a.lt b) (h2 : b.lt c) : a.lt c := by
  cases a <;> cases b <;> cases c <;> simp_all [Dbl.lt] <;> linarith

theorem lt_irrefl' (a : Dbl) : ¬ a.lt a := by
  cases a <;> simp [Dbl.lt]

theorem le_lt_trans' {a b c : Dbl} (h1 : a.le b) (h2 : b.lt c) : a.lt c := by
  cases a <;> cases b <;> cases c <;> simp_all [Dbl.lt, Dbl.le] <;> linarith

/-- The state after the first `n` candidates. -/
def NearInv (d : Nat → Dbl) (n : Nat) (s : Dbl × Dbl × Nat) : Prop :=
  (s = (dblMax, dblMax, 2 ^ 64 - 1) ∧ ∀ k < n, ¬ Usable (d k)) ∨
    (FirstUsable d n s.2.2 ∧ s.1 = d s.2.2 ∧ SecondUsable d n s.2.2 s.2.1)

theorem nearestSp_inv (dist : D → D → Dbl) (q : D) (ds : List D) (d : Nat → Dbl)
    (hd : ∀ k (hk : k < ds.length), d k = dist q ds[k]) :
    ∃ s, nearestSp dist q ds = .ok s ∧ NearInv d ds.length s := by
  unfold nearestSp
  refine forUp_inv (NearInv d) ?_ _ (.inl ⟨rfl, fun k hk => absurd hk (by omega)⟩)
  rintro n ⟨b, s, idx⟩ hn hinv
  rw [vget_eq_ok hn]
  simp only [Res.ok_bind]
  rw [← hd n hn]
  rcases hinv with ⟨e, hno⟩ | ⟨⟨hi, hu, hmin, hfirst⟩, hb, hs⟩
  · simp only [Prod.mk.injEq] at e
    obtain ⟨rfl, rfl, rfl⟩ := e
    by_cases h1 : (d n).lt dblMax
    · rw [if_pos h1]
      refine ⟨_, rfl, .inr ⟨⟨by simp, h1, ?_, ?_⟩, rfl, .inl ⟨rfl, ?_⟩⟩⟩
      · intro k hk hlt
        simp only at hlt
        rcases Nat.lt_succ_iff_lt_or_eq.1 hk with hk | rfl
        · exact hno k hk (lt_trans' hlt h1)
        · exact lt_irrefl' _ hlt
      · intro k hk hle
        exact hno k hk (le_lt_trans' hle h1)
      · intro k hk hne
        exact hno k (by simp only at hne; omega)
    · rw [if_neg h1, if_neg h1]
      refine ⟨_, rfl, .inl ⟨rfl, ?_⟩⟩
      intro k hk
      rcases Nat.lt_succ_iff_lt_or_eq.1 hk with hk | rfl
      · exact hno k hk
      · exact h1
  · simp only at hi hu hmin hfirst hb hs
    subst hb
    by_cases h1 : (d n).lt (d idx)
    · rw [if_pos h1]
      refine ⟨_, rfl, .inr ⟨⟨by simp, lt_trans' h1 hu, ?_, ?_⟩, rfl, .inr ⟨idx, by omega, by simp only; omega, rfl, hu, ?_⟩⟩⟩
      · intro k hk hlt
        simp only at hlt
        rcases Nat.lt_succ_iff_lt_or_eq.1 hk with hk | rfl
        · exact hmin k hk (lt_trans' hlt h1)
        · exact lt_irrefl' _ hlt
      · intro k hk hle
        exact hmin k hk (le_lt_trans' hle h1)
      · intro l hl hne
        exact hmin l (by simp only at hne; omega)
    · rw [if_neg h1]
      have hF : FirstUsable d (n + 1) idx := by
        refine ⟨by omega, hu, ?_, hfirst⟩
        intro k hk
        rcases Nat.lt_succ_iff_lt_or_eq.1 hk with hk | rfl
        · exact hmin k hk
        · exact h1
      by_cases h2 : (d n).lt s
      · rw [if_pos h2]
        refine ⟨_, rfl, .inr ⟨hF, rfl, .inr ⟨n, by omega, by simp only; omega, rfl, ?_, ?_⟩⟩⟩
        · rcases hs with ⟨rfl, -⟩ | ⟨_, _, _, _, h, _⟩
          · exact h2
          · exact lt_trans' h2 h
        · intro l hl hne hlt
          simp only at hne hlt
          rcases Nat.lt_succ_iff_lt_or_eq.1 hl with hl | rfl
          · rcases hs with ⟨rfl, h⟩ | ⟨_, _, _, _, _, h⟩
            · exact h l hl hne (lt_trans' hlt h2)
            · exact h l hl hne (lt_trans' hlt h2)
          · exact lt_irrefl' _ hlt
      · rw [if_neg h2]
        refine ⟨_, rfl, .inr ⟨hF, rfl, ?_⟩⟩
        rcases hs with ⟨rfl, h⟩ | ⟨k, hk, hne, e, hu', h⟩
        · refine .inl ⟨rfl, ?_⟩
          intro k hk hne
          rcases Nat.lt_succ_iff_lt_or_eq.1 hk with hk | rfl
          · exact h k hk hne
          · exact h2
        · refine .inr ⟨k, by omega, hne, e, hu', ?_⟩
          intro l hl hne
          rcases Nat.lt_succ_iff_lt_or_eq.1 hl with hl | rfl
          · exact h l hl hne
          · exact h2

theorem usable_eq {a b : Dbl} (ha : Usable a) (hb : Usable b) (h1 : ¬ a.lt b) (h2 : ¬ b.lt a) : a = b := by
  unfold Usable at ha hb
  generalize (2 : ℝ) ^ 1024 - 2 ^ 971 = K at *
  cases a <;> cases b <;> simp_all [Dbl.lt]
  exact le_antisymm h2 h1

theorem usable_le {a : Dbl} (ha : Usable a) : a.le a := by
  unfold Usable at ha
  generalize (2 : ℝ) ^ 1024 - 2 ^ 971 = K at *
  cases a <;> simp_all [Dbl.lt, Dbl.le]

theorem first_unique {d : Nat → Dbl} {n j k : Nat} (hj : FirstUsable d n j) (hk : FirstUsable d n k) : j = k := by
  obtain ⟨j1, j2, j3, j4⟩ := hj
  obtain ⟨k1, k2, k3, k4⟩ := hk
  have e := usable_eq j2 k2 (k3 j j1) (j3 k k1)
  rcases Nat.lt_trichotomy j k with h | h | h
  · exact absurd (e ▸ usable_le j2) (k4 j h)
  · exact h
  · exact absurd (by rw [e]; exact usable_le k2) (j4 k h)

theorem second_unique {d : Nat → Dbl} {n j : Nat} {s s' : Dbl} (h : SecondUsable d n j s) (h' : SecondUsable d n j s') :
    s = s' := by
  rcases h with ⟨rfl, h⟩ | ⟨k, hk, hne, rfl, hu, h⟩ <;> rcases h' with ⟨rfl, h'⟩ | ⟨k', hk', hne', rfl, hu', h'⟩
  · rfl
  · exact absurd hu' (h k' hk' hne')
  · exact absurd hu (h' k hk hne)
  · exact usable_eq hu hu' (h' k hk hne) (h k' hk' hne')

/-- A ratio of at most one, or NaN, does not let the largest number pass. -/
theorem ratio_top {ratio : Dbl} (hr : ratio = .nan ∨ ∃ x : ℝ, ratio = .num x ∧ |x| ≤ 1) :
    ¬ dblMax.lt ((ratio.mul ratio).mul dblMax) := by
  rcases hr with rfl | ⟨x, rfl, hx⟩
  · exact id
  · have hxx : |x * x| ≤ 2 ^ 0 := by
      rw [abs_mul, pow_zero]
      nlinarith [abs_nonneg x]
    obtain ⟨e1, -⟩ := rnd_within hxx (by norm_num)
    have e1 : (Dbl.num x).mul (.num x) = .num (dbl (x * x)) := e1
    have h0 : 0 ≤ dbl (x * x) := dbl_nonneg (mul_self_nonneg x)
    have h1 : dbl (x * x) ≤ 1 := by
      have := dbl_mono (show x * x ≤ 1 by rw [pow_zero] at hxx; exact (le_abs_self _).trans hxx)
      rwa [dbl_one] at this
    rw [e1]
    unfold dblMax
    have hK : (2 : ℝ) ^ 1024 = 2 ^ 971 * 2 ^ 53 := by rw [← pow_add]
    have hM : dbl ((2 : ℝ) ^ 1024 - 2 ^ 971) = 2 ^ 1024 - 2 ^ 971 := by
      refine dbl_of_rep ⟨2 ^ 53 - 1, 971, by norm_num, ?_⟩
      have h2 : (2 : ℝ) ^ (971 : ℤ) = 2 ^ 971 := zpow_natCast 2 971
      rw [hK, h2]
      generalize (2 : ℝ) ^ 971 = K
      push_cast
      ring
    have hM0 : (0 : ℝ) ≤ 2 ^ 1024 - 2 ^ 971 := by
      rw [hK]
      have : (0 : ℝ) < 2 ^ 971 := by positivity
      generalize (2 : ℝ) ^ 971 = K at this
      linarith
    have hlt : (2 : ℝ) ^ 1024 - 2 ^ 971 < 2 ^ 1024 := sub_lt_self _ (by positivity)
    generalize (2 : ℝ) ^ 1024 - 2 ^ 971 = M at *
    have hle : dbl (dbl (x * x) * M) ≤ M := by
      have := dbl_mono (show dbl (x * x) * M ≤ M by nlinarith)
      rwa [hM] at this
    have hge : 0 ≤ dbl (dbl (x * x) * M) := dbl_nonneg (mul_nonneg h0 hM0)
    have e2 : (Dbl.num (dbl (x * x))).mul (.num M) = .num (dbl (dbl (x * x) * M)) :=
      rnd_of_lt (by rw [abs_of_nonneg hge]; exact lt_of_le_of_lt hle hlt)
    rw [e2]
    exact not_lt.2 hle

/-- The matches of one descriptor. -/
theorem rawSp_pieces (dist : D → D → Dbl) (ds1 ds2 : List D) (ratio : Dbl) :
    ∃ g : Nat → List (Nat × Nat), (∀ i, g i = [] ∨ ∃ j, g i = [(i, j)]) ∧
      (∀ sched : List Nat → List Nat, (∀ l, (sched l).Perm l) →
        findRawSp sched dist ds1 ds2 ratio = .ok ((sched (List.range ds1.length)).flatMap g)) ∧
      ((ratio = .nan ∨ ∃ x : ℝ, ratio = .num x ∧ |x| ≤ 1) →
        ∀ i, i < ds1.length → ∀ j, (i, j) ∈ g i ↔ RawMatchSp dist ratio ds1 ds2 i j) := by
  by_cases hne : ds1 = [] ∨ ds2 = []
  · refine ⟨fun _ => [], fun _ => .inl rfl, fun sched _ => ?_, fun _ i hi j => ?_⟩
    · unfold findRawSp
      rw [if_pos hne]
      simp
    · simp only [List.not_mem_nil, false_iff]
      rintro ⟨q, hq, d, hd, ⟨hj, -⟩, -⟩
      rcases hne with rfl | rfl
      · simp at hi
      · simp at hj
  · have : ∀ i, ∃ g : List (Nat × Nat), (g = [] ∨ ∃ j, g = [(i, j)]) ∧ (i < ds1.length →
        (∀ acc, (do
          let q ← vget ds1 i
          let s ← nearestSp dist q ds2
          if s.1.lt ((ratio.mul ratio).mul s.2.1) then Res.ok (acc ++ [(i, s.2.2)]) else .ok acc) = .ok (acc ++ g)) ∧
        ((ratio = .nan ∨ ∃ x : ℝ, ratio = .num x ∧ |x| ≤ 1) →
          ∀ j, (i, j) ∈ g ↔ RawMatchSp dist ratio ds1 ds2 i j)) := by
      intro i
      by_cases hi : i < ds1.length
      · have hdd : ∀ d' : Nat → Dbl, ∀ q, ds1[i]? = some q → (∀ k (hk : k < ds2.length), d' k = dist q ds2[k]) →
            ∀ k < ds2.length, d' k = (fun k => if hk : k < ds2.length then dist ds1[i] ds2[k] else .nan) k := by
          intro d' q hq hd k hk
          rw [List.getElem?_eq_getElem hi, Option.some.injEq] at hq
          subst hq
          simp only [hk, dif_pos, hd k hk]
        obtain ⟨s, e, hinv⟩ := nearestSp_inv dist ds1[i] ds2
          (fun k => if hk : k < ds2.length then dist ds1[i] ds2[k] else .nan) (by intro k hk; simp only [hk, dif_pos])
        generalize hdf : (fun k => if hk : k < ds2.length then dist ds1[i] ds2[k] else .nan) = d at hinv hdd
        have hd : ∀ k (hk : k < ds2.length), d k = dist ds1[i] ds2[k] := by
          intro k hk; rw [← hdf]; simp only [hk, dif_pos]
        have hraw : ∀ j, RawMatchSp dist ratio ds1 ds2 i j ↔ FirstUsable d ds2.length j ∧
            ∃ s, SecondUsable d ds2.length j s ∧ (d j).lt ((ratio.mul ratio).mul s) := by
          intro j
          constructor
          · rintro ⟨q, hq, d', hd', hF, s', hS, hlt⟩
            have ee := hdd d' q hq hd'
            obtain ⟨f1, f2, f3, f4⟩ := hF
            have hj := ee j f1
            refine ⟨⟨f1, hj ▸ f2, fun k hk => ?_, fun k hk => ?_⟩, s', ?_, hj ▸ hlt⟩
            · rw [← ee k hk, ← hj]; exact f3 k hk
            · rw [← ee k (by omega), ← hj]; exact f4 k hk
            · rcases hS with ⟨rfl, h⟩ | ⟨k, hk, hkj, rfl, hu, h⟩
              · exact .inl ⟨rfl, fun k hk hkj => ee k hk ▸ h k hk hkj⟩
              · exact .inr ⟨k, hk, hkj, ee k hk, hu, fun l hl hlj => ee l hl ▸ h l hl hlj⟩
          · rintro ⟨hF, hS⟩
            exact ⟨ds1[i], List.getElem?_eq_getElem hi, d, hd, hF, hS⟩
        have hcase : (ratio = .nan ∨ ∃ x : ℝ, ratio = .num x ∧ |x| ≤ 1) →
            ∀ j, (s.1.lt ((ratio.mul ratio).mul s.2.1) ∧ j = s.2.2) ↔ RawMatchSp dist ratio ds1 ds2 i j := by
          intro hr j
          rw [hraw]
          rcases hinv with ⟨rfl, hno⟩ | ⟨hF, hb, hS⟩
          · constructor
            · rintro ⟨h, -⟩
              exact absurd h (ratio_top hr)
            · rintro ⟨⟨h1, h2, -⟩, -⟩
              exact absurd h2 (hno j h1)
          · rw [hb]
            constructor
            · rintro ⟨h, rfl⟩
              exact ⟨hF, _, hS, h⟩
            · rintro ⟨hF', s', hS', h⟩
              have := first_unique hF hF'
              subst this
              rw [second_unique hS hS']
              exact ⟨h, rfl⟩
        by_cases hc : s.1.lt ((ratio.mul ratio).mul s.2.1)
        · refine ⟨[(i, s.2.2)], .inr ⟨_, rfl⟩, fun _ => ⟨fun acc => ?_, fun hr j => ?_⟩⟩
          · rw [vget_eq_ok hi]
            simp only [Res.ok_bind, e]
            rw [if_pos hc]
          · rw [← hcase hr]
            simp [hc]
        · refine ⟨[], .inl rfl, fun _ => ⟨fun acc => ?_, fun hr j => ?_⟩⟩
          · rw [vget_eq_ok hi]
            simp only [Res.ok_bind, e]
            rw [if_neg hc, List.append_nil]
          · rw [← hcase hr]
            simp [hc]
      · exact ⟨[], .inl rfl, fun h => absurd h hi⟩
    choose g hg hg' using this
    refine ⟨g, hg, fun sched hs => ?_, fun hr i hi j => (hg' i hi).2 hr j⟩
    unfold findRawSp
    rw [if_neg hne, Match.loop_collectL _ g]
    · simp
    · intro i hi out
      exact (hg' i (List.mem_range.1 ((hs _).mem_iff.1 hi))).1 out

/-- All lists of descriptors, whatever the distances are, every ratio between -1 and 1 or NaN and every two orders of the
parallel iterations: `(i, j)` is returned exactly when `j` is the first nearest candidate of `i` and passes the ratio
test; no descriptor of the first list occurs twice, all indices are valid, and both orders give the same matches.
Missing: ratios above one, see `C216_ratio_violation`. -/
theorem C216_raw_partial (sched sched' : List Nat → List Nat) (hs : ∀ l, (sched l).Perm l)
    (hs' : ∀ l, (sched' l).Perm l) (dist : D → D → Dbl) (ds1 ds2 : List D) (ratio : Dbl)
    (hr : ratio = .nan ∨ ∃ x : ℝ, ratio = .num x ∧ |x| ≤ 1) :
    ∃ out out', findRawSp sched dist ds1 ds2 ratio = .ok out ∧ findRawSp sched' dist ds1 ds2 ratio = .ok out' ∧
      out.Perm out' ∧ (∀ i j, (i, j) ∈ out ↔ RawMatchSp dist ratio ds1 ds2 i j) ∧ (out.map Prod.fst).Nodup ∧
      ∀ m ∈ out, m.1 < ds1.length ∧ m.2 < ds2.length := by
  obtain ⟨g, hg, hrun, hmem⟩ := rawSp_pieces dist ds1 ds2 ratio
  have hiff : ∀ i j, (i, j) ∈ (sched (List.range ds1.length)).flatMap g ↔ RawMatchSp dist ratio ds1 ds2 i j := by
    intro i j
    rw [List.mem_flatMap]
    constructor
    · rintro ⟨k, hk, hkg⟩
      have hk := List.mem_range.1 ((hs _).mem_iff.1 hk)
      have : i = k := by
        rcases hg k with h | ⟨j', h⟩
        · rw [h] at hkg; simp at hkg
        · rw [h, List.mem_singleton, Prod.mk.injEq] at hkg
          exact hkg.1
      subst this
      exact (hmem hr i hk j).1 hkg
    · intro h
      have hi : i < ds1.length := by
        obtain ⟨q, hq, -⟩ := h
        exact (List.getElem?_eq_some_iff.1 hq).1
      exact ⟨i, (hs _).mem_iff.2 (List.mem_range.2 hi), (hmem hr i hi j).2 h⟩
  refine ⟨_, _, hrun sched hs, hrun sched' hs', ((hs _).trans (hs' _).symm).flatMap_right _, hiff,
    Match.flatMap_fst_nodup hg ((hs _).nodup_iff.2 List.nodup_range), ?_⟩
  rintro ⟨i, j⟩ hm
  obtain ⟨q, hq, d, -, ⟨hj, -⟩, -⟩ := (hiff i j).1 hm
  exact ⟨(List.getElem?_eq_some_iff.1 hq).1, hj⟩

example := C216_raw_partial List.reverse id (fun l => l.reverse_perm) (fun _ => .refl _) squaredSp
  [[.num 1], [.nan], [.num 9]] [[.pinf], [.num 2], [.num 9], [.num 9]] (.num (1 / 2))
  (.inr ⟨_, rfl, by rw [abs_of_pos] <;> norm_num⟩)

theorem big_gt : (64 : ℝ) < 2 ^ 1024 - 2 ^ 971 := by
  have hK : (2 : ℝ) ^ 1024 = 2 ^ 971 * 2 ^ 53 := by rw [← pow_add]
  have h1 : (1 : ℝ) ≤ 2 ^ 971 := one_le_pow₀ (by norm_num)
  rw [hK]
  clear hK
  generalize (2 : ℝ) ^ 971 = K at *
  linarith

/-- A match next to a candidate at an infinite distance and one that is NaN. -/
example : RawMatchSp (fun _ b : Nat => if b = 0 then .nan else if b = 1 then .pinf else .num b) (.num 1) [7] [0, 3, 1, 64]
    0 1 := by
  refine ⟨7, rfl, fun k => if k = 0 then .nan else if k = 2 then .pinf else if k = 1 then .num 3 else .num 64, ?_,
    ⟨by decide, ?_, ?_, ?_⟩, .num 64, .inr ⟨3, by decide, by decide, by simp, ?_, ?_⟩, ?_⟩
  · intro k hk
    have : k < 4 := hk
    interval_cases k <;> simp
  · exact lt_trans (by norm_num : (3 : ℝ) < 64) big_gt
  · intro k hk
    have : k < 4 := hk
    interval_cases k <;> norm_num [Dbl.lt]
  · intro k hk
    interval_cases k
    norm_num [Dbl.lt, Dbl.le]
  · exact big_gt
  · intro k hk
    have : k < 4 := hk
    interval_cases k <;> norm_num [Dbl.lt]
  · have h1 : (Dbl.num 1).mul (.num 1) = .num 1 := by
      have e : dbl (1 * 1) = 1 := by rw [one_mul, dbl_one]
      rw [Dbl.mul, rnd_of_lt, e]
      rw [e, abs_one]
      exact one_lt_pow₀ (by norm_num) (by norm_num)
    have h2 : (Dbl.num 1).mul (.num 64) = .num 64 := by
      have e : dbl (1 * 64) = 64 := by rw [one_mul]; exact_mod_cast dbl_nat (n := 64) (by norm_num)
      rw [Dbl.mul, rnd_of_lt, e]
      rw [e, abs_of_pos (by norm_num)]
      calc (64 : ℝ) = 2 ^ 6 := by norm_num
        _ < 2 ^ 1024 := pow_lt_1024 (by norm_num)
    rw [h1, h2]
    norm_num [Dbl.lt]

theorem squaredSp_fold (l : List (Dbl × Dbl)) : ∀ sum, NonNeg sum →
    NonNeg (l.foldl (fun sum p => sum.add ((p.1.sub p.2).mul (p.1.sub p.2))) sum) ∧
      ((Lost sum ∨ ∃ p ∈ l, Lost ((p.1.sub p.2).mul (p.1.sub p.2))) →
        Lost (l.foldl (fun sum p => sum.add ((p.1.sub p.2).mul (p.1.sub p.2))) sum)) := by
  induction l with
  | nil =>
    intro sum hs
    exact ⟨hs, fun h => h.elim id fun ⟨p, hp, _⟩ => absurd hp List.not_mem_nil⟩
  | cons p l ih =>
    intro sum hs
    have hn := hs.add (square_nonneg (p.1.sub p.2))
    obtain ⟨h1, h2⟩ := ih _ hn
    refine ⟨h1, fun h => h2 ?_⟩
    rcases h with h | ⟨r, hr, h⟩
    · exact .inl (h.add_left (square_nonneg _))
    · rcases List.mem_cons.1 hr with rfl | hr
      · exact .inl (h.add_right hs)
      · exact .inr ⟨r, hr, h⟩

theorem lost_pixel' {z : Dbl} (hz : ∀ x : ℝ, z ≠ .num x) (v : Dbl) : Lost ((v.sub z).mul (v.sub z)) := by
  have hs : v.sub z = .nan ∨ v.sub z = .pinf ∨ v.sub z = .ninf := by
    cases z with
    | num x => exact absurd rfl (hz x)
    | nan => cases v <;> exact .inl rfl
    | pinf => cases v <;> first | exact .inl rfl | exact .inr (.inr rfl)
    | ninf => cases v <;> first | exact .inl rfl | exact .inr (.inl rfl)
  rcases hs with e | e | e <;> rw [e]
  · exact .inl rfl
  · exact .inr rfl
  · exact .inr rfl

theorem squaredSp_lost {a b : List Dbl} (hlen : a.length = b.length) (h : ¬ (AllNumbers a ∧ AllNumbers b)) :
    ¬ Usable (squaredSp a b) := by
  have hL : Lost (squaredSp a b) := by
    refine (squaredSp_fold (a.zip b) (.num 0) (.inr (.inr ⟨0, le_rfl, rfl⟩))).2 (.inr ?_)
    rw [not_and_or] at h
    rcases h with h | h
    · unfold AllNumbers at h
      push Not at h
      obtain ⟨v, hv, hx⟩ := h
      obtain ⟨k, hk, rfl⟩ := List.getElem_of_mem hv
      exact ⟨(a[k], b[k]), by
        rw [List.mem_iff_getElem]; exact ⟨k, by rw [List.length_zip]; omega, by rw [List.getElem_zip]⟩, lost_pixel hx _⟩
    · unfold AllNumbers at h
      push Not at h
      obtain ⟨v, hv, hx⟩ := h
      obtain ⟨k, hk, rfl⟩ := List.getElem_of_mem hv
      exact ⟨(a[k], b[k]), by
        rw [List.mem_iff_getElem]; exact ⟨k, by rw [List.length_zip]; omega, by rw [List.getElem_zip]⟩, lost_pixel' hx _⟩
  unfold Usable
  rcases hL with e | e <;> rw [e] <;> exact id

/-- Descriptors of one size and squared Euclidean distances: a descriptor with an infinite or NaN entry is in no match,
in any order of the parallel iterations. -/
theorem C216_special_entry (sched : List Nat → List Nat) (hs : ∀ l, (sched l).Perm l) (size : Nat)
    (ds1 ds2 : List (List Dbl)) (h1 : ∀ a ∈ ds1, a.length = size) (h2 : ∀ b ∈ ds2, b.length = size) (ratio : Dbl)
    (hr : ratio = .nan ∨ ∃ x : ℝ, ratio = .num x ∧ |x| ≤ 1) :
    ∃ out, findRawSp sched squaredSp ds1 ds2 ratio = .ok out ∧
      ∀ i j, (i, j) ∈ out → ∃ a b, ds1[i]? = some a ∧ ds2[j]? = some b ∧ AllNumbers a ∧ AllNumbers b := by
  obtain ⟨out, -, e, -, -, hiff, -, -⟩ := C216_raw_partial sched sched hs hs squaredSp ds1 ds2 ratio hr
  refine ⟨out, e, fun i j hm => ?_⟩
  obtain ⟨q, hq, d, hd, ⟨hj, hu, -⟩, -⟩ := (hiff i j).1 hm
  refine ⟨q, ds2[j], hq, List.getElem?_eq_getElem hj, ?_⟩
  by_contra hc
  rw [hd j hj] at hu
  exact squaredSp_lost ((h1 q (List.mem_of_getElem? hq)).trans (h2 _ (List.getElem_mem hj)).symm) hc hu

example := C216_special_entry List.reverse (fun l => l.reverse_perm) 1 [[.num 1], [.nan], [.num 9]]
  [[.pinf], [.num 2], [.num 9], [.num 9]] (by simp) (by simp) (.num (1 / 2))
  (.inr ⟨_, rfl, by rw [abs_of_pos] <;> norm_num⟩)

/-- `find_robust_matches`, whatever the distances are: exactly the pairs that match in both directions, and no
descriptor occurs in two pairs. Missing: ratios above one, see `C216_ratio_violation`. -/
theorem C216_robust_partial (sched1 sched2 : List Nat → List Nat) (hs1 : ∀ l, (sched1 l).Perm l)
    (hs2 : ∀ l, (sched2 l).Perm l) (dist : D → D → Dbl) (ds1 ds2 : List D) (ratio : Dbl)
    (hr : ratio = .nan ∨ ∃ x : ℝ, ratio = .num x ∧ |x| ≤ 1) :
    ∃ out, findRobustSp sched1 sched2 dist ds1 ds2 ratio = .ok out ∧
      (∀ i j, (i, j) ∈ out ↔ RawMatchSp dist ratio ds1 ds2 i j ∧ RawMatchSp dist ratio ds2 ds1 j i) ∧
      (out.map Prod.fst).Nodup ∧ (out.map Prod.snd).Nodup := by
  obtain ⟨m12, -, e1, -, -, i1, n1, -⟩ := C216_raw_partial sched1 sched1 hs1 hs1 dist ds1 ds2 ratio hr
  obtain ⟨m21, -, e2, -, -, i2, n2, -⟩ := C216_raw_partial sched2 sched2 hs2 hs2 dist ds2 ds1 ratio hr
  have hany : ∀ m : Nat × Nat, (m21.any fun k => m.1 == k.2 && m.2 == k.1) = true ↔ (m.2, m.1) ∈ m21 := by
    intro m
    rw [List.any_eq_true]
    constructor
    · rintro ⟨⟨a, b⟩, hk, h⟩
      simp only [Bool.and_eq_true, beq_iff_eq] at h
      rw [h.1, h.2]
      exact hk
    · intro h
      exact ⟨_, h, by simp⟩
  have hsnd : ∀ m m', m ∈ m12 → m' ∈ m12 → (m.2, m.1) ∈ m21 → (m'.2, m'.1) ∈ m21 → m.2 = m'.2 → m = m' := by
    intro m m' _ _ h h' e
    have := List.inj_on_of_nodup_map n2 h h' e
    exact Prod.ext (Prod.mk.inj this).2 e
  unfold findRobustSp
  rw [e1, e2]
  simp only [Res.ok_bind]
  rw [Match.loop_collectL _ (fun m => if m21.any fun k => m.1 == k.2 && m.2 == k.1 then [m] else [])
    m12 (by intro m _ out; split_ifs <;> simp)]
  have hf : (m12.flatMap fun m => if m21.any fun k => m.1 == k.2 && m.2 == k.1 then [m] else []) =
      m12.filter fun m => m21.any fun k => m.1 == k.2 && m.2 == k.1 := by
    clear n1 i1 e1 hsnd
    induction m12 with
    | nil => rfl
    | cons m l ih =>
      rw [List.flatMap_cons, ih, List.filter_cons]
      split_ifs <;> rfl
  rw [hf, List.nil_append]
  refine ⟨_, rfl, ?_, n1.sublist (List.filter_sublist.map _), ?_⟩
  · intro i j
    rw [List.mem_filter, hany, i1, i2]
  · refine List.Nodup.map_on ?_ (List.Nodup.of_map _ (n1.sublist (List.filter_sublist.map _)))
    intro m hm m' hm' e
    rw [List.mem_filter, hany] at hm hm'
    exact hsnd m m' hm.1 hm'.1 hm.2 hm'.2 e

example := C216_robust_partial List.reverse id (fun l => l.reverse_perm) (fun _ => .refl _) squaredSp
  [[.num 1], [.nan], [.num 9]] [[.pinf], [.num 2], [.num 9], [.num 9]] (.num (1 / 2))
  (.inr ⟨_, rfl, by rw [abs_of_pos] <;> norm_num⟩)

/-- With a ratio of at least two, descriptors without any usable distance are all matched with the index `size_t(-1)`,
which is no index of the second list. -/
theorem C216_ratio_violation (dist : D → D → Dbl) (ds1 ds2 : List D) (h2 : ds2 ≠ [])
    (hd : ∀ a ∈ ds1, ∀ b ∈ ds2, ¬ Usable (dist a b)) (x : ℝ) (hx : 2 ≤ x) (hx' : x ≤ 2 ^ 400) :
    findRawSp id dist ds1 ds2 (.num x) = .ok ((List.range ds1.length).map fun i => (i, 2 ^ 64 - 1)) := by
  have hpass : dblMax.lt (((Dbl.num x).mul (.num x)).mul dblMax) := by
    have i1 : Is 400 (.num x) x := ⟨rfl, by rw [abs_of_nonneg (by linarith)]; exact hx'⟩
    have i2 := is_mul i1 i1 (by norm_num)
    have h4 : 4 ≤ dbl (x * x) := by
      have := dbl_mono (show ((4 : Nat) : ℝ) ≤ x * x by push_cast; nlinarith)
      rw [dbl_nat (by norm_num)] at this
      exact_mod_cast this
    rw [i2.1]
    have hbig : (2 : ℝ) ^ 1024 ≤ dbl (dbl (x * x) * (2 ^ 1024 - 2 ^ 971)) := by
      have hK : (2 : ℝ) ^ 1024 = 2 ^ 971 * 2 ^ 53 := by rw [← pow_add]
      have hr : dbl ((2 : ℝ) ^ 1024) = 2 ^ 1024 :=
        dbl_of_rep ⟨1, 1024, by norm_num, by rw [Int.cast_one, one_mul]; exact (zpow_natCast 2 1024).symm⟩
      have : (2 : ℝ) ^ 1024 ≤ dbl (x * x) * (2 ^ 1024 - 2 ^ 971) := by
        rw [hK]
        have : (0 : ℝ) < 2 ^ 971 := by positivity
        clear hr hK hx' i1 i2
        generalize (2 : ℝ) ^ 971 = K at *
        nlinarith
      have := dbl_mono this
      rwa [hr] at this
    unfold dblMax
    simp only [Dbl.mul, Dbl.rnd]
    rw [if_pos hbig]
    exact trivial
  have hnear : ∀ q ∈ ds1, nearestSp dist q ds2 = .ok (dblMax, dblMax, 2 ^ 64 - 1) := by
    intro q hq
    obtain ⟨s, e, hinv⟩ := nearestSp_inv dist q ds2 (fun k => if hk : k < ds2.length then dist q ds2[k] else .nan)
      (by intro k hk; simp only [hk, dif_pos])
    rcases hinv with ⟨rfl, -⟩ | ⟨⟨hj, hu, -⟩, -⟩
    · exact e
    · simp only [hj, dif_pos] at hu
      exact absurd hu (hd q hq _ (List.getElem_mem hj))
  unfold findRawSp
  by_cases h1 : ds1 = []
  · rw [if_pos (.inl h1), h1]; rfl
  · rw [if_neg (by simp [h1, h2]), Match.loop_collectL _ (fun i => [(i, 2 ^ 64 - 1)])]
    · simp [List.map_eq_flatMap]
    · intro i hi out
      have hi := List.mem_range.1 hi
      rw [vget_eq_ok hi]
      simp only [Res.ok_bind, hnear _ (List.getElem_mem hi)]
      rw [if_pos hpass]

example : findRawSp id squaredSp [[.nan], [.nan]] [[.num 0]] (.num 2) = .ok [(0, 2 ^ 64 - 1), (1, 2 ^ 64 - 1)] :=
  C216_ratio_violation squaredSp [[.nan], [.nan]] [[.num 0]] (by simp) (by
    intro a ha b hb
    refine squaredSp_lost (by simp at ha hb; rw [ha, hb]; rfl) (fun h => ?_)
    simp at ha
    rw [ha] at h
    obtain ⟨x, hx⟩ := h.1 .nan (by simp)
    cases hx) 2 le_rfl (by
      calc (2 : ℝ) = 2 ^ 1 := (pow_one 2).symm
        _ ≤ 2 ^ 400 := pow_le_pow_right₀ (by norm_num) (by norm_num))

end TinyDIP.Props
