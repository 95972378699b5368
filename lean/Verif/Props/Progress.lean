import Verif.Model.Progress
import Mathlib.Data.List.Basic
import Mathlib.Data.List.Induction
import Mathlib.Tactic.Push
import Mathlib.Data.Rat.Defs
import Mathlib.Algebra.Order.Field.Rat
import Mathlib.Algebra.Order.Field.Basic
import Mathlib.Tactic.Linarith
import Mathlib.Tactic.Ring
import Mathlib.Tactic.FieldSimp

/-!
# C177: progress reports

The specification is in the statements: `max 1 (total / 100)` is the step promised by the code, a report is a
number of finished pixels out of `total`, and the value handed to the callback is that number over `total`.
-/

namespace TinyDIP.Props

open TinyDIP.Progress

/-! ### One pixel after the other -/

theorem reportStep_pos (total : Nat) : 0 < reportStep total := by
  unfold reportStep; omega

/-- After `n + 1` pixels: the reports are `1, 1 + s, …` up to `n + 1`. -/
theorem seqRun_inv (total n : Nat) :
    let s := reportStep total
    (Seq.run total (n + 1)).processed = n + 1 ∧
    (Seq.run total (n + 1)).next = 1 + (n / s + 1) * s ∧
    (Seq.run total (n + 1)).reports = (List.range (n / s + 1)).map (fun k => 1 + k * s) := by
  intro s
  have hs : 0 < s := reportStep_pos total
  induction n with
  | zero =>
    refine ⟨by simp [Seq.run, Seq.pixel], ?_, ?_⟩
    · simp [Seq.run, Seq.pixel, s]
    · simp [Seq.run, Seq.pixel, s]
  | succ n ih =>
    obtain ⟨hp, hn, hr⟩ := ih
    have hdiv : (n + 1) / s = n / s + if s ∣ n + 1 then 1 else 0 := Nat.succ_div
    by_cases hd : s ∣ n + 1
    · have hge : (Seq.run total (n + 1)).processed + 1 ≥ (Seq.run total (n + 1)).next := by
        rw [hp, hn]
        obtain ⟨k, hk⟩ := hd
        have : (n + 1) / s = k := by rw [hk]; exact Nat.mul_div_cancel_left k hs
        rw [hdiv, if_pos ⟨k, hk⟩] at this
        rw [this, Nat.mul_comm]; omega
      have heq : n + 1 = (n / s + 1) * s := by
        obtain ⟨k, hk⟩ := hd
        have : (n + 1) / s = k := by rw [hk]; exact Nat.mul_div_cancel_left k hs
        rw [hdiv, if_pos ⟨k, hk⟩] at this
        rw [this, Nat.mul_comm]; exact hk
      rw [if_pos hd] at hdiv
      have hrun : Seq.run total (n + 1 + 1) =
          { processed := n + 2, next := n + 2 + s, reports := (Seq.run total (n + 1)).reports ++ [n + 2] } := by
        show (Seq.run total (n + 1)).pixel total = _
        unfold Seq.pixel
        dsimp only
        rw [if_pos hge, hp]
      rw [hrun]
      refine ⟨rfl, ?_, ?_⟩
      · show n + 2 + s = _
        rw [hdiv]
        have : (n / s + 1 + 1) * s = (n / s + 1) * s + s := by ring
        omega
      · show (Seq.run total (n + 1)).reports ++ [n + 2] = _
        rw [hdiv, hr, List.range_succ (n := n / s + 1), List.map_append, List.map_cons, List.map_nil, ← heq]
        congr 2
        omega
    · have hlt : ¬ (Seq.run total (n + 1)).processed + 1 ≥ (Seq.run total (n + 1)).next := by
        rw [hp, hn]
        have h1 : n < (n / s + 1) * s := by
          have := Nat.lt_div_mul_add hs (a := n)
          have e : (n / s + 1) * s = n / s * s + s := by ring
          omega
        have h2 : n + 1 ≠ (n / s + 1) * s := fun h => hd ⟨_, by rw [h, Nat.mul_comm]⟩
        omega
      rw [if_neg hd, Nat.add_zero] at hdiv
      have hrun : Seq.run total (n + 1 + 1) =
          { Seq.run total (n + 1) with processed := n + 2 } := by
        show (Seq.run total (n + 1)).pixel total = _
        unfold Seq.pixel
        dsimp only
        rw [if_neg hlt, hp]
      rw [hrun, hdiv]
      exact ⟨rfl, hn, hr⟩

/-- Progress reports of a run that processes the pixels one after the other: exactly the first pixel and
then every `max 1 (total / 100)`-th one, in increasing order. -/
theorem C177_sequential (total : Nat) :
    (Seq.run total total).reports.Pairwise (· < ·) ∧
    ∀ c, c ∈ (Seq.run total total).reports ↔ 1 ≤ c ∧ c ≤ total ∧ max 1 (total / 100) ∣ c - 1 := by
  cases total with
  | zero =>
    refine ⟨List.Pairwise.nil, fun c => ⟨fun h => absurd h (by simp [Seq.run]), fun h => by omega⟩⟩
  | succ n =>
    obtain ⟨-, -, hr⟩ := seqRun_inv (n + 1) n
    have hs := reportStep_pos (n + 1)
    change _ ∧ ∀ c, c ∈ _ ↔ 1 ≤ c ∧ c ≤ n + 1 ∧ reportStep (n + 1) ∣ c - 1
    generalize reportStep (n + 1) = s at hr hs
    rw [hr]
    constructor
    · rw [List.pairwise_map]
      refine List.pairwise_lt_range.imp ?_
      intro a b hab
      have := Nat.mul_lt_mul_of_pos_right hab hs
      omega
    · intro c
      rw [List.mem_map]
      constructor
      · rintro ⟨k, hk, rfl⟩
        rw [List.mem_range] at hk
        have h1 : k * s ≤ n / s * s := Nat.mul_le_mul_right s (by omega)
        have h2 := Nat.div_mul_le_self n s
        exact ⟨by omega, by omega, ⟨k, by rw [Nat.add_sub_cancel_left, Nat.mul_comm]⟩⟩
      · rintro ⟨h1, h2, k, hk⟩
        refine ⟨k, ?_, by rw [Nat.mul_comm, ← hk]; omega⟩
        rw [List.mem_range, Nat.lt_succ_iff, Nat.le_div_iff_mul_le hs, Nat.mul_comm, ← hk]
        omega

/-- Completion is not always reported: with 250 pixels processed one after the other the last report is for
pixel 249, so the callback never gets 1. -/
theorem C177_complete_violation :
    (Seq.run 250 250).reports.getLast? = some 249 ∧ 250 ∉ (Seq.run 250 250).reports := by
  decide +kernel

/-! ### Any schedule -/

/-- What holds in every state of a parallel run. -/
structure Inv (total : Nat) (s : Conf) : Prop where
  len : s.tasks.length = total
  count : s.tasks.count .before + s.processed = total
  gap : s.reports.Pairwise (fun a b => a + reportStep total ≤ b)
  pos : ∀ c ∈ s.reports, 1 ≤ c ∧ c ≤ s.processed
  next0 : s.reports = [] → s.next = 0
  nextLe : ∀ c ∈ s.reports, c + reportStep total ≤ s.next
  nextEx : s.next = 0 ∨ ∃ r ∈ s.reports, s.next = r + reportStep total
  stored : ∀ v ∈ s.stored, v = 0 ∨ ∃ r ∈ s.reports, v = r + reportStep total
  stored0 : s.stored ≠ []
  live : ∀ c, (Task.counted c ∈ s.tasks ∨ Task.passed c ∈ s.tasks) → 1 ≤ c ∧ c ≤ s.processed
  cover : ∀ c, 1 ≤ c → c ≤ s.processed →
    Task.counted c ∈ s.tasks ∨ Task.passed c ∈ s.tasks ∨ ∃ r ∈ s.reports, c < r + reportStep total

theorem mem_set_of {l : List Task} {i : Nat} {t u x : Task} (h : l[i]? = some t) (hx : x ∈ l.set i u) :
    x ∈ l ∨ x = u := by
  rcases List.mem_or_eq_of_mem_set hx with h | h
  · exact .inl h
  · exact .inr h

theorem mem_set_keep {l : List Task} {i : Nat} {t u x : Task} (h : l[i]? = some t) (hne : x ≠ t)
    (hx : x ∈ l) : x ∈ l.set i u := by
  obtain ⟨j, hj, rfl⟩ := List.getElem_of_mem hx
  have hij : i ≠ j := by
    rintro rfl
    rw [List.getElem?_eq_getElem hj] at h
    exact hne (Option.some.inj h)
  rw [List.mem_iff_getElem]
  exact ⟨j, by simpa using hj, by rw [List.getElem_set_ne hij]⟩

theorem mem_of_some {l : List Task} {i : Nat} {t : Task} (h : l[i]? = some t) : t ∈ l :=
  List.mem_of_getElem? h

theorem set_mem {l : List Task} {i : Nat} {t : Task} (u : Task) (h : l[i]? = some t) : u ∈ l.set i u := by
  obtain ⟨hi, -⟩ := List.getElem?_eq_some_iff.1 h
  exact List.mem_set hi u

theorem count_set_before {l : List Task} {i : Nat} {u : Task} (h : l[i]? = some .before)
    (hu : u ≠ .before) : (l.set i u).count .before + 1 = l.count .before := by
  obtain ⟨hi, hl⟩ := List.getElem?_eq_some_iff.1 h
  rw [List.count_set hi]
  have : 0 < l.count .before := List.count_pos_iff.2 (mem_of_some h)
  simp [hl, hu]
  omega

theorem count_set_other {l : List Task} {i : Nat} {t u : Task} (h : l[i]? = some t) (ht : t ≠ .before)
    (hu : u ≠ .before) : (l.set i u).count .before = l.count .before := by
  obtain ⟨hi, hl⟩ := List.getElem?_eq_some_iff.1 h
  rw [List.count_set hi]
  simp [hl, hu, ht]

theorem inv_init (total : Nat) : Inv total (Conf.init total) := by
  refine ⟨by simp [Conf.init], by simp [Conf.init], List.Pairwise.nil, ?_, fun _ => rfl, ?_, .inl rfl, ?_, ?_, ?_,
    ?_⟩
  · intro c hc; simp [Conf.init] at hc
  · intro c hc; simp [Conf.init] at hc
  · intro v hv; left; simpa [Conf.init] using hv
  · simp [Conf.init]
  · intro c hc
    simp [Conf.init, List.mem_replicate] at hc
  · intro c h1 h2
    have : c ≤ 0 := h2
    omega

theorem inv_step {total : Nat} {s t : Conf} (h : Step total s t) (I : Inv total s) : Inv total t := by
  have hs := reportStep_pos total
  cases h with
  | count i h =>
    refine ⟨by simpa using I.len, ?_, I.gap, ?_, I.next0, I.nextLe, I.nextEx, I.stored, I.stored0, ?_, ?_⟩
    · have := count_set_before (u := .counted (s.processed + 1)) h (by simp)
      have := I.count
      simp only
      omega
    · intro c hc
      have := I.pos c hc
      exact ⟨this.1, Nat.le_succ_of_le this.2⟩
    · intro c hc
      rcases hc with hc | hc
      · rcases mem_set_of h hc with hc | hc
        · have := I.live c (.inl hc); exact ⟨this.1, Nat.le_succ_of_le this.2⟩
        · injection hc with hc; subst hc; exact ⟨by omega, le_refl _⟩
      · rcases mem_set_of h hc with hc | hc
        · have := I.live c (.inr hc); exact ⟨this.1, Nat.le_succ_of_le this.2⟩
        · simp at hc
    · intro c h1 h2
      have h2 : c ≤ s.processed + 1 := h2
      by_cases hc : c = s.processed + 1
      · subst hc; exact .inl (set_mem _ h)
      · rcases I.cover c h1 (by omega) with hc | hc | hc
        · exact .inl (mem_set_keep h (by simp) hc)
        · exact .inr (.inl (mem_set_keep h (by simp) hc))
        · exact .inr (.inr hc)
  | skip i c v h hv hc =>
    refine ⟨by simpa using I.len, ?_, I.gap, I.pos, I.next0, I.nextLe, I.nextEx, I.stored, I.stored0, ?_, ?_⟩
    · have := count_set_other (u := .finished) h (by simp) (by simp)
      have := I.count
      simp only
      omega
    · intro d hd
      refine I.live d ?_
      rcases hd with hd | hd
      · exact .inl ((mem_set_of h hd).resolve_right (by simp))
      · exact .inr ((mem_set_of h hd).resolve_right (by simp))
    · intro d h1 h2
      rcases I.cover d h1 h2 with hd | hd | hd
      · by_cases hdc : d = c
        · subst hdc
          rcases I.stored v hv with h0 | ⟨r, hr, he⟩
          · omega
          · exact .inr (.inr ⟨r, hr, by omega⟩)
        · exact .inl (mem_set_keep h (by simpa using hdc) hd)
      · exact .inr (.inl (mem_set_keep h (by simp) hd))
      · exact .inr (.inr hd)
  | pass i c v h hv hc =>
    refine ⟨by simpa using I.len, ?_, I.gap, I.pos, I.next0, I.nextLe, I.nextEx, I.stored, I.stored0, ?_, ?_⟩
    · have := count_set_other (u := .passed c) h (by simp) (by simp)
      have := I.count
      simp only
      omega
    · intro d hd
      rcases hd with hd | hd
      · exact I.live d (.inl ((mem_set_of h hd).resolve_right (by simp)))
      · rcases mem_set_of h hd with hd | hd
        · exact I.live d (.inr hd)
        · injection hd with hd; subst hd; exact I.live d (.inl (mem_of_some h))
    · intro d h1 h2
      rcases I.cover d h1 h2 with hd | hd | hd
      · by_cases hdc : d = c
        · subst hdc; exact .inr (.inl (set_mem _ h))
        · exact .inl (mem_set_keep h (by simpa using hdc) hd)
      · exact .inr (.inl (mem_set_keep h (by simp) hd))
      · exact .inr (.inr hd)
  | report i c h hc =>
    have hl := I.live c (.inr (mem_of_some h))
    refine ⟨by simpa using I.len, ?_, ?_, ?_, ?_, ?_, ?_, ?_, by simp, ?_, ?_⟩
    · have := count_set_other (u := .finished) h (by simp) (by simp)
      have := I.count
      simp only
      omega
    · show (s.reports ++ [c]).Pairwise _
      rw [List.pairwise_append]
      refine ⟨I.gap, List.pairwise_singleton _ _, ?_⟩
      intro a ha b hb
      rw [List.mem_singleton] at hb
      subst hb
      exact le_trans (I.nextLe a ha) hc
    · intro d hd
      rcases List.mem_append.1 hd with hd | hd
      · exact I.pos d hd
      · rw [List.mem_singleton] at hd; subst hd; exact hl
    · intro h0
      exact absurd h0 (by simp)
    · intro d hd
      rcases List.mem_append.1 hd with hd | hd
      · have := I.nextLe d hd
        show d + _ ≤ c + _
        omega
      · rw [List.mem_singleton] at hd; subst hd; exact le_refl _
    · exact .inr ⟨c, by simp, rfl⟩
    · intro v hv
      rcases List.mem_cons.1 hv with hv | hv
      · exact .inr ⟨c, by simp, hv⟩
      · rcases I.stored v hv with h0 | ⟨r, hr, he⟩
        · exact .inl h0
        · exact .inr ⟨r, by simp [hr], he⟩
    · intro d hd
      refine I.live d ?_
      rcases hd with hd | hd
      · exact .inl ((mem_set_of h hd).resolve_right (by simp))
      · exact .inr ((mem_set_of h hd).resolve_right (by simp))
    · intro d h1 h2
      rcases I.cover d h1 h2 with hd | hd | ⟨r, hr, hd⟩
      · exact .inl (mem_set_keep h (by simp) hd)
      · by_cases hdc : d = c
        · subst hdc; exact .inr (.inr ⟨d, by simp, by omega⟩)
        · exact .inr (.inl (mem_set_keep h (by simpa using hdc) hd))
      · exact .inr (.inr ⟨r, by simp [hr], hd⟩)
  | quiet i c h hc =>
    refine ⟨by simpa using I.len, ?_, I.gap, I.pos, I.next0, I.nextLe, I.nextEx, I.stored, I.stored0, ?_, ?_⟩
    · have := count_set_other (u := .finished) h (by simp) (by simp)
      have := I.count
      simp only
      omega
    · intro d hd
      refine I.live d ?_
      rcases hd with hd | hd
      · exact .inl ((mem_set_of h hd).resolve_right (by simp))
      · exact .inr ((mem_set_of h hd).resolve_right (by simp))
    · intro d h1 h2
      rcases I.cover d h1 h2 with hd | hd | hd
      · exact .inl (mem_set_keep h (by simp) hd)
      · by_cases hdc : d = c
        · subst hdc
          rcases I.nextEx with h0 | ⟨r, hr, he⟩
          · omega
          · exact .inr (.inr ⟨r, hr, by omega⟩)
        · exact .inr (.inl (mem_set_keep h (by simpa using hdc) hd))
      · exact .inr (.inr hd)

theorem inv_reachable {total : Nat} {s : Conf} (h : Reachable total s) : Inv total s := by
  induction h with
  | refl => exact inv_init total
  | tail _ hst ih => exact inv_step hst ih

theorem gap_bound {g : Nat} : ∀ {l : List Nat} {m : Nat}, l.Pairwise (fun a b => a + g ≤ b) →
    (∀ c ∈ l, 1 ≤ c ∧ c ≤ m) → l ≠ [] → (l.length - 1) * g + 1 ≤ m := by
  intro l
  induction l using List.reverseRecOn with
  | nil => intro m _ _; simp
  | append_singleton l a ih =>
    intro m hp hb
    rw [List.pairwise_append] at hp
    obtain ⟨h1, -, h3⟩ := hp
    have ha := hb a (by simp)
    by_cases hl : l = []
    · subst hl; simp; omega
    have hag : g ≤ a := by
      obtain ⟨b, hbm⟩ := List.exists_mem_of_ne_nil l hl
      have := h3 b hbm a (by simp)
      omega
    have key := (ih (m := a - g) h1 (fun c hc => ⟨(hb c (by simp [hc])).1, by
      have := h3 c hc a (by simp); omega⟩)) hl
    have hlen : l.length ≠ 0 := by simpa using hl
    obtain ⟨k, hk⟩ : ∃ k, l.length = k + 1 := ⟨l.length - 1, by omega⟩
    rw [hk] at key
    have e : (k + 1) * g = k * g + g := by ring
    have e2 : (k + 1 + 1) * g = k * g + g + g := by ring
    simp only [List.length_append, List.length_cons, List.length_nil, hk, Nat.add_sub_cancel, Nat.zero_add] at key ⊢
    intro _
    have e3 : (k + 1 + 1 - 1) * g = k * g + g := by rw [Nat.add_sub_cancel]; exact e
    omega

/-- Progress reports under every schedule: the values given to the callback are above 0, at most 1 and
strictly increasing, two consecutive ones are at least `max 1 (total / 100)` pixels apart, and there are at
most 199 of them. -/
theorem C177_every_schedule (total : Nat) (s : Conf) (h : Reachable total s) :
    (s.reports.map fun (c : Nat) => (c : ℚ) / total).Pairwise (· < ·) ∧
    (∀ v ∈ s.reports.map (fun (c : Nat) => (c : ℚ) / total), 0 < v ∧ v ≤ 1) ∧
    s.reports.Pairwise (fun a b => a + max 1 (total / 100) ≤ b) ∧
    s.reports.length ≤ 199 := by
  have I := inv_reachable h
  have hs := reportStep_pos total
  have hle : s.processed ≤ total := by have := I.count; omega
  refine ⟨?_, ?_, I.gap, ?_⟩
  · rw [List.pairwise_map]
    rcases Nat.eq_zero_or_pos total with h0 | h0
    · have : s.reports = [] := by
        rw [List.eq_nil_iff_forall_not_mem]
        intro c hc
        have := I.pos c hc
        omega
      rw [this]; exact List.Pairwise.nil
    · refine I.gap.imp ?_
      intro a b hab
      have hlt : (a : ℚ) < b := by exact_mod_cast (by omega : a < b)
      exact (div_lt_div_iff_of_pos_right (by exact_mod_cast h0)).2 hlt
  · intro v hv
    obtain ⟨c, hc, rfl⟩ := List.mem_map.1 hv
    have hp := I.pos c hc
    have h1 : (0 : ℚ) < c := by exact_mod_cast hp.1
    have h2 : (c : ℚ) ≤ total := by exact_mod_cast (le_trans hp.2 hle)
    have h3 : (0 : ℚ) < total := lt_of_lt_of_le h1 h2
    exact ⟨div_pos h1 h3, (div_le_one h3).2 h2⟩
  · by_cases hn : s.reports = []
    · simp [hn]
    have hb := (gap_bound I.gap (fun c hc => ⟨(I.pos c hc).1, le_trans (I.pos c hc).2 hle⟩)) hn
    by_contra hcon
    have h199 : 199 ≤ s.reports.length - 1 := by omega
    have : 199 * reportStep total ≤ (s.reports.length - 1) * reportStep total := Nat.mul_le_mul_right _ h199
    unfold reportStep at *
    omega

/-- When all pixels are finished, under every schedule, the last report is less than one step before the end:
some report `r` has `total < r + max 1 (total / 100)`. -/
theorem C177_finished (total : Nat) (s : Conf) (h : Reachable total s)
    (hdone : ∀ t ∈ s.tasks, t = .finished) (h0 : 0 < total) :
    ∃ r, s.reports.getLast? = some r ∧ total < r + max 1 (total / 100) ∧ (99 / 100 : ℚ) < (r : ℚ) / total := by
  have I := inv_reachable h
  have hs := reportStep_pos total
  have hb : s.tasks.count .before = 0 := by
    rw [List.count_eq_zero]
    intro hm
    have := hdone _ hm
    simp at this
  have hp : s.processed = total := by have := I.count; omega
  have hex : ∃ r ∈ s.reports, total < r + reportStep total := by
    rcases I.cover total h0 (by omega) with hc | hc | hc
    · have := hdone _ hc; simp at this
    · have := hdone _ hc; simp at this
    · exact hc
  obtain ⟨q, hq, hlt⟩ := hex
  have hne : s.reports ≠ [] := List.ne_nil_of_mem hq
  refine ⟨s.reports.getLast hne, List.getLast?_eq_some_getLast hne, ?_⟩
  have hqr : q ≤ s.reports.getLast hne := by
    have hp := I.gap
    rw [← List.dropLast_append_getLast hne, List.pairwise_append] at hp
    rw [← List.dropLast_append_getLast hne] at hq
    rcases List.mem_append.1 hq with hq | hq
    · have := hp.2.2 q hq _ (List.mem_singleton.2 rfl)
      omega
    · rw [List.mem_singleton] at hq; omega
  generalize s.reports.getLast hne = r at hqr
  have hr : total < r + reportStep total := by omega
  refine ⟨hr, ?_⟩
  have ht : (0 : ℚ) < total := by exact_mod_cast h0
  rw [lt_div_iff₀ ht]
  have hnat : 99 * total < 100 * r := by unfold reportStep at hr; omega
  have : (99 * total : ℚ) < 100 * r := by exact_mod_cast hnat
  linarith

/-- With fewer than 200 pixels completion is always reported, whatever the schedule: the last value the callback gets
is 1. Missing: larger pictures, see `C177_complete_violation`. -/
theorem C177_complete_partial (total : Nat) (s : Conf) (h : Reachable total s)
    (hdone : ∀ t ∈ s.tasks, t = .finished) (h0 : 0 < total) (h200 : total < 200) :
    s.reports.getLast? = some total := by
  obtain ⟨r, hr, hlt, -⟩ := C177_finished total s h hdone h0
  have I := inv_reachable h
  have := I.pos r (List.mem_of_getLast? hr)
  have := I.count
  rw [hr]
  congr 1
  omega

/-- How many steps the task of a pixel can still take. -/
def taskLeft : Task → Nat
  | .before => 3
  | .counted _ => 2
  | .passed _ => 1
  | .finished => 0

theorem sum_set_lt {l : List Task} {i : Nat} {t u : Task} (h : l[i]? = some t) (hlt : taskLeft u < taskLeft t) :
    ((l.set i u).map taskLeft).sum < (l.map taskLeft).sum := by
  induction l generalizing i with
  | nil => simp at h
  | cons a l ih =>
    cases i with
    | zero =>
      simp at h; subst h
      simp only [List.set_cons_zero, List.map_cons, List.sum_cons]
      omega
    | succ i =>
      have := ih (i := i) (by simpa using h)
      simp only [List.set_cons_succ, List.map_cons, List.sum_cons]
      omega

theorem step_left {total : Nat} {s t : Conf} (h : Step total s t) :
    (t.tasks.map taskLeft).sum < (s.tasks.map taskLeft).sum := by
  cases h with
  | count i h => exact sum_set_lt h (by simp [taskLeft])
  | skip i c v h _ _ => exact sum_set_lt h (by simp [taskLeft])
  | pass i c v h _ _ => exact sum_set_lt h (by simp [taskLeft])
  | report i c h _ => exact sum_set_lt h (by simp [taskLeft])
  | quiet i c h _ => exact sum_set_lt h (by simp [taskLeft])

/-- Reporting never blocks: whenever a pixel is unfinished some thread can go on, and a run has at most three
steps per pixel. -/
theorem C177_no_deadlock (total : Nat) :
    (∀ s, Reachable total s → (∀ t ∈ s.tasks, t = .finished) ∨ ∃ t, Step total s t) ∧
    ∀ (f : Nat → Conf) (n : Nat), f 0 = Conf.init total → (∀ k < n, Step total (f k) (f (k + 1))) →
      n ≤ 3 * total := by
  constructor
  · intro s h
    have I := inv_reachable h
    by_cases hd : ∀ t ∈ s.tasks, t = .finished
    · exact .inl hd
    · right
      push Not at hd
      obtain ⟨t, ht, hne⟩ := hd
      obtain ⟨i, hi⟩ := List.mem_iff_getElem?.1 ht
      cases t with
      | before => exact ⟨_, .count s i hi⟩
      | counted c =>
        obtain ⟨v, hv⟩ := List.exists_mem_of_ne_nil _ I.stored0
        by_cases hc : c ≥ v
        · exact ⟨_, .pass s i c v hi hv hc⟩
        · exact ⟨_, .skip s i c v hi hv hc⟩
      | passed c =>
        by_cases hc : c ≥ s.next
        · exact ⟨_, .report s i c hi hc⟩
        · exact ⟨_, .quiet s i c hi hc⟩
      | finished => exact absurd rfl hne
  · intro f n h0 hst
    have key : ∀ k ≤ n, ((f k).tasks.map taskLeft).sum + k ≤ 3 * total := by
      intro k
      induction k with
      | zero => intro _; rw [h0]; simp [Conf.init, taskLeft]; omega
      | succ k ih =>
        intro hk
        have h1 := ih (by omega)
        have h2 := step_left (hst k (by omega))
        omega
    have := key n (le_refl n)
    omega

/-! ### Concrete cases -/

/-- Two pixels on two threads; the second thread counts first to 1 but the first thread, with count 2, reports
first, so 1 is never reported. The state is reachable and finished. -/
example : ∃ s, Reachable 2 s ∧ (∀ t ∈ s.tasks, t = .finished) ∧ s.reports = [2] := by
  refine ⟨⟨2, 3, [3, 0], [2], [.finished, .finished]⟩, ?_, ?_, ?_⟩
  · exact .tail (.tail (.tail (.tail (.tail (.tail .refl (.count _ 1 rfl)) (.count _ 0 rfl))
      (.pass _ 0 2 0 rfl (by decide) (by decide))) (.pass _ 1 1 0 rfl (by decide) (by decide)))
      (.report _ 0 2 rfl (by decide))) (.quiet _ 1 1 rfl (by decide))
  · decide
  · rfl

example : (Seq.run 3 3).reports = [1, 2, 3] := rfl

-- The execution of the example above.
example : ∃ s, Reachable 2 s ∧ s.reports.length ≤ 199 ∧ s.reports.getLast? = some 2 := by
  have h : Reachable 2 ⟨2, 3, [3, 0], [2], [.finished, .finished]⟩ :=
    .tail (.tail (.tail (.tail (.tail (.tail .refl (.count _ 1 rfl)) (.count _ 0 rfl))
      (.pass _ 0 2 0 rfl (by decide) (by decide))) (.pass _ 1 1 0 rfl (by decide) (by decide)))
      (.report _ 0 2 rfl (by decide))) (.quiet _ 1 1 rfl (by decide))
  obtain ⟨r, -, -, -⟩ := C177_finished 2 _ h (by decide) (by decide)
  exact ⟨_, h, (C177_every_schedule 2 _ h).2.2.2, C177_complete_partial 2 _ h (by decide) (by decide) (by decide)⟩

end TinyDIP.Props
