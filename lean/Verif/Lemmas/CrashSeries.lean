import Verif.Lemmas.Crash
import Mathlib.Data.List.Forall2

/-!
# Several files written one after the other (lemmas)
-/

namespace TinyDIP.Crash

open TinyDIP TinyDIP.Cli

variable {B : Type}

theorem Reaches.append {p q : Proc B} (h : Reaches p q) (more : List (Op B)) :
    Reaches ⟨p.disk, p.stream, p.todo ++ more⟩ ⟨q.disk, q.stream, q.todo ++ more⟩ := by
  induction h with
  | refl => exact .refl
  | step _ s ih =>
    refine .step ih ?_
    cases s with
    | fopen d name todo => exact .fopen d name _
    | fwrite d name held bytes todo => exact .fwrite d name held bytes _
    | pass d name a b todo => exact .pass d name a b _
    | fclose d name held todo => exact .fclose d name held _

theorem reaches_append {d : Disk B} {name : List Char} {ops more : List (Op B)} (ht : Tail ops) {q : Proc B}
    (h : Reaches ⟨d, none, .fopen name :: ops ++ more⟩ q) :
    (∃ q0, Reaches ⟨d, none, .fopen name :: ops⟩ q0 ∧ q = ⟨q0.disk, q0.stream, q0.todo ++ more⟩) ∨
    ∃ dm, Ends d (.fopen name :: ops) dm ∧ Reaches ⟨dm, none, more⟩ q := by
  induction h with
  | refl => exact Or.inl ⟨_, .refl, rfl⟩
  | step _ s ih =>
    rcases ih with ⟨q0, h0, rfl⟩ | ⟨dm, h1, h2⟩
    · have hd := during ht h0
      cases hd with
      | start =>
        cases s
        exact Or.inl ⟨_, .step h0 (.fopen _ _ _), rfl⟩
      | «open» d' out held todo hr ht' he =>
        cases ht' with
        | close =>
          cases s with
          | pass _ _ a b => exact Or.inl ⟨_, .step h0 (.pass _ _ a b _), rfl⟩
          | fclose => exact Or.inl ⟨_, .step h0 (.fclose _ _ _ _), rfl⟩
        | write b t ht' =>
          cases s with
          | pass _ _ a b => exact Or.inl ⟨_, .step h0 (.pass _ _ a b _), rfl⟩
          | fwrite => exact Or.inl ⟨_, .step h0 (.fwrite _ _ _ _ _), rfl⟩
      | closed d' hr =>
        exact Or.inr ⟨d', ⟨_, h0, rfl, rfl⟩, .step .refl s⟩
    · exact Or.inr ⟨dm, h1, .step h2 s⟩

theorem replaced_unique {d d1 d2 : Disk B} {name : List Char} {b : List B} (h1 : Replaced d name b d1)
    (h2 : Replaced d name b d2) : d1 = d2 :=
  disk_ext h1.1 h2.1 (h1.2.trans h2.2.symm)

theorem canLeave_append {d dm : Disk B} {name : List Char} {ops more : List (Op B)} (ht : Tail ops)
    (hm : Replaced d name (rest ops) dm) (d' : Disk B) :
    CanLeave d (.fopen name :: ops ++ more) d' ↔ Torn d name (rest ops) d' ∨ CanLeave dm more d' := by
  constructor
  · rintro ⟨q, hq, rfl⟩
    rcases reaches_append ht hq with ⟨q0, h0, rfl⟩ | ⟨dm', h1, h2⟩
    · exact Or.inl ((canLeave_iff ht _).1 ⟨q0, h0, rfl⟩)
    · rw [replaced_unique ((ends_iff ht _).1 h1) hm] at h2
      exact Or.inr ⟨q, h2, rfl⟩
  · rintro (h | ⟨q, h1, h2⟩)
    · obtain ⟨q, h1, h2⟩ := (canLeave_iff ht _).2 h
      exact ⟨_, h1.append more, h2⟩
    · obtain ⟨q0, h3, h4, h5⟩ := (ends_iff ht _).2 hm
      have hd := during ht h3
      have := h3.append more
      cases hd with
      | start => simp at h4
      | «open» d' out held todo hr ht' he => simp only at h4; subst h4; cases ht'
      | closed d' hr =>
        simp only at h5
        subst h5
        exact ⟨q, this.trans h1, h2⟩

theorem ends_append {d dm : Disk B} {name : List Char} {ops more : List (Op B)} (ht : Tail ops)
    (hm : Replaced d name (rest ops) dm) (d' : Disk B) :
    Ends d (.fopen name :: ops ++ more) d' ↔ Ends dm more d' := by
  constructor
  · rintro ⟨q, hq, ht0, rfl⟩
    rcases reaches_append ht hq with ⟨q0, h0, rfl⟩ | ⟨dm', h1, h2⟩
    · simp only [List.append_eq_nil_iff] at ht0
      obtain ⟨h1, rfl⟩ := ht0
      have := (ends_iff ht _).1 ⟨q0, h0, h1, rfl⟩
      rw [replaced_unique this hm]
      exact ⟨_, .refl, rfl, rfl⟩
    · rw [replaced_unique ((ends_iff ht _).1 h1) hm] at h2
      exact ⟨q, h2, ht0, rfl⟩
  · rintro ⟨q, h1, h2, h6⟩
    obtain ⟨q0, h3, h4, h5⟩ := (ends_iff ht _).2 hm
    have hd := during ht h3
    have := h3.append more
    cases hd with
    | start => simp at h4
    | «open» d' out held todo hr ht' he => simp only at h4; subst h4; cases ht'
    | closed d' hr =>
      simp only at h5
      subst h5
      exact ⟨q, this.trans h1, h2, h6⟩

/-- The calls of a series of writers. -/
inductive Series : List (List Char × List B) → List (Op B) → Prop
  | nil : Series [] []
  | cons (name : List Char) (ops more : List (Op B)) (jobs : List (List Char × List B)) : Tail ops →
      Series jobs more → Series ((name, rest ops) :: jobs) (.fopen name :: ops ++ more)

/-- The disk after one file was replaced. -/
def put (d : Disk B) (name : List Char) (b : List B) : Disk B := fun n => if n = name then some b else d n

theorem put_replaced (d : Disk B) (name : List Char) (b : List B) : Replaced d name b (put d name b) :=
  ⟨fun n hn => if_neg hn, if_pos rfl⟩

theorem series_iff {jobs : List (List Char × List B)} {ops : List (Op B)} (h : Series jobs ops)
    (hnd : (jobs.map Prod.fst).Nodup) (d d' : Disk B) : CanLeave d ops d' ↔ TornSeries d jobs d' := by
  induction h generalizing d with
  | nil =>
    constructor
    · rintro ⟨q, hq, rfl⟩
      have : q = ⟨d, none, []⟩ := by
        induction hq with
        | refl => rfl
        | step _ st ih => subst ih; cases st
      rw [this]
      exact ⟨fun _ _ => rfl, [], [], [], rfl, by simp, by simp, by simp, by simp⟩
    · rintro ⟨h1, -⟩
      exact ⟨_, .refl, funext fun n => (h1 n (by simp)).symm⟩
  | cons name ops more jobs ht hs ih =>
    rw [List.map_cons, List.nodup_cons] at hnd
    rw [canLeave_append ht (put_replaced d name _), ih hnd.2]
    have hne : ∀ j ∈ jobs, j.1 ≠ name := fun j hj he => hnd.1 (he ▸ List.mem_map.2 ⟨j, hj, rfl⟩)
    constructor
    · rintro (⟨h1, h2⟩ | ⟨h1, whole, next, later, e, hl, h2, h3, h4⟩)
      · refine ⟨fun n hn => h1 n fun he => hn (by simp [he]), [], [(name, rest ops)], jobs, rfl, by simp, by simp, ?_, ?_⟩
        · simpa using h2
        · exact fun j hj => h1 _ (hne j hj)
      · have hin : ∀ j, j ∈ whole ∨ j ∈ next ∨ j ∈ later → j ∈ jobs := by
          intro j hj
          rw [e]
          simp only [List.mem_append]
          tauto
        refine ⟨fun n hn => ?_, (name, rest ops) :: whole, next, later, by rw [e]; rfl, hl, ?_, ?_, ?_⟩
        · simp only [List.map_cons, List.mem_cons, not_or] at hn
          rw [h1 n hn.2, put, if_neg hn.1]
        · intro j hj
          rcases List.mem_cons.1 hj with rfl | hj
          · rw [h1 _ hnd.1, put, if_pos rfl]
          · exact h2 j hj
        · intro j hj
          have := h3 j hj
          rwa [put, if_neg (hne j (hin j (by simp [hj])))] at this
        · intro j hj
          rw [h4 j hj, put, if_neg (hne j (hin j (by simp [hj])))]
    · rintro ⟨h1, whole, next, later, e, hl, h2, h3, h4⟩
      cases whole with
      | nil =>
        left
        have hcase : (next = [] ∧ later = (name, rest ops) :: jobs) ∨ (next = [(name, rest ops)] ∧ later = jobs) := by
          cases next with
          | nil => exact Or.inl ⟨rfl, by simpa using e.symm⟩
          | cons a t =>
            have : t = [] := by simpa using hl
            subst this
            simp only [List.nil_append, List.cons_append, List.cons.injEq] at e
            exact Or.inr ⟨by rw [← e.1], e.2.symm⟩
        rcases hcase with ⟨rfl, rfl⟩ | ⟨rfl, rfl⟩
        · refine ⟨fun n hn => ?_, Or.inl (h4 (name, rest ops) (by simp))⟩
          by_cases hm : n ∈ jobs.map Prod.fst
          · obtain ⟨j, hj, rfl⟩ := List.mem_map.1 hm
            exact h4 j (by simp [hj])
          · exact h1 n (by simp [hn, hm])
        · refine ⟨fun n hn => ?_, h3 (name, rest ops) (by simp)⟩
          by_cases hm : n ∈ later.map Prod.fst
          · obtain ⟨j, hj, rfl⟩ := List.mem_map.1 hm
            exact h4 j hj
          · exact h1 n (by simp [hn, hm])
      | cons a whole =>
        right
        simp only [List.cons_append, List.cons.injEq] at e
        obtain ⟨rfl, e⟩ := e
        have hin : ∀ j, j ∈ whole ∨ j ∈ next ∨ j ∈ later → j ∈ jobs := by
          intro j hj
          rw [e]
          simp only [List.mem_append]
          tauto
        refine ⟨fun n hn => ?_, whole, next, later, e, hl, fun j hj => h2 j (by simp [hj]), ?_, ?_⟩
        · by_cases hn' : n = name
          · subst hn'
            rw [put, if_pos rfl]
            exact h2 (n, rest ops) (by simp)
          · rw [put, if_neg hn']
            exact h1 n (by simp [hn', hn])
        · intro j hj
          rw [put, if_neg (hne j (hin j (by simp [hj])))]
          exact h3 j hj
        · intro j hj
          rw [put, if_neg (hne j (hin j (by simp [hj])))]
          exact h4 j hj

theorem series_ends {jobs : List (List Char × List B)} {ops : List (Op B)} (h : Series jobs ops)
    (hnd : (jobs.map Prod.fst).Nodup) (d d' : Disk B) :
    Ends d ops d' ↔ (∀ n, n ∉ jobs.map Prod.fst → d' n = d n) ∧ ∀ j ∈ jobs, d' j.1 = some j.2 := by
  induction h generalizing d with
  | nil =>
    constructor
    · rintro ⟨q, hq, -, rfl⟩
      have : q = ⟨d, none, []⟩ := by
        induction hq with
        | refl => rfl
        | step _ st ih => subst ih; cases st
      rw [this]
      exact ⟨fun _ _ => rfl, by simp⟩
    · rintro ⟨h1, -⟩
      exact ⟨_, .refl, rfl, funext fun n => (h1 n (by simp)).symm⟩
  | cons name ops more jobs ht hs ih =>
    rw [List.map_cons, List.nodup_cons] at hnd
    rw [ends_append ht (put_replaced d name _), ih hnd.2]
    constructor
    · rintro ⟨h1, h2⟩
      refine ⟨fun n hn => ?_, fun j hj => ?_⟩
      · simp only [List.map_cons, List.mem_cons, not_or] at hn
        rw [h1 n hn.2, put, if_neg hn.1]
      · rcases List.mem_cons.1 hj with rfl | hj
        · rw [h1 _ hnd.1, put, if_pos rfl]
        · exact h2 j hj
    · rintro ⟨h1, h2⟩
      refine ⟨fun n hn => ?_, fun j hj => h2 j (by simp [hj])⟩
      by_cases hn' : n = name
      · subst hn'
        rw [put, if_pos rfl]
        exact h2 (n, rest ops) (by simp)
      · rw [put, if_neg hn']
        exact h1 n (by simp [hn', hn])

/-- One file of the series. -/
theorem twoWrites_put {fs fs' : Files} {name : List Char} {bytes : List Byte} (h : fs.put name bytes = (fs', 0)) :
    ∃ ops, (twoWrites fs name bytes).1 = .fopen name :: ops ∧ Tail ops ∧ rest ops = bytes := by
  have hw : fs.writable name = true := by
    by_contra hn
    unfold Files.put at h
    rw [if_neg hn] at h
    exact absurd (Prod.mk.inj h).2 (by decide)
  obtain ⟨ops, e, h1, h2⟩ := twoWrites_writable hw bytes
  exact ⟨ops, by rw [e], h1, h2⟩

theorem put_bytes {fs fs' : Files} {name : List Char} {b b' : List Byte} (h : fs.put name b = (fs', 0))
    (hc : fs'.content name = some b') : b' = b := by
  unfold Files.put at h
  split at h
  · cases h
    simpa using hc.symm
  · exact absurd (Prod.mk.inj h).2 (by decide)

theorem storedOps_job {fs : Files} {dir : List Char} {v : List Char × Stored} {job : List Char × List Byte}
    (h : SavedTo fs dir v job) :
    ∃ ops, storedOps fs dir v = .ok (.fopen job.1 :: ops) ∧ Tail ops ∧ rest ops = job.2 := by
  obtain ⟨name, st⟩ := v
  have hdir : dir ++ "/".toList ++ name = inDir dir name := by
    unfold inDir
    rw [show "/".toList = ['/'] by decide]
    simp
  cases st with
  | rgb im =>
    obtain ⟨h1, fs', h2, h3⟩ := h
    rw [hdir] at h1 h2
    rw [show ".bmp".toList = bmpExt by decide] at h1
    cases hb : bmpBytes im with
    | ok b =>
      rw [bmpWrite, hb, Res.ok_bind, Res.ok.injEq] at h2
      obtain ⟨ops, e, t1, t2⟩ := twoWrites_put h2
      rw [h1] at h3
      refine ⟨ops, ?_, t1, t2.trans (put_bytes h2 h3).symm⟩
      simp only [storedOps, bmpOps, hb, Res.ok_bind, e, h1]
    | throw e => rw [bmpWrite, hb] at h2; exact absurd h2 (by simp [Res.throw_bind])
    | ub => rw [bmpWrite, hb] at h2; exact absurd h2 (by simp [Res.ub_bind])
  | double junk im =>
    obtain ⟨h1, fs', h2, h3⟩ := h
    rw [hdir] at h1 h2
    rw [show ".dbmp".toList = dbmpExt by decide] at h1
    cases hb : dblFile junk im with
    | ok b =>
      rw [dblWrite, hb, Res.ok_bind, Res.ok.injEq] at h2
      obtain ⟨ops, e, t1, t2⟩ := twoWrites_put h2
      rw [h1] at h3
      refine ⟨ops, ?_, t1, t2.trans (put_bytes h2 h3).symm⟩
      simp only [storedOps, dblOps, hb, Res.ok_bind, e, h1]
    | throw e => rw [dblWrite, hb] at h2; exact absurd h2 (by simp [Res.throw_bind])
    | ub => rw [dblWrite, hb] at h2; exact absurd h2 (by simp [Res.ub_bind])
  | hsv junk im =>
    obtain ⟨h1, fs', h2, h3⟩ := h
    rw [hdir] at h1 h2
    rw [show ".hsv".toList = hsvExt by decide] at h1
    cases hb : hsvFile junk im with
    | ok b =>
      rw [hsvWrite, hb, Res.ok_bind, Res.ok.injEq] at h2
      obtain ⟨ops, e, t1, t2⟩ := twoWrites_put h2
      rw [h1] at h3
      refine ⟨ops, ?_, t1, t2.trans (put_bytes h2 h3).symm⟩
      simp only [storedOps, hsvOps, hb, Res.ok_bind, e, h1]
    | throw e => rw [hsvWrite, hb] at h2; exact absurd h2 (by simp [Res.throw_bind])
    | ub => rw [hsvWrite, hb] at h2; exact absurd h2 (by simp [Res.ub_bind])
  | other => exact h.elim

theorem saveOps_series {fs : Files} {dir : List Char} (vars : List (List Char × Stored))
    (jobs : List (List Char × List Byte)) (h : List.Forall₂ (SavedTo fs dir) (vars.filter Savable) jobs) :
    ∃ ops, saveOps fs dir vars = .ok ops ∧ Series jobs ops := by
  induction vars generalizing jobs with
  | nil =>
    cases h
    exact ⟨[], rfl, .nil⟩
  | cons v vs ih =>
    by_cases hv : Savable v = true
    · rw [List.filter_cons_of_pos hv] at h
      cases h with
      | @cons _ job _ jobs' h1 h2 =>
        obtain ⟨ops, e, t1, t2⟩ := storedOps_job h1
        obtain ⟨more, e', hs⟩ := ih jobs' h2
        refine ⟨.fopen job.1 :: ops ++ more, ?_, ?_⟩
        · simp only [saveOps, e, Res.ok_bind, e']
        · have := Series.cons job.1 ops more jobs' t1 hs
          rwa [t2] at this
    · rw [List.filter_cons_of_neg hv] at h
      obtain ⟨more, e', hs⟩ := ih jobs h
      refine ⟨more, ?_, hs⟩
      have : storedOps fs dir v = .ok [] := by
        obtain ⟨n, st⟩ := v
        cases st <;> first | rfl | exact absurd rfl hv
      simp only [saveOps, this, Res.ok_bind, e', List.nil_append]

end TinyDIP.Crash
