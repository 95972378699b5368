import Verif.Model.TwoRuns
import Verif.Lemmas.Crash

/-!
# Lemmas on two processes that write at the same time
-/

namespace TinyDIP.Crash

open TinyDIP TinyDIP.Cli

/-! ### The bytes of a file -/

theorem writtenAt_length (c : List Byte) (pos : Nat) (a : List Byte) :
    (writtenAt c pos a).length = max c.length (pos + a.length) := by
  simp only [writtenAt, List.length_append, List.length_take, List.length_replicate, List.length_drop]
  omega

theorem writtenAt_in (c : List Byte) (pos : Nat) (a : List Byte) {i : Nat} (h1 : pos ≤ i) (h2 : i < pos + a.length) :
    (writtenAt c pos a)[i]? = a[i - pos]? := by
  have hl : (c.take pos ++ List.replicate (pos - c.length) (0 : Byte)).length = pos := by simp; omega
  unfold writtenAt
  rw [List.append_assoc, List.getElem?_append_right (by omega), hl, List.getElem?_append_left (by omega)]

theorem writtenAt_out (c : List Byte) (pos : Nat) (a : List Byte) {i : Nat} (hi : i < c.length)
    (h : i < pos ∨ pos + a.length ≤ i) : (writtenAt c pos a)[i]? = c[i]? := by
  have hl : (c.take pos ++ List.replicate (pos - c.length) (0 : Byte)).length = pos := by simp; omega
  unfold writtenAt
  rcases h with h | h
  · rw [List.append_assoc, List.append_assoc, List.getElem?_append_left (by simp; omega), List.getElem?_take,
      if_pos h]
  · rw [List.getElem?_append_right (by rw [List.length_append, hl]; exact h), List.length_append, hl,
      List.getElem?_drop]
    congr 1
    omega

theorem writtenAt_end (c a : List Byte) : writtenAt c c.length a = c ++ a := by
  simp [writtenAt]

theorem writtenAt_all {c a : List Byte} (h : c.length ≤ a.length) : writtenAt c 0 a = a := by
  simp [writtenAt, h]

/-! ### One process -/

/-- Where a process that writes `bytes` to `name` is: not begun, at a position, or done. -/
inductive At (name : List Char) (bytes : List Byte) : Run → Option Nat → Prop
  | start (ops : List (Op Byte)) : Tail ops → rest ops = bytes → At name bytes ⟨none, .fopen name :: ops⟩ none
  | mid (pos : Nat) (held : List Byte) (ops : List (Op Byte)) : Tail ops →
      held ++ rest ops = bytes.drop pos → pos ≤ bytes.length → At name bytes ⟨some (name, pos, held), ops⟩ (some pos)
  | done : At name bytes ⟨none, []⟩ (some bytes.length)

/-- A step of such a process: it opens the file, or changes no file, or writes the next bytes. -/
theorem at_step {name : List Char} {bytes : List Byte} {r r' : Run} {p : Option Nat} {d d' : Disk Byte}
    (h : At name bytes r p) (s : RunStep d r d' r') :
    (p = none ∧ d' = d.empty name ∧ At name bytes r' (some 0)) ∨
    (d' = d ∧ At name bytes r' p) ∨
    ∃ pos a, p = some pos ∧ a = (bytes.drop pos).take a.length ∧ pos + a.length ≤ bytes.length ∧
      d' = d.writeAt name pos a ∧ At name bytes r' (some (pos + a.length)) := by
  cases h with
  | start ops ht he =>
    cases s
    exact Or.inl ⟨rfl, rfl, .mid 0 [] ops ht (by simpa using he) (Nat.zero_le _)⟩
  | mid pos held ops ht he hp =>
    have hlen : (held ++ rest ops).length + pos = bytes.length := by
      rw [he, List.length_drop]; omega
    rw [List.length_append] at hlen
    cases s with
    | fwrite _ _ _ b todo =>
      cases ht with
      | write _ _ ht =>
        exact Or.inr (Or.inl ⟨rfl, .mid pos _ _ ht (by rw [← he]; simp [rest]) hp⟩)
    | pass _ _ a b =>
      rw [List.length_append] at hlen
      refine Or.inr (Or.inr ⟨pos, a, rfl, ?_, by omega, rfl, ?_⟩)
      · rw [← he, List.append_assoc, List.take_left]
      · refine .mid _ _ _ ht ?_ (by omega)
        rw [← List.drop_drop, ← he, List.append_assoc, List.drop_left]
    | fclose =>
      cases ht with
      | close =>
        simp only [rest, List.append_nil, List.length_nil, Nat.add_zero] at he hlen
        refine Or.inr (Or.inr ⟨pos, held, rfl, ?_, by omega, rfl, ?_⟩)
        · rw [← he, List.take_length]
        · rw [show pos + held.length = bytes.length by omega]
          exact .done
  | done => cases s

theorem at_end {name : List Char} {bytes : List Byte} {r : Run} {p : Option Nat} (h : At name bytes r p)
    (h0 : r.todo = []) : p = some bytes.length := by
  cases h with
  | start => simp at h0
  | mid pos held ops ht => simp only at h0; subst h0; cases ht
  | done => rfl

theorem at_le {name : List Char} {bytes : List Byte} {r : Run} {n : Nat} (h : At name bytes r (some n)) :
    n ≤ bytes.length := by
  cases h with
  | mid _ _ _ _ _ hp => exact hp
  | done => exact Nat.le_refl _

/-! ### Different files -/

/-- What a file holds when its writer is at `p`. -/
def Holds (old : Option (List Byte)) (bytes : List Byte) (p : Option Nat) (now : Option (List Byte)) : Prop :=
  match p with
  | none => now = old
  | some k => now = some (bytes.take k)

theorem holds_step {name : List Char} {bytes : List Byte} {r r' : Run} {p : Option Nat} {d d' : Disk Byte}
    {old : Option (List Byte)} (h : At name bytes r p) (s : RunStep d r d' r') (hh : Holds old bytes p (d name)) :
    (∃ p', At name bytes r' p' ∧ Holds old bytes p' (d' name)) ∧ ∀ n, n ≠ name → d' n = d n := by
  rcases at_step h s with ⟨-, rfl, h'⟩ | ⟨rfl, h'⟩ | ⟨pos, a, rfl, ha, hl, rfl, h'⟩
  · refine ⟨⟨_, h', ?_⟩, fun n hn => if_neg hn⟩
    simp [Holds, Disk.empty]
  · exact ⟨⟨_, h', hh⟩, fun _ _ => rfl⟩
  · refine ⟨⟨_, h', ?_⟩, fun n hn => if_neg hn⟩
    simp only [Holds] at hh ⊢
    have hpl : (bytes.take pos).length = pos := by rw [List.length_take]; omega
    have e := writtenAt_end (bytes.take pos) a
    rw [hpl] at e
    rw [Disk.writeAt, if_pos rfl, hh, Option.getD_some, e, List.take_add]
    rw [← ha]

theorem both_different {d : Disk Byte} {n1 n2 : List Char} {b1 b2 : List Byte} {ops1 ops2 : List (Op Byte)}
    (hne : n1 ≠ n2) (t1 : Tail ops1) (e1 : rest ops1 = b1) (t2 : Tail ops2) (e2 : rest ops2 = b2)
    {d' : Disk Byte} {r1 r2 : Run} (h : Both d (.fopen n1 :: ops1) (.fopen n2 :: ops2) d' r1 r2) :
    (∀ n, n ≠ n1 → n ≠ n2 → d' n = d n) ∧
      (∃ p, At n1 b1 r1 p ∧ Holds (d n1) b1 p (d' n1)) ∧ ∃ p, At n2 b2 r2 p ∧ Holds (d n2) b2 p (d' n2) := by
  induction h with
  | start => exact ⟨fun _ _ _ => rfl, ⟨none, .start _ t1 e1, rfl⟩, ⟨none, .start _ t2 e2, rfl⟩⟩
  | first _ s ih =>
    obtain ⟨h0, ⟨p, h1, h1'⟩, q, h2, h2'⟩ := ih
    obtain ⟨h3, h4⟩ := holds_step h1 s h1'
    exact ⟨fun n hn hn' => (h4 n hn).trans (h0 n hn hn'), h3, q, h2, by rw [h4 n2 hne.symm]; exact h2'⟩
  | second _ s ih =>
    obtain ⟨h0, ⟨p, h1, h1'⟩, q, h2, h2'⟩ := ih
    obtain ⟨h3, h4⟩ := holds_step h2 s h2'
    exact ⟨fun n hn hn' => (h4 n hn').trans (h0 n hn hn'), ⟨p, h1, by rw [h4 n1 hne]; exact h1'⟩, h3⟩

/-! ### Executions -/

/-- Several steps of one process. -/
inductive RunSteps : Disk Byte → Run → Disk Byte → Run → Prop
  | refl (d : Disk Byte) (r : Run) : RunSteps d r d r
  | step {d d' d'' : Disk Byte} {r r' r'' : Run} : RunStep d r d' r' → RunSteps d' r' d'' r'' → RunSteps d r d'' r''

theorem both_firsts {d : Disk Byte} {ops1 ops2 : List (Op Byte)} {d' d'' : Disk Byte} {r1 r1' r2 : Run}
    (h : Both d ops1 ops2 d' r1 r2) (s : RunSteps d' r1 d'' r1') : Both d ops1 ops2 d'' r1' r2 := by
  induction s with
  | refl => exact h
  | step s _ ih => exact ih (.first h s)

theorem both_seconds {d : Disk Byte} {ops1 ops2 : List (Op Byte)} {d' d'' : Disk Byte} {r1 r2 r2' : Run}
    (h : Both d ops1 ops2 d' r1 r2) (s : RunSteps d' r2 d'' r2') : Both d ops1 ops2 d'' r1 r2' := by
  induction s with
  | refl => exact h
  | step s _ ih => exact ih (.second h s)

theorem run_hand {d : Disk Byte} {name : List Char} {pos : Nat} {ops : List (Op Byte)} (ht : Tail ops)
    (held : List Byte) :
    RunSteps d ⟨some (name, pos, held), ops⟩ d ⟨some (name, pos, held ++ rest ops), [.fclose]⟩ := by
  induction ht generalizing held with
  | close => simp only [rest, List.append_nil]; exact .refl _ _
  | write b t _ ih =>
    have := ih (held ++ b)
    simp only [rest]
    rw [← List.append_assoc]
    exact .step (.fwrite d name pos held b t) this

/-- A process that opened its file can pass on the first `k` bytes. -/
theorem run_to {d : Disk Byte} {name : List Char} {ops : List (Op Byte)} (ht : Tail ops) (k : Nat) :
    RunSteps d ⟨some (name, 0, []), ops⟩ (d.writeAt name 0 ((rest ops).take k))
      ⟨some (name, ((rest ops).take k).length, (rest ops).drop k), [.fclose]⟩ := by
  have h := run_hand (d := d) (name := name) (pos := 0) ht []
  rw [List.nil_append] at h
  have s := RunStep.pass d name 0 ((rest ops).take k) ((rest ops).drop k) [.fclose]
  rw [List.take_append_drop, Nat.zero_add] at s
  have tr : ∀ {d1 d2 d3 : Disk Byte} {r1 r2 r3 : Run}, RunSteps d1 r1 d2 r2 → RunStep d2 r2 d3 r3 →
      RunSteps d1 r1 d3 r3 := by
    intro d1 d2 d3 r1 r2 r3 h s
    induction h with
    | refl => exact .step s (.refl _ _)
    | step s' _ ih => exact .step s' (ih s)
  exact tr h s

theorem run_close {d : Disk Byte} {name : List Char} {pos : Nat} {held : List Byte} :
    RunSteps d ⟨some (name, pos, held), [.fclose]⟩ (d.writeAt name pos held) ⟨none, []⟩ :=
  .step (.fclose _ _ _ _ _) (.refl _ _)

theorem run_open {d : Disk Byte} {name : List Char} {ops : List (Op Byte)} :
    RunSteps d ⟨none, .fopen name :: ops⟩ (d.empty name) ⟨some (name, 0, []), ops⟩ :=
  .step (.fopen _ _ _) (.refl _ _)

/-! ### The same file -/

/-- What the file holds when the process that opened it last is at `k` and writes `b`, the other writing `b'`: below
`k` every byte comes from one of the two. -/
def Mixed (b b' : List Byte) (k : Nat) (c : List Byte) : Prop :=
  k ≤ c.length ∧ c.length ≤ max b.length b'.length ∧ ∀ i, i < k → c[i]? = b[i]? ∨ c[i]? = b'[i]?

theorem drop_take_get {b a : List Byte} {pos : Nat} (ha : a = (b.drop pos).take a.length) {i : Nat} (h1 : pos ≤ i)
    (h2 : i < pos + a.length) : a[i - pos]? = b[i]? := by
  rw [ha, List.getElem?_take, if_pos (by omega), List.getElem?_drop]
  congr 1
  omega

theorem mixed_own {b b' a c : List Byte} {pos : Nat} (ha : a = (b.drop pos).take a.length)
    (hl : pos + a.length ≤ b.length) (h : Mixed b b' pos c) :
    Mixed b b' (pos + a.length) (writtenAt c pos a) := by
  obtain ⟨h1, h2, h3⟩ := h
  refine ⟨by rw [writtenAt_length]; omega, by rw [writtenAt_length]; omega, fun i hi => ?_⟩
  by_cases hp : i < pos
  · rw [writtenAt_out _ _ _ (by omega) (Or.inl hp)]
    exact h3 i hp
  · rw [writtenAt_in _ _ _ (by omega) hi, drop_take_get ha (by omega) hi]
    exact Or.inl rfl

theorem mixed_other {b b' a c : List Byte} {pos k : Nat} (ha : a = (b'.drop pos).take a.length)
    (hl : pos + a.length ≤ b'.length) (h : Mixed b b' k c) : Mixed b b' k (writtenAt c pos a) := by
  obtain ⟨h1, h2, h3⟩ := h
  refine ⟨by rw [writtenAt_length]; omega, by rw [writtenAt_length]; omega, fun i hi => ?_⟩
  by_cases hp : pos ≤ i ∧ i < pos + a.length
  · rw [writtenAt_in _ _ _ hp.1 hp.2, drop_take_get ha hp.1 hp.2]
    exact Or.inr rfl
  · rw [writtenAt_out _ _ _ (by omega) (by omega)]
    exact h3 i hi

theorem mixed_zero (b b' : List Byte) : Mixed b b' 0 [] :=
  ⟨Nat.le_refl _, Nat.zero_le _, fun i hi => absurd hi (Nat.not_lt_zero i)⟩

/-- What is true while both processes write the file `name`. -/
def Same (d : Disk Byte) (name : List Char) (b1 b2 : List Byte) (d' : Disk Byte) (r1 r2 : Run) : Prop :=
  (∀ n, n ≠ name → d' n = d n) ∧ ∃ p1 p2, At name b1 r1 p1 ∧ At name b2 r2 p2 ∧
    ((p1 = none ∧ p2 = none ∧ d' = d) ∨
      (∃ k c, p1 = some k ∧ d' name = some c ∧ Mixed b1 b2 k c) ∨
      ∃ k c, p2 = some k ∧ d' name = some c ∧ Mixed b2 b1 k c)

theorem same_first {d d' d'' : Disk Byte} {name : List Char} {b1 b2 : List Byte} {r1 r1' r2 : Run}
    (h : Same d name b1 b2 d' r1 r2) (s : RunStep d' r1 d'' r1') : Same d name b1 b2 d'' r1' r2 := by
  obtain ⟨h0, p1, p2, h1, h2, h3⟩ := h
  rcases at_step h1 s with ⟨rfl, rfl, h'⟩ | ⟨rfl, h'⟩ | ⟨pos, a, rfl, ha, hl, rfl, h'⟩
  · refine ⟨fun n hn => (if_neg hn).trans (h0 n hn), _, _, h', h2, Or.inr (Or.inl ⟨0, [], rfl, if_pos rfl, mixed_zero _ _⟩)⟩
  · exact ⟨h0, _, _, h', h2, h3⟩
  · refine ⟨fun n hn => (if_neg hn).trans (h0 n hn), _, _, h', h2, ?_⟩
    rcases h3 with ⟨hn, -⟩ | ⟨k, c, hk, hc, hm⟩ | ⟨k, c, hk, hc, hm⟩
    · exact absurd hn (by simp)
    · cases hk
      refine Or.inr (Or.inl ⟨_, _, rfl, ?_, mixed_own ha hl hm⟩)
      rw [Disk.writeAt, if_pos rfl, hc, Option.getD_some]
    · refine Or.inr (Or.inr ⟨k, _, hk, ?_, mixed_other ha hl hm⟩)
      rw [Disk.writeAt, if_pos rfl, hc, Option.getD_some]

theorem same_swap {d d' : Disk Byte} {name : List Char} {b1 b2 : List Byte} {r1 r2 : Run}
    (h : Same d name b1 b2 d' r1 r2) : Same d name b2 b1 d' r2 r1 := by
  obtain ⟨h0, p1, p2, h1, h2, h3⟩ := h
  refine ⟨h0, p2, p1, h2, h1, ?_⟩
  rcases h3 with ⟨e1, e2, e3⟩ | h3 | h3
  · exact Or.inl ⟨e2, e1, e3⟩
  · exact Or.inr (Or.inr h3)
  · exact Or.inr (Or.inl h3)

theorem both_same {d : Disk Byte} {name : List Char} {b1 b2 : List Byte} {ops1 ops2 : List (Op Byte)}
    (t1 : Tail ops1) (e1 : rest ops1 = b1) (t2 : Tail ops2) (e2 : rest ops2 = b2)
    {d' : Disk Byte} {r1 r2 : Run} (h : Both d (.fopen name :: ops1) (.fopen name :: ops2) d' r1 r2) :
    Same d name b1 b2 d' r1 r2 := by
  induction h with
  | start => exact ⟨fun _ _ => rfl, _, _, .start _ t1 e1, .start _ t2 e2, Or.inl ⟨rfl, rfl, rfl⟩⟩
  | first _ s ih => exact same_first ih s
  | second _ s ih => exact same_swap (same_first (same_swap ih) s)

/-- When both have ended: the bytes up to the length of what one of them wrote come from the one or the other. -/
theorem same_end {d : Disk Byte} {name : List Char} {b1 b2 : List Byte} {ops1 ops2 : List (Op Byte)}
    (t1 : Tail ops1) (e1 : rest ops1 = b1) (t2 : Tail ops2) (e2 : rest ops2 = b2) {d' : Disk Byte}
    (h : BothEnd d (.fopen name :: ops1) (.fopen name :: ops2) d') :
    (∀ n, n ≠ name → d' n = d n) ∧ ∃ c, d' name = some c ∧ c.length ≤ max b1.length b2.length ∧
      ∃ k, (k = b1.length ∨ k = b2.length) ∧ k ≤ c.length ∧ ∀ i, i < k → c[i]? = b1[i]? ∨ c[i]? = b2[i]? := by
  obtain ⟨r1, r2, h, z1, z2⟩ := h
  obtain ⟨h0, p1, p2, h1, h2, h3⟩ := both_same t1 e1 t2 e2 h
  have q1 := at_end h1 z1
  have q2 := at_end h2 z2
  refine ⟨h0, ?_⟩
  rcases h3 with ⟨e, -⟩ | ⟨k, c, hk, hc, m1, m2, m3⟩ | ⟨k, c, hk, hc, m1, m2, m3⟩
  · rw [q1] at e; exact absurd e (by simp)
  · rw [q1] at hk; cases hk
    exact ⟨c, hc, m2, _, Or.inl rfl, m1, m3⟩
  · rw [q2] at hk; cases hk
    exact ⟨c, hc, by rw [Nat.max_comm]; exact m2, _, Or.inr rfl, m1, fun i hi => (m3 i hi).symm⟩

/-- Two processes that write equally many bytes to one file can leave the first part of the one and the rest of the
other. -/
theorem same_mix {d : Disk Byte} {name : List Char} {b1 b2 : List Byte} {ops1 ops2 : List (Op Byte)}
    (t1 : Tail ops1) (e1 : rest ops1 = b1) (t2 : Tail ops2) (e2 : rest ops2 = b2) (hlen : b1.length = b2.length)
    (m : Nat) (hm : m ≤ b1.length) :
    BothEnd d (.fopen name :: ops1) (.fopen name :: ops2) fun n =>
      if n = name then some (b2.take m ++ b1.drop m) else d n := by
  subst e1 e2
  have s0 := Both.start (d := d) (ops1 := .fopen name :: ops1) (ops2 := .fopen name :: ops2)
  have s1 := both_firsts s0 run_open
  have s2 := both_seconds s1 run_open
  have s3 := both_firsts s2 (run_to t1 m)
  have s4 := both_seconds s3 (run_to t2 (rest ops2).length)
  have s5 := both_seconds s4 run_close
  have s6 := both_firsts s5 run_close
  have s7 := (⟨_, _, s6, rfl, rfl⟩ : BothEnd d (.fopen name :: ops1) (.fopen name :: ops2) _)
  refine (congrArg (BothEnd d (.fopen name :: ops1) (.fopen name :: ops2)) ?_).mp s7
  funext n
  by_cases hn : n = name
  · subst hn
    have hl : ((rest ops1).take m).length = m := by rw [List.length_take]; omega
    have z : ∀ c : List Byte, writtenAt c c.length [] = c := fun c => by rw [writtenAt_end, List.append_nil]
    simp only [Disk.writeAt, Disk.empty, if_true, Option.getD_some, List.take_length, List.drop_length]
    rw [writtenAt_all (c := []) (by simp), writtenAt_all (by rw [hl]; omega), z, hl]
    congr 1
    unfold writtenAt
    rw [List.length_drop, show m + ((rest ops1).length - m) = (rest ops2).length by omega, List.drop_length,
      show m - (rest ops2).length = 0 by omega]
    simp
  · simp only [Disk.writeAt, Disk.empty, if_neg hn]

end TinyDIP.Crash
