import Verif.Spec.Locks
import Mathlib.Algebra.BigOperators.Group.Finset.Basic
import Mathlib.Algebra.BigOperators.Ring.Finset
import Mathlib.Algebra.Order.BigOperators.Group.Finset
import Mathlib.Data.List.Perm.Basic

namespace TinyDIP.Locks

variable {σ ℓ α β : Type}

theorem alternates_unique : ∀ {p : List (Op σ ℓ)}, Alternates true p → Alternates false p → False
  | [], h, _ => by simp [Alternates] at h
  | .act _ :: r, h, h' => alternates_unique (p := r) h h'
  | .lock :: _, h, _ => by simp [Alternates] at h
  | .unlock :: _, _, h' => by simp [Alternates] at h'

theorem alternates_of_holding : ∀ {b : Bool} {p : List (Op σ ℓ)}, Alternates b p →
    (∃ pre post, p = pre ++ .unlock :: post ∧ ∀ o ∈ pre, ∃ g, o = .act g) → b = true
  | b, p, h, ⟨[], post, e, _⟩ => by subst e; exact h.1
  | b, p, h, ⟨o :: pre, post, e, ha⟩ => by
    obtain ⟨g, rfl⟩ := ha o (by simp)
    subst e
    exact alternates_of_holding (p := pre ++ .unlock :: post) h
      ⟨pre, post, rfl, fun o ho => ha o (by simp [ho])⟩

theorem put_self (c : Conf σ ℓ) (i : Nat) (t : Task σ ℓ) : (c.put i t).tasks i = t := if_pos rfl

theorem put_ne (c : Conf σ ℓ) {i j : Nat} (t : Task σ ℓ) (h : j ≠ i) : (c.put i t).tasks j = c.tasks j := if_neg h

/-- What holds in every reachable state when calls on one thread do not interleave. -/
structure Inv (A : Algo σ ℓ) (c : Conf σ ℓ) : Prop where
  inside : ∀ i, c.tasks i ≠ .waiting → i < A.n
  thread : ∀ i j p q l m, c.tasks i = .running p l → c.tasks j = .running q m → A.thread i = A.thread j → i = j
  free : c.owner = none → ∀ i p l, c.tasks i = .running p l → Alternates false p
  held : ∀ t, c.owner = some t → ∃ k p l, c.tasks k = .running p l ∧ A.thread k = t ∧ Alternates true p ∧
    ∀ i q m, c.tasks i = .running q m → i ≠ k → Alternates false q

theorem Inv.either {A : Algo σ ℓ} {c : Conf σ ℓ} (v : Inv A c) {i : Nat} {p : List (Op σ ℓ)} {l : ℓ}
    (h : c.tasks i = .running p l) : Alternates false p ∨ Alternates true p ∧ c.owner = some (A.thread i) := by
  rcases ho : c.owner with _ | t
  · exact .inl (v.free ho i p l h)
  · obtain ⟨k, q, m, hk, ht, ha, hr⟩ := v.held t ho
    by_cases e : i = k
    · subst e
      rw [h] at hk
      injection hk with e1 e2
      subst e1
      exact .inr ⟨ha, by rw [ht]⟩
    · exact .inl (hr i p l h e)

theorem Inv.only {A : Algo σ ℓ} {c : Conf σ ℓ} (v : Inv A c) {i j : Nat} {p q : List (Op σ ℓ)} {l m : ℓ}
    (hi : c.tasks i = .running p l) (hj : c.tasks j = .running q m) (ai : Alternates true p) (aj : Alternates true q) :
    i = j := by
  rcases v.either hi with h | ⟨-, h⟩
  · exact (alternates_unique ai h).elim
  · rcases v.either hj with h' | ⟨-, h'⟩
    · exact (alternates_unique aj h').elim
    · exact v.thread i j p q l m hi hj (by rw [h] at h'; exact Option.some.inj h')

theorem inv_start (A : Algo σ ℓ) (init : σ) : Inv A (Conf.start init) where
  inside i h := absurd rfl h
  thread i j p q l m h := by simp [Conf.start] at h
  free _ i p l h := by simp [Conf.start] at h
  held t h := by simp [Conf.start] at h

/-- A running call does a step and keeps or gives back or takes the mutex. -/
theorem Inv.move {A : Algo σ ℓ} {c : Conf σ ℓ} (v : Inv A c) {i : Nat} {p q : List (Op σ ℓ)} {l m : ℓ}
    (h : c.tasks i = .running p l) (s : σ) (o : Option Nat)
    (ho : (Alternates false q ∧ o = none ∧ (c.owner = none ∨ Alternates true p)) ∨
      (Alternates false q ∧ o = c.owner ∧ Alternates false p) ∨
      (Alternates true q ∧ o = some (A.thread i) ∧ (c.owner = none ∨ Alternates true p))) :
    Inv A { c.put i (.running q m) with shared := s, owner := o } := by
  have hin : i < A.n := v.inside i (by rw [h]; simp)
  have tk : ∀ j, ({ c.put i (.running q m) with shared := s, owner := o } : Conf σ ℓ).tasks j =
      if j = i then .running q m else c.tasks j := fun j => rfl
  have rest : (c.owner = none ∨ Alternates true p) → ∀ j r k, c.tasks j = .running r k → j ≠ i → Alternates false r := by
    intro hc j r k hj hne
    rcases hc with hc | hc
    · exact v.free hc j r k hj
    · rcases v.either hj with e | ⟨e, -⟩
      · exact e
      · exact absurd (v.only hj h e hc) hne
  refine ⟨?_, ?_, ?_, ?_⟩
  · intro j hj
    rw [tk] at hj
    split at hj
    · next e => rw [e]; exact hin
    · exact v.inside j hj
  · intro j k p' q' l' m' hj hk ht
    rw [tk] at hj hk
    split at hj <;> split at hk
    · next e e' => rw [e, e']
    · next e e' => rw [e]; exact v.thread i k _ _ _ _ h hk (by rw [← e]; exact ht)
    · next e e' => rw [e']; exact v.thread j i _ _ _ _ hj h (by rw [← e']; exact ht)
    · exact v.thread j k _ _ _ _ hj hk ht
  · intro hn j r k hj
    replace hn : o = none := hn
    rw [tk] at hj
    split at hj
    · injection hj with e1 e2
      subst e1
      rcases ho with ⟨a, -, -⟩ | ⟨a, -, -⟩ | ⟨-, e, -⟩
      · exact a
      · exact a
      · rw [hn] at e; exact absurd e (by simp)
    · next hne =>
      rcases ho with ⟨-, -, hc⟩ | ⟨-, e, -⟩ | ⟨-, e, -⟩
      · exact rest hc j r k hj hne
      · exact v.free (by rw [← e, hn]) j r k hj
      · rw [hn] at e; exact absurd e (by simp)
  · intro t ht
    replace ht : o = some t := ht
    rcases ho with ⟨-, e, -⟩ | ⟨a, e, b⟩ | ⟨a, e, hc⟩
    · rw [e] at ht; exact absurd ht (by simp)
    · obtain ⟨k, r, n, hk, hkt, ha, hr⟩ := v.held t (by rw [← e, ht])
      have hne : k ≠ i := by
        rintro rfl
        rw [h] at hk
        injection hk with e1 e2
        subst e1
        exact alternates_unique ha b
      refine ⟨k, r, n, by rw [tk, if_neg hne, hk], hkt, ha, ?_⟩
      intro j r' n' hj hjk
      rw [tk] at hj
      split at hj
      · injection hj with e1 e2
        subst e1
        exact a
      · exact hr j r' n' hj hjk
    · refine ⟨i, q, m, by rw [tk, if_pos rfl], by rw [e] at ht; exact Option.some.inj ht, a, ?_⟩
      intro j r k hj hne
      rw [tk, if_neg hne] at hj
      exact rest hc j r k hj hne

theorem Inv.step {A : Algo σ ℓ} (hp : A.policy.interleaves = false) (hb : ∀ i < A.n, Alternates false (A.prog i))
    {c c' : Conf σ ℓ} (v : Inv A c) (st : Step A c (some c')) : Inv A c' := by
  generalize e : some c' = o at st
  cases st with
  | start i hi hw hf =>
    obtain rfl := Option.some.inj e
    rcases hf with hf | hf
    · rw [hp] at hf; exact absurd hf (by simp)
    have tk : ∀ j, (c.put i (.running (A.prog i) A.loc)).tasks j =
        if j = i then .running (A.prog i) A.loc else c.tasks j := fun j => rfl
    refine ⟨?_, ?_, ?_, ?_⟩
    · intro j hj
      rw [tk] at hj
      split at hj
      · next e => rw [e]; exact hi
      · exact v.inside j hj
    · intro j k p' q' l' m' hj hk ht
      rw [tk] at hj hk
      split at hj <;> split at hk
      · next e e' => rw [e, e']
      · next e e' => exact absurd hk (hf k (by rw [← ht, e]) _ _)
      · next e e' => exact absurd hj (hf j (by rw [ht, e']) _ _)
      · exact v.thread j k _ _ _ _ hj hk ht
    · intro hn j r k hj
      rw [tk] at hj
      split at hj
      · injection hj with e1 e2
        subst e1
        exact hb i hi
      · exact v.free hn j r k hj
    · intro t ht
      obtain ⟨k, r, n, hk, hkt, ha, hr⟩ := v.held t ht
      have hne : k ≠ i := by rintro rfl; rw [hw] at hk; exact absurd hk (by simp)
      refine ⟨k, r, n, by rw [tk, if_neg hne, hk], hkt, ha, ?_⟩
      intro j r' n' hj hjk
      rw [tk] at hj
      split at hj
      · injection hj with e1 e2
        subst e1
        exact hb i hi
      · exact hr j r' n' hj hjk
  | act i g todo l h =>
    obtain rfl := Option.some.inj e
    rcases v.either h with a | ⟨a, ow⟩
    · exact v.move h _ c.owner (.inr (.inl ⟨a, rfl, a⟩))
    · exact v.move h _ c.owner (.inr (.inr ⟨a, ow, .inr a⟩))
  | lock i todo l h ho =>
    obtain rfl := Option.some.inj e
    rcases v.either h with a | ⟨a, ow⟩
    · exact v.move h c.shared _ (.inr (.inr ⟨a.2, rfl, .inl ho⟩))
    · exact absurd a.1 (by simp)
  | lockAgain => cases e
  | unlock i todo l h ho =>
    obtain rfl := Option.some.inj e
    rcases v.either h with a | ⟨a, ow⟩
    · exact absurd a.1 (by simp)
    · exact v.move h c.shared _ (.inl ⟨a.2, rfl, .inr a⟩)
  | unlockForeign => cases e
  | finish i l h =>
    obtain rfl := Option.some.inj e
    have tk : ∀ j, (c.put i .finished).tasks j = if j = i then .finished else c.tasks j := fun j => rfl
    have run : ∀ {j p m}, (c.put i .finished).tasks j = .running p m → c.tasks j = .running p m := by
      intro j p m hj
      rw [tk] at hj
      split at hj
      · cases hj
      · exact hj
    refine ⟨?_, ?_, ?_, ?_⟩
    · intro j hj
      rw [tk] at hj
      split at hj
      · next e => rw [e]; exact v.inside i (by rw [h]; simp)
      · exact v.inside j hj
    · intro j k p' q' l' m' hj hk ht
      exact v.thread j k _ _ _ _ (run hj) (run hk) ht
    · intro hn j r k hj
      exact v.free hn j r k (run hj)
    · intro t ht
      obtain ⟨k, r, n, hk, hkt, ha, hr⟩ := v.held t ht
      have hne : k ≠ i := by
        rintro rfl
        rw [h] at hk
        injection hk with e1 e2
        subst e1
        simp [Alternates] at ha
      exact ⟨k, r, n, by rw [tk, if_neg hne, hk], hkt, ha, fun j r' n' hj hjk => hr j r' n' (run hj) hjk⟩

theorem inv_reach {A : Algo σ ℓ} (hp : A.policy.interleaves = false) (hb : ∀ i < A.n, Alternates false (A.prog i))
    {init : σ} {c : Conf σ ℓ} (r : Reach A init c) : Inv A c := by
  induction r with
  | refl => exact inv_start A init
  | tail _ st ih => exact ih.step hp hb st

theorem Inv.safe {A : Algo σ ℓ} {c : Conf σ ℓ} (v : Inv A c) : ¬ Step A c none := by
  intro st
  generalize e : none = o at st
  cases st with
  | start | act | lock | unlock | finish => cases e
  | lockAgain i todo l h ho =>
    obtain ⟨k, p, m, hk, ht, ha, -⟩ := v.held _ ho
    obtain rfl := v.thread k i _ _ _ _ hk h ht
    rw [h] at hk
    injection hk with e1 e2
    subst e1
    exact absurd ha.1 (by simp)
  | unlockForeign i todo l h ho =>
    rcases v.either h with a | ⟨-, ow⟩
    · exact absurd a.1 (by simp)
    · exact ho ow

theorem Inv.live {A : Algo σ ℓ} {c : Conf σ ℓ} (v : Inv A c) : Complete A c ∨ ∃ c', Step A c (some c') := by
  by_cases hc : Complete A c
  · exact .inl hc
  refine .inr ?_
  rcases ho : c.owner with _ | t
  · by_cases hr : ∃ i p l, c.tasks i = .running p l
    · obtain ⟨i, p, l, h⟩ := hr
      match p, h with
      | [], h => exact ⟨_, .finish i l h⟩
      | .act g :: r, h => exact ⟨_, .act i g r l h⟩
      | .lock :: r, h => exact ⟨_, .lock i r l h ho⟩
      | .unlock :: r, h => exact absurd (v.free ho i _ l h).1 (by simp)
    · obtain ⟨i, hi, hne⟩ : ∃ i < A.n, c.tasks i ≠ .finished := by
        by_contra hcon
        exact hc fun i hi => by_contra fun hne => hcon ⟨i, hi, hne⟩
      rcases ht : c.tasks i with _ | ⟨p, l⟩ | _
      · exact ⟨_, .start i hi ht (.inr fun j _ todo l e => hr ⟨j, todo, l, e⟩)⟩
      · exact absurd ⟨i, p, l, ht⟩ hr
      · exact absurd ht hne
  · obtain ⟨k, p, l, h, ht, ha, -⟩ := v.held t ho
    match p, h, ha with
    | [], h, ha => simp [Alternates] at ha
    | .act g :: r, h, ha => exact ⟨_, .act k g r l h⟩
    | .lock :: r, h, ha => exact absurd ha.1 (by simp)
    | .unlock :: r, h, ha => exact ⟨_, .unlock k r l h (by rw [ho, ht])⟩

theorem Inv.exclusive {A : Algo σ ℓ} {c : Conf σ ℓ} (v : Inv A c) (i j : Nat) (hi : Holding (c.tasks i))
    (hj : Holding (c.tasks j)) : i = j := by
  rcases ei : c.tasks i with _ | ⟨p, l⟩ | _
  · rw [ei] at hi; exact hi.elim
  · rcases ej : c.tasks j with _ | ⟨q, m⟩ | _
    · rw [ej] at hj; exact hj.elim
    · rw [ei] at hi
      rw [ej] at hj
      have key : ∀ {k p l}, c.tasks k = .running p l → Holding (.running p l) → Alternates true p := by
        intro k p l hk hh
        rcases v.either hk with a | ⟨a, -⟩
        · exact absurd (alternates_of_holding a hh) (by simp)
        · exact a
      exact v.only ei ej (key ei hi) (key ej hj)
    · rw [ej] at hj; exact hj.elim
  · rw [ei] at hi; exact hi.elim

/-! ### Length of executions -/

/-- Steps a call still has to do. -/
def left (A : Algo σ ℓ) (i : Nat) : Task σ ℓ → Nat
  | .waiting => (A.prog i).length + 2
  | .running p _ => p.length + 1
  | .finished => 0

theorem left_step {A : Algo σ ℓ} {c c' : Conf σ ℓ} (st : Step A c (some c')) (hin : ∀ i, c.tasks i ≠ .waiting → i < A.n) :
    (∑ i ∈ Finset.range A.n, left A i (c'.tasks i)) + 1 = ∑ i ∈ Finset.range A.n, left A i (c.tasks i) := by
  have key : ∀ (i : Nat) (t : Task σ ℓ), i < A.n → left A i t + 1 = left A i (c.tasks i) →
      (∑ j ∈ Finset.range A.n, left A j (if j = i then t else c.tasks j)) + 1 =
        ∑ j ∈ Finset.range A.n, left A j (c.tasks j) := by
    intro i t hi e
    rw [← Finset.add_sum_erase _ _ (Finset.mem_range.2 hi), ← Finset.add_sum_erase _ (fun j => left A j (c.tasks j))
      (Finset.mem_range.2 hi), if_pos rfl]
    have : ∑ j ∈ (Finset.range A.n).erase i, left A j (if j = i then t else c.tasks j) =
        ∑ j ∈ (Finset.range A.n).erase i, left A j (c.tasks j) :=
      Finset.sum_congr rfl fun j hj => by rw [if_neg (Finset.ne_of_mem_erase hj)]
    rw [this]
    show left A i t + _ + 1 = left A i (c.tasks i) + _
    omega
  generalize e : some c' = o at st
  cases st with
  | start i hi hw hf =>
    obtain rfl := Option.some.inj e
    exact key i _ hi (by rw [hw]; simp [left])
  | act i g todo l h =>
    obtain rfl := Option.some.inj e
    exact key i _ (hin i (by rw [h]; simp)) (by rw [h]; simp [left])
  | lock i todo l h ho =>
    obtain rfl := Option.some.inj e
    exact key i _ (hin i (by rw [h]; simp)) (by rw [h]; simp [left])
  | lockAgain => cases e
  | unlock i todo l h ho =>
    obtain rfl := Option.some.inj e
    exact key i _ (hin i (by rw [h]; simp)) (by rw [h]; simp [left])
  | unlockForeign => cases e
  | finish i l h =>
    obtain rfl := Option.some.inj e
    exact key i _ (hin i (by rw [h]; simp)) (by rw [h]; simp [left])

theorem inside_step {A : Algo σ ℓ} {c c' : Conf σ ℓ} (st : Step A c (some c')) (hin : ∀ i, c.tasks i ≠ .waiting → i < A.n) :
    ∀ i, c'.tasks i ≠ .waiting → i < A.n := by
  have key : ∀ (i : Nat) (t : Task σ ℓ), i < A.n → ∀ j, (if j = i then t else c.tasks j) ≠ .waiting → j < A.n := by
    intro i t hi j hj
    split at hj
    · next e => rw [e]; exact hi
    · exact hin j hj
  generalize e : some c' = o at st
  cases st with
  | start i hi hw hf => obtain rfl := Option.some.inj e; exact key i _ hi
  | act i g todo l h => obtain rfl := Option.some.inj e; exact key i _ (hin i (by rw [h]; simp))
  | lock i todo l h ho => obtain rfl := Option.some.inj e; exact key i _ (hin i (by rw [h]; simp))
  | lockAgain => cases e
  | unlock i todo l h ho => obtain rfl := Option.some.inj e; exact key i _ (hin i (by rw [h]; simp))
  | unlockForeign => cases e
  | finish i l h => obtain rfl := Option.some.inj e; exact key i _ (hin i (by rw [h]; simp))

theorem ends (A : Algo σ ℓ) (init : σ) : Ends A init (∑ i ∈ Finset.range A.n, ((A.prog i).length + 2)) := by
  intro k c h0 hs
  have key : ∀ j ≤ k, (∀ i, (c j).tasks i ≠ .waiting → i < A.n) ∧
      (∑ i ∈ Finset.range A.n, left A i ((c j).tasks i)) + j = ∑ i ∈ Finset.range A.n, ((A.prog i).length + 2) := by
    intro j
    induction j with
    | zero =>
      intro _
      rw [h0]
      exact ⟨fun i h => absurd rfl h, rfl⟩
    | succ j ih =>
      intro hj
      obtain ⟨a, b⟩ := ih (by omega)
      have st := hs j (by omega)
      have := left_step st a
      exact ⟨inside_step st a, by omega⟩
  have := (key k le_rfl).2
  omega

end TinyDIP.Locks
