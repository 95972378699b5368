import Verif.Lemmas.Locks
import Verif.Lemmas.Match

/-!
# C178: function objects that lock a mutex
-/

namespace TinyDIP.Props

open TinyDIP TinyDIP.Locks

variable {σ ℓ α β : Type}

/-- With the policies `seq` and `par`, for every placement of the calls on threads and every interleaving of their
steps: calls that lock and unlock the mutex alternately, beginning with a lock and ending with an unlock, never have
undefined behaviour, never all wait for each other, never hold the mutex two at a time, and return after a number of
steps known beforehand. Missing: the policies `unseq` and `par_unseq`, see `C178_transform_violation`. -/
theorem C178_runs_partial (A : Algo σ ℓ) (hp : A.policy = .seq ∨ A.policy = .par)
    (hb : ∀ i < A.n, Alternates false (A.prog i)) (init : σ) :
    Safe A init ∧ Live A init ∧ Exclusive A init ∧ Ends A init (∑ i ∈ Finset.range A.n, ((A.prog i).length + 2)) := by
  have hi : A.policy.interleaves = false := by rcases hp with h | h <;> rw [h] <;> rfl
  exact ⟨fun c r => (inv_reach hi hb r).safe, fun c r => (inv_reach hi hb r).live,
    fun c r => (inv_reach hi hb r).exclusive, ends A init⟩

/-! ### `recursive_transform` -/

theorem transform_alternates (f : α → β) (input : List α) (i : Nat) : Alternates false (transformProg f input i) :=
  ⟨rfl, rfl, rfl⟩

example := C178_runs_partial (transformAlgo .par (fun i => i % 2) (fun x : Nat => x * x) [3, 1, 2]) (.inr rfl)
  (fun i _ => transform_alternates _ _ i) [0, 0, 0]

/-- The state of the call for element `i`. -/
def TransformAt (f : α → β) (input : List α) (out : List β) (i : Nat) : Task (List β) (Option β) → Prop
  | .waiting => True
  | .running p l => p = transformProg f input i ∨ p = (transformProg f input i).drop 1 ∨
      (p = (transformProg f input i).drop 2 ∧ l = input[i]?.map f) ∨
      (p = (transformProg f input i).drop 3 ∧ l = input[i]?.map f) ∨ (p = [] ∧ out[i]? = input[i]?.map f)
  | .finished => out[i]? = input[i]?.map f

theorem TransformAt.congr {f : α → β} {input : List α} {out out' : List β} {i : Nat} {t : Task (List β) (Option β)}
    (h : TransformAt f input out i t) (e : out'[i]? = out[i]?) : TransformAt f input out' i t := by
  cases t with
  | waiting => trivial
  | running p l => simpa only [TransformAt, e] using h
  | finished => simpa only [TransformAt, e] using h

theorem transform_step {policy : Policy} {thread : Nat → Nat} {f : α → β} {input : List α}
    {c c' : Conf (List β) (Option β)} (hl : c.shared.length = input.length)
    (hin : ∀ i, c.tasks i ≠ .waiting → i < input.length)
    (hc : ∀ i, TransformAt f input c.shared i (c.tasks i))
    (st : Step (transformAlgo policy thread f input) c (some c')) :
    c'.shared.length = input.length ∧ ∀ i, TransformAt f input c'.shared i (c'.tasks i) := by
  have key : ∀ (i : Nat) (t : Task (List β) (Option β)), TransformAt f input c.shared i t →
      ∀ j, TransformAt f input c.shared j (if j = i then t else c.tasks j) := by
    intro i t ht j
    split
    · next e => rw [e]; exact ht
    · exact hc j
  generalize e : some c' = o at st
  cases st with
  | start i hi hw hf =>
    obtain rfl := Option.some.inj e
    exact ⟨hl, key i _ (.inl rfl)⟩
  | act i g todo l h =>
    obtain rfl := Option.some.inj e
    have hi := hc i
    have hlt := hin i (by rw [h]; simp)
    rw [h] at hi
    rcases hi with hi | hi | ⟨hi, -⟩ | ⟨hi, hl'⟩ | ⟨hi, -⟩
    · simp [transformProg] at hi
    · simp only [transformProg, List.drop_succ_cons, List.drop_zero, List.cons.injEq, Op.act.injEq] at hi
      obtain ⟨rfl, rfl⟩ := hi
      exact ⟨hl, key i _ (.inr (.inr (.inl ⟨rfl, rfl⟩)))⟩
    · simp [transformProg] at hi
    · simp only [transformProg, List.drop_succ_cons, List.drop_zero, List.cons.injEq, Op.act.injEq] at hi
      obtain ⟨rfl, rfl⟩ := hi
      subst hl'
      rw [List.getElem?_eq_getElem hlt]
      simp only [Option.map_some]
      refine ⟨by simpa using hl, fun j => ?_⟩
      show TransformAt f input (c.shared.set i (f input[i])) j (if j = i then _ else c.tasks j)
      split
      · next e =>
        subst e
        refine .inr (.inr (.inr (.inr ⟨rfl, ?_⟩)))
        rw [List.getElem?_eq_getElem hlt]
        simp [hl, hlt]
      · next e => exact (hc j).congr (List.getElem?_set_ne (Ne.symm e))
    · simp at hi
  | lock i todo l h ho =>
    obtain rfl := Option.some.inj e
    have hi := hc i
    rw [h] at hi
    refine ⟨hl, key i _ ?_⟩
    rcases hi with hi | hi | ⟨hi, -⟩ | ⟨hi, -⟩ | ⟨hi, -⟩
    · simp only [transformProg, List.cons.injEq, true_and] at hi
      exact .inr (.inl hi)
    all_goals simp [transformProg] at hi
  | lockAgain => cases e
  | unlock i todo l h ho =>
    obtain rfl := Option.some.inj e
    have hi := hc i
    rw [h] at hi
    refine ⟨hl, key i _ ?_⟩
    rcases hi with hi | hi | ⟨hi, hl'⟩ | ⟨hi, -⟩ | ⟨hi, -⟩
    · simp [transformProg] at hi
    · simp [transformProg] at hi
    · simp only [transformProg, List.drop_succ_cons, List.drop_zero, List.cons.injEq, true_and] at hi
      exact .inr (.inr (.inr (.inl ⟨hi, hl'⟩)))
    all_goals simp [transformProg] at hi
  | unlockForeign => cases e
  | finish i l h =>
    obtain rfl := Option.some.inj e
    have hi := hc i
    rw [h] at hi
    refine ⟨hl, key i _ ?_⟩
    rcases hi with hi | hi | ⟨hi, -⟩ | ⟨hi, -⟩ | ⟨-, hi⟩
    all_goals first | exact hi | simp [transformProg] at hi

/-- `recursive_transform(seq or par, f, input)`: no schedule leads to undefined behaviour or to threads that wait for
each other for ever, every execution ends, and at its end the result at every position is `f` of the element of the
input there. Missing: the policies `unseq` and `par_unseq`, see `C178_transform_violation`. -/
theorem C178_transform_partial (policy : Policy) (hp : policy = .seq ∨ policy = .par) (thread : Nat → Nat) (f : α → β)
    (input : List α) (default : β) :
    let A := transformAlgo policy thread f input
    let empty := List.replicate input.length default
    Safe A empty ∧ Live A empty ∧ Ends A empty (6 * input.length) ∧
      ∀ c, Reach A empty c → Complete A c → c.shared = input.map f := by
  intro A empty
  obtain ⟨a, b, -, d⟩ := C178_runs_partial A hp (fun i _ => transform_alternates f input i) empty
  refine ⟨a, b, ?_, fun c r hc => ?_⟩
  · have : (∑ i ∈ Finset.range A.n, ((A.prog i).length + 2)) = 6 * input.length := by
      show (∑ i ∈ Finset.range input.length, 6) = 6 * input.length
      simp [Nat.mul_comm]
    rw [← this]
    exact d
  · have key : c.shared.length = input.length ∧ (∀ i, c.tasks i ≠ .waiting → i < input.length) ∧
        ∀ i, TransformAt f input c.shared i (c.tasks i) := by
      clear hc
      induction r with
      | refl => exact ⟨by simp [Conf.start, empty], fun i h => absurd rfl h, fun i => trivial⟩
      | tail _ st ih =>
        obtain ⟨i1, i2, i3⟩ := ih
        obtain ⟨j1, j2⟩ := transform_step i1 i2 i3 st
        exact ⟨j1, inside_step st i2, j2⟩
    obtain ⟨k1, k2, k3⟩ := key
    refine List.ext_getElem? fun i => ?_
    by_cases hi : i < input.length
    · have := k3 i
      rw [hc i hi] at this
      rw [List.getElem?_map]
      exact this
    · rw [List.getElem?_eq_none (by omega), List.getElem?_eq_none (by simp; omega)]

example := C178_transform_partial .par (by decide) (fun i => i % 2) (fun x : Nat => x * x) [3, 1, 2] 0

/-- Violation: with `unseq` or `par_unseq` and two elements on one thread there is a schedule with undefined
behaviour: the thread locks the mutex for the one and then, before it has unlocked it, for the other. -/
theorem C178_transform_violation (policy : Policy) (hp : policy = .unseq ∨ policy = .parUnseq) (thread : Nat → Nat)
    (f : α → β) (input : List α) (i j : Nat) (hij : i ≠ j) (hi : i < input.length) (hj : j < input.length)
    (ht : thread i = thread j) (empty : List β) : ¬ Safe (transformAlgo policy thread f input) empty := by
  intro hs
  have hv : policy.interleaves = true := by rcases hp with h | h <;> rw [h] <;> rfl
  have r1 : Reach (transformAlgo policy thread f input) empty _ := .single (.start i hi rfl (.inl hv))
  have r2 := r1.tail (.lock i _ _ (put_self _ _ _) rfl)
  have r3 := r2.tail (.start j hj (by
    show (if j = i then _ else if j = i then _ else Task.waiting) = _
    rw [if_neg hij.symm, if_neg hij.symm]) (.inl hv))
  exact hs _ r3 (.lockAgain j _ _ (put_self _ _ _) (congrArg some ht))

example := C178_transform_violation .unseq (by decide) (fun _ => 0) (fun x : Nat => x * x) [3, 1, 2] 0 2 (by decide)
  (by decide) (by decide) rfl [0, 0, 0]

/-! ### Matching of descriptors -/

section
variable {K D : Type} [Field K] [LinearOrder K]

theorem append_alternates (result : Nat → Option α) (i : Nat) : Alternates false (appendProg result i) := by
  unfold appendProg
  split
  · rfl
  · exact ⟨rfl, rfl, rfl⟩

/-- The state of the call for index `i`; `order` lists the indices whose matches have been appended. -/
def AppendAt (result : Nat → Option α) (shared : List α) (order : List Nat) (i : Nat) : Task (List α) (List α) → Prop
  | .waiting => i ∉ order
  | .running p l => ((p = appendProg result i ∨ p = (appendProg result i).drop 1 ∨
        (p = (appendProg result i).drop 2 ∧ l = shared)) ∧ i ∉ order) ∨
      ((p = (appendProg result i).drop 3 ∨ p = []) ∧ (i ∈ order ∨ result i = none))
  | .finished => i ∈ order ∨ result i = none

theorem append_step {A : Algo (List α) (List α)} {result : Nat → Option α} (hA : A.prog = appendProg result)
    {c c' : Conf (List α) (List α)} (v : Inv A c) {order : List Nat} (ho : order.Nodup)
    (hs : c.shared = order.filterMap result) (hin : ∀ i ∈ order, i < A.n)
    (hc : ∀ i, AppendAt result c.shared order i (c.tasks i)) (st : Step A c (some c')) :
    ∃ order' : List Nat, order'.Nodup ∧ c'.shared = order'.filterMap result ∧ (∀ i ∈ order', i < A.n) ∧
      ∀ i, AppendAt result c'.shared order' i (c'.tasks i) := by
  have key : ∀ (i : Nat) (t : Task (List α) (List α)), AppendAt result c.shared order i t →
      ∀ j, AppendAt result c.shared order j (if j = i then t else c.tasks j) := by
    intro i t ht j
    split
    · next e => rw [e]; exact ht
    · exact hc j
  generalize e : some c' = o at st
  cases st with
  | start i hi hw hf =>
    obtain rfl := Option.some.inj e
    refine ⟨order, ho, hs, hin, key i _ (.inl ⟨.inl (by rw [hA]), ?_⟩)⟩
    have := hc i
    rw [hw] at this
    exact this
  | act i g todo l h =>
    obtain rfl := Option.some.inj e
    have hi := hc i
    have hlt := v.inside i (by rw [h]; simp)
    rw [h] at hi
    rcases hr : result i with _ | m
    · simp [AppendAt, appendProg, hr] at hi
    simp only [AppendAt, appendProg, hr, List.drop_succ_cons, List.drop_zero, List.cons.injEq, Op.act.injEq, reduceCtorEq,
      false_and, false_or, or_false] at hi
    rcases hi with ⟨hi | ⟨hi, hl⟩, hn⟩
    · obtain ⟨rfl, rfl⟩ := hi
      refine ⟨order, ho, hs, hin, key i _ (.inl ⟨.inr (.inr ⟨?_, rfl⟩), hn⟩)⟩
      simp [appendProg, hr]
    · obtain ⟨rfl, rfl⟩ := hi
      subst hl
      refine ⟨order ++ [i], ?_, ?_, ?_, fun j => ?_⟩
      · rw [List.nodup_append]
        exact ⟨ho, by simp, fun a ha b hb e => hn (by rw [List.mem_singleton.1 hb] at e; rw [← e]; exact ha)⟩
      · show c.shared ++ [m] = _
        rw [List.filterMap_append, ← hs]
        simp [hr]
      · intro k hk
        rcases List.mem_append.1 hk with hk | hk
        · exact hin k hk
        · rw [List.mem_singleton.1 hk]; exact hlt
      · show AppendAt result (c.shared ++ [m]) (order ++ [i]) j (if j = i then _ else c.tasks j)
        split
        · next e =>
          subst e
          exact .inr ⟨.inl (by simp [appendProg, hr]), .inl (by simp)⟩
        · next e =>
          have hj := hc j
          have hmem : j ∈ order ++ [i] ↔ j ∈ order := by simp [e]
          rcases ej : c.tasks j with _ | ⟨p, q⟩ | _
          · rw [ej] at hj; exact fun hm => hj (hmem.1 hm)
          · rw [ej] at hj
            rcases hj with ⟨hj, hjn⟩ | ⟨hj, hjn⟩
            · have hjn' : j ∉ order ++ [i] := fun hm => hjn (hmem.1 hm)
              rcases hj with hj | hj | ⟨hj, -⟩
              · exact .inl ⟨.inl hj, hjn'⟩
              · exact .inl ⟨.inr (.inl hj), hjn'⟩
              · rcases hr' : result j with _ | m'
                · simp only [appendProg, hr', List.drop_nil] at hj
                  exact .inr ⟨.inr hj, .inr hr'⟩
                · have aj : Alternates true p := by
                    rw [hj]; simp only [appendProg, hr']; exact ⟨rfl, rfl⟩
                  exact absurd (v.only ej h aj ⟨rfl, rfl⟩) e
            · exact .inr ⟨hj, hjn.imp hmem.2 id⟩
          · rw [ej] at hj
            exact hj.imp hmem.2 id
  | lock i todo l h hown =>
    obtain rfl := Option.some.inj e
    have hi := hc i
    rw [h] at hi
    rcases hr : result i with _ | m
    · simp [AppendAt, appendProg, hr] at hi
    simp only [AppendAt, appendProg, hr, List.drop_succ_cons, List.drop_zero, List.cons.injEq, reduceCtorEq, true_and,
      false_and, false_or, or_false] at hi
    obtain ⟨rfl, hn⟩ := hi
    exact ⟨order, ho, hs, hin, key i _ (.inl ⟨.inr (.inl (by simp [appendProg, hr])), hn⟩)⟩
  | lockAgain => cases e
  | unlock i todo l h hown =>
    obtain rfl := Option.some.inj e
    have hi := hc i
    rw [h] at hi
    rcases hr : result i with _ | m
    · simp [AppendAt, appendProg, hr] at hi
    simp only [AppendAt, appendProg, hr, List.drop_succ_cons, List.drop_zero, List.cons.injEq, reduceCtorEq, true_and,
      false_and, false_or, or_false] at hi
    obtain ⟨rfl, hn⟩ := hi
    exact ⟨order, ho, hs, hin, key i _ (.inr ⟨.inr rfl, .inl hn⟩)⟩
  | unlockForeign => cases e
  | finish i l h =>
    obtain rfl := Option.some.inj e
    have hi := hc i
    rw [h] at hi
    refine ⟨order, ho, hs, hin, key i _ ?_⟩
    rcases hr : result i with _ | m
    · exact .inr hr
    · simpa [AppendAt, appendProg, hr] using hi

/-- The matches appended in the order of the indices `order`. -/
theorem findRawMatches_order (dist : D → D → K) (big : K) {ds1 ds2 : List D} (h1 : ds1 ≠ []) (h2 : ds2 ≠ []) (ratio : K)
    {order : List Nat} (ho : order.Perm (List.range ds1.length)) :
    Match.findRawMatches (fun l => if l = List.range ds1.length then order else l) dist big ds1 ds2 ratio =
      .ok (order.filterMap (matchOf dist big ds1 ds2 ratio)) := by
  have hin : ∀ i ∈ order, i < ds1.length := fun i hi => List.mem_range.1 (ho.mem_iff.1 hi)
  unfold Match.findRawMatches
  rw [if_neg (by simp [h1, h2])]
  simp only [if_true]
  clear ho
  suffices h : ∀ acc, loop (fun (acc : List (Nat × Nat)) i => do
      let q ← vget ds1 i
      let s ← Match.nearest dist big q ds2
      if s.1 < ratio * ratio * s.2.1 then .ok (acc ++ [(i, s.2.2)]) else .ok acc) order acc =
      .ok (acc ++ order.filterMap (matchOf dist big ds1 ds2 ratio)) by simpa using h []
  induction order with
  | nil => intro acc; simp [loop]
  | cons i l ih =>
    intro acc
    have hi := hin i (by simp)
    obtain ⟨s, e⟩ := Match.nearest_total dist big ds1[i] ds2
    rw [loop, vget_eq_ok hi, Res.ok_bind, e, Res.ok_bind]
    have em : matchOf dist big ds1 ds2 ratio i = if s.1 < ratio * ratio * s.2.1 then some (i, s.2.2) else none := by
      simp only [matchOf, List.getElem?_eq_getElem hi, e]
    rw [List.filterMap_cons, em]
    have ih' := ih fun k hk => hin k (by simp [hk])
    by_cases h : s.1 < ratio * ratio * s.2.1
    · simp only [if_pos h]; rw [ih']; simp
    · simp only [if_neg h]; rw [ih']

/-- `find_raw_matches(seq or par, …)` and `find_keypoint_matches`: no schedule leads to undefined behaviour or to
threads that wait for each other for ever, every execution ends, and its result is that of handling the descriptors
one after the other in some order. Missing: the policies `unseq` and `par_unseq`, see `C178_matches_violation`. -/
theorem C178_matches_partial (policy : Policy) (hp : policy = .seq ∨ policy = .par) (thread : Nat → Nat)
    (dist : D → D → K) (big : K) (ds1 ds2 : List D) (h1 : ds1 ≠ []) (h2 : ds2 ≠ []) (ratio : K) :
    let A := matchAlgo policy thread dist big ds1 ds2 ratio
    Safe A [] ∧ Live A [] ∧ Ends A [] (6 * ds1.length) ∧ ∀ c, Reach A [] c → Complete A c →
      ∃ sched : List Nat → List Nat, (∀ l, (sched l).Perm l) ∧
        Match.findRawMatches sched dist big ds1 ds2 ratio = .ok c.shared := by
  intro A
  have hb : ∀ i < A.n, Alternates false (A.prog i) := fun i _ => append_alternates _ i
  obtain ⟨a, b, -, d⟩ := C178_runs_partial A hp hb []
  have hi : A.policy.interleaves = false := by rcases hp with h | h <;> simp only [A, matchAlgo, h] <;> rfl
  refine ⟨a, b, ?_, fun c r hc => ?_⟩
  · intro k c h0 hs
    refine (d k c h0 hs).trans ?_
    have : ∀ i ∈ Finset.range A.n, (A.prog i).length + 2 ≤ 6 := by
      intro i _
      simp only [A, matchAlgo, appendProg]
      split <;> simp
    refine (Finset.sum_le_sum this).trans ?_
    simp [A, matchAlgo, Nat.mul_comm]
  · set result := matchOf dist big ds1 ds2 ratio with hres
    have key : ∃ order : List Nat, order.Nodup ∧ c.shared = order.filterMap result ∧ (∀ i ∈ order, i < A.n) ∧
        ∀ i, AppendAt result c.shared order i (c.tasks i) := by
      clear hc
      induction r with
      | refl => exact ⟨[], by simp, rfl, by simp, fun i => by simp [AppendAt, Conf.start]⟩
      | tail r st ih =>
        obtain ⟨order, i1, i2, i3, i4⟩ := ih
        exact append_step rfl (inv_reach hi hb r) i1 i2 i3 i4 st
    obtain ⟨order, k1, k2, k3, k4⟩ := key
    let rest := (List.range ds1.length).filter fun i => decide (i ∉ order)
    have hperm : (order ++ rest).Perm (List.range ds1.length) := by
      refine (List.perm_ext_iff_of_nodup ?_ List.nodup_range).2 fun i => ?_
      · rw [List.nodup_append]
        refine ⟨k1, List.nodup_range.filter _, fun x hx y hy e => ?_⟩
        rw [List.mem_filter] at hy
        exact absurd (e ▸ hx) (by simpa using hy.2)
      · rw [List.mem_append, List.mem_filter, List.mem_range]
        constructor
        · rintro (h | h)
          · exact k3 i h
          · exact h.1
        · intro h
          by_cases hm : i ∈ order
          · exact .inl hm
          · exact .inr ⟨h, by simpa using hm⟩
    have hrest : rest.filterMap result = [] := by
      rw [List.filterMap_eq_nil_iff]
      intro i hm
      rw [List.mem_filter, List.mem_range] at hm
      have := k4 i
      rw [hc i hm.1] at this
      rcases this with h | h
      · exact absurd h (by simpa using hm.2)
      · exact h
    refine ⟨fun l => if l = List.range ds1.length then order ++ rest else l, fun l => ?_, ?_⟩
    · by_cases e : l = List.range ds1.length
      · simp only [e, if_true]; exact hperm
      · simp only [e, if_false]; exact .refl _
    · rw [findRawMatches_order dist big h1 h2 ratio hperm, List.filterMap_append, hrest, List.append_nil, k2]

/-- Call `i` runs from its beginning to its end while no other call is running. -/
theorem run_alone {A : Algo (List α) (List α)} {result : Nat → Option α} (hA : A.prog = appendProg result)
    {init : List α} {c : Conf (List α) (List α)} (r : Reach A init c) {i : Nat} (hi : i < A.n) (hw : c.tasks i = .waiting)
    (hn : ∀ j todo l, c.tasks j ≠ .running todo l) (ho : c.owner = none) :
    ∃ c', Reach A init c' ∧ c'.owner = none ∧ (∀ j, c'.tasks j = if j = i then .finished else c.tasks j) ∧
      c'.shared = c.shared ++ (result i).toList := by
  have r1 := r.tail (.start i hi hw (.inr fun j _ => hn j))
  have e0 : (c.put i (.running (A.prog i) A.loc)).tasks i = .running (A.prog i) A.loc := put_self _ _ _
  rcases hr : result i with _ | m
  · have e : A.prog i = [] := by rw [hA]; simp [appendProg, hr]
    rw [e] at e0
    have r2 := r1.tail (.finish i _ (by rw [e]; exact put_self _ _ _))
    refine ⟨_, r2, ho, fun j => ?_, by simp [Conf.put]⟩
    simp only [Conf.put]
    split <;> rfl
  · have e : A.prog i = [.lock, .act fun s _ => (s, s), .act fun _ l => (l ++ [m], l), .unlock] := by
      rw [hA]; simp [appendProg, hr]
    rw [e] at r1
    have r2 := r1.tail (.lock i _ _ (put_self _ _ _) ho)
    have r3 := r2.tail (.act i _ _ _ (put_self _ _ _))
    have r4 := r3.tail (.act i _ _ _ (put_self _ _ _))
    have r5 := r4.tail (.unlock i _ _ (put_self _ _ _) rfl)
    have r6 := r5.tail (.finish i _ (put_self _ _ _))
    refine ⟨_, r6, rfl, fun j => ?_, rfl⟩
    simp only [Conf.put]
    split <;> rfl

/-- Conversely the order of the matches is not determined: every order of the descriptors is that of some
execution. -/
theorem C178_matches_orders (policy : Policy) (thread : Nat → Nat)
    (dist : D → D → K) (big : K) (ds1 ds2 : List D) (h1 : ds1 ≠ []) (h2 : ds2 ≠ []) (ratio : K)
    (order : List Nat) (ho : order.Perm (List.range ds1.length)) :
    let A := matchAlgo policy thread dist big ds1 ds2 ratio
    ∃ c, Reach A [] c ∧ Complete A c ∧
      Match.findRawMatches (fun l => if l = List.range ds1.length then order else l) dist big ds1 ds2 ratio =
        .ok c.shared := by
  intro A
  have key : ∀ l : List Nat, l.Nodup → (∀ i ∈ l, i < ds1.length) → ∃ c, Reach A [] c ∧ c.owner = none ∧
      (∀ j, c.tasks j = if j ∈ l then .finished else .waiting) ∧
      c.shared = l.reverse.filterMap (matchOf dist big ds1 ds2 ratio) := by
    intro l
    induction l with
    | nil => exact fun _ _ => ⟨_, .refl, rfl, fun j => rfl, rfl⟩
    | cons i l ih =>
      intro hn hin
      obtain ⟨c, r, c1, c2, c3⟩ := ih (List.nodup_cons.1 hn).2 fun k hk => hin k (by simp [hk])
      have hil := (List.nodup_cons.1 hn).1
      obtain ⟨c', r', d1, d2, d3⟩ := run_alone (A := A) (result := matchOf dist big ds1 ds2 ratio) rfl r
        (hin i (by simp)) (by rw [c2, if_neg hil]) (fun j todo m => by rw [c2]; split <;> simp) c1
      refine ⟨c', r', d1, fun j => ?_, ?_⟩
      · rw [d2, c2]
        by_cases e : j = i
        · simp [e]
        · simp [e]
      · rw [d3, c3, List.reverse_cons, List.filterMap_append]
        rcases hm : matchOf dist big ds1 ds2 ratio i with _ | m <;> simp [hm]
  obtain ⟨c, r, -, c2, c3⟩ := key order.reverse (List.nodup_reverse.2 (ho.nodup_iff.2 List.nodup_range))
    (fun i hi => List.mem_range.1 (ho.mem_iff.1 (List.mem_reverse.1 hi)))
  refine ⟨c, r, fun i hi => ?_, ?_⟩
  · rw [c2, if_pos (List.mem_reverse.2 (ho.mem_iff.2 (List.mem_range.2 hi)))]
  · rw [findRawMatches_order dist big h1 h2 ratio ho, c3, List.reverse_reverse]

/-- Violation: with `unseq` or `par_unseq` and two descriptors on one thread that both have a match there is a
schedule with undefined behaviour. -/
theorem C178_matches_violation (policy : Policy) (hp : policy = .unseq ∨ policy = .parUnseq) (thread : Nat → Nat)
    (dist : D → D → K) (big : K) (ds1 ds2 : List D) (ratio : K) (out : List (Nat × Nat))
    (hout : Match.findRawMatches id dist big ds1 ds2 ratio = .ok out) (i j k k' : Nat) (hij : i ≠ j)
    (hi : (i, k) ∈ out) (hj : (j, k') ∈ out) (ht : thread i = thread j) :
    ¬ Safe (matchAlgo policy thread dist big ds1 ds2 ratio) [] := by
  intro hs
  have hv : policy.interleaves = true := by rcases hp with h | h <;> rw [h] <;> rfl
  have h12 : ds1 ≠ [] ∧ ds2 ≠ [] := by
    constructor <;> rintro rfl <;> simp [Match.findRawMatches] at hout <;> subst hout <;> simp at hi
  have e := findRawMatches_order dist big h12.1 h12.2 ratio (List.Perm.refl (List.range ds1.length))
  have eid : (fun l => if l = List.range ds1.length then List.range ds1.length else l) = (id : List Nat → List Nat) := by
    funext l
    by_cases e : l = List.range ds1.length <;> simp [e]
  rw [eid, hout] at e
  injection e with e
  subst e
  have key : ∀ {a b : Nat}, (a, b) ∈ (List.range ds1.length).filterMap (matchOf dist big ds1 ds2 ratio) →
      a < ds1.length ∧ matchOf dist big ds1 ds2 ratio a = some (a, b) := by
    intro a b hm
    obtain ⟨x, hx, e⟩ := List.mem_filterMap.1 hm
    have hxa : x = a := by
      unfold matchOf at e
      split at e
      · cases e
      · split at e
        · split at e
          · injection e with e; exact congrArg Prod.fst e
          · cases e
        · cases e
    subst hxa
    exact ⟨List.mem_range.1 hx, e⟩
  obtain ⟨li, ei⟩ := key hi
  obtain ⟨lj, ej⟩ := key hj
  have pi : appendProg (matchOf dist big ds1 ds2 ratio) i =
      [.lock, .act fun s _ => (s, s), .act fun _ l => (l ++ [(i, k)], l), .unlock] := by simp [appendProg, ei]
  have pj : appendProg (matchOf dist big ds1 ds2 ratio) j =
      [.lock, .act fun s _ => (s, s), .act fun _ l => (l ++ [(j, k')], l), .unlock] := by simp [appendProg, ej]
  have r1 : Reach (matchAlgo policy thread dist big ds1 ds2 ratio) [] _ := .single (.start i li rfl (.inl hv))
  have r2 := r1.tail (.lock i _ _ ((put_self _ _ _).trans (congrArg (Task.running · _) pi)) rfl)
  have r3 := r2.tail (.start j lj (by
    show (if j = i then _ else if j = i then _ else Task.waiting) = _
    rw [if_neg hij.symm, if_neg hij.symm]) (.inl hv))
  exact hs _ r3 (.lockAgain j _ _ ((put_self _ _ _).trans (congrArg (Task.running · _) pj)) (congrArg some ht))

example := C178_matches_partial .par (by decide) (fun i => i % 2) (fun a b : ℚ => |a - b|) 1000 [1, 5, 9] [9, 2, 4]
  (by simp) (by simp) (4 / 5)

example := C178_matches_orders .par (fun i => i % 2) (fun a b : ℚ => |a - b|) 1000 [1, 5, 9] [9, 2, 4]
  (by simp) (by simp) (4 / 5) [2, 0, 1] (by decide)

example : ¬ Safe (matchAlgo .parUnseq (fun _ => 0) (fun a b : ℚ => |a - b|) 1000 [1, 9] [9, 2] (4 / 5)) [] :=
  C178_matches_violation .parUnseq (by decide) _ _ _ _ _ _ [(0, 1), (1, 0)] (by decide +kernel) 0 1 1 0 (by decide)
    (by decide) (by decide) rfl

end

end TinyDIP.Props
