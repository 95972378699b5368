import Verif.Lemmas.Session
import Verif.Lemmas.TransformContainer

/-!
# transform_container in sessions (lemmas)
-/

namespace TinyDIP.Props

open TinyDIP TinyDIP.Cli

variable {F P : Type}

section Chain

variable (reg : Registry (World P F)) (args : List Str) (S : World P F → World P F → Prop)

/-- What `transform_container` does to the state one step at a time. -/
structure Small : Prop where
  refl : ∀ w, S w w
  trans : ∀ a b c, S a b → S b c → S a c
  putIn : ∀ w i x, S w { w with ws := w.ws.put (tcIn i) x }
  delIn : ∀ w i, S w { w with ws := (w.ws.remove (tcIn i)).1 }
  delOut : ∀ w i, S w { w with ws := (w.ws.remove (tcOut i)).1 }
  store : ∀ w a x, a ∈ args → a ≠ [] → S w { w with ws := w.ws.put (varName a) x }
  run : ∀ w cmd as, (∀ a ∈ as, a ∈ args ∨ ∃ i, a = '$' :: tcIn i ∨ a = '$' :: tcOut i) → S w (reg.execute w cmd as).1

variable {reg args S}

theorem tcArgs_words {sub : List Str} (hsub : ∀ a ∈ sub, a ∈ args) (i : Nat) :
    ∀ a ∈ tcArgs (lastPolicy args) sub i, a ∈ args ∨ ∃ i, a = '$' :: tcIn i ∨ a = '$' :: tcOut i := by
  intro a ha
  unfold tcArgs at ha
  simp only [List.mem_append, List.mem_cons, List.not_mem_nil, or_false] at ha
  rcases ha with (ha | ha | ha) | ha
  · left
    split at ha
    · cases ha
    · rename_i hne
      rw [List.mem_singleton] at ha
      unfold lastPolicy at ha hne
      cases hl : (args.filter isPolicy).getLast? with
      | none => rw [hl] at hne; exact absurd rfl hne
      | some p =>
        rw [hl] at ha
        have hm := List.mem_of_getLast? hl
        rw [show a = p from ha]
        exact (List.mem_filter.1 hm).1
  · exact Or.inr ⟨i, .inl ha⟩
  · exact Or.inr ⟨i, .inr ha⟩
  · exact Or.inl (hsub a ha)

theorem tcDefault_small (h : Small reg args S) (cmd : Str) {sub : List Str} (hsub : ∀ a ∈ sub, a ∈ args)
    (xs : List (Val P)) : ∀ (i : Nat) (w : World P F) (acc : List (Val P)),
      S w (tcDefault reg cmd (lastPolicy args) sub xs i w acc).1 := by
  induction xs with
  | nil => exact fun i w acc => h.refl w
  | cons x xs ih =>
    intro i w acc
    have h1 := h.putIn w i x
    have h2 := h.trans _ _ _ h1 (h.run { w with ws := w.ws.put (tcIn i) x } cmd _ (tcArgs_words hsub i))
    unfold tcDefault
    simp only
    revert h2
    generalize reg.execute { w with ws := w.ws.put (tcIn i) x } cmd (tcArgs (lastPolicy args) sub i) = r
    obtain ⟨w2, c⟩ := r
    intro h2
    have key : S w (match w2.ws.retrieveAny (tcOut i) with
        | none => (w2, TcRes.threw)
        | some r =>
          let w3 : World P F := { w2 with ws := (w2.ws.remove (tcIn i)).1 }
          let w4 : World P F := { w3 with ws := (w3.ws.remove (tcOut i)).1 }
          tcDefault reg cmd (lastPolicy args) sub xs (i + 1) w4 (acc ++ [r])).1 := by
      split
      · exact h2
      · exact h.trans _ _ _ h2 (h.trans _ _ _ (h.delIn _ i) (h.trans _ _ _ (h.delOut _ i) (ih _ _ _)))
    cases c <;> first | exact h2 | exact key

theorem tcParallel_small (h : Small reg args S) (cmd : Str) {sub : List Str} (hsub : ∀ a ∈ sub, a ∈ args)
    (elems : List (Val P)) (sched : List Nat) (w : World P F) :
    S w (tcParallel reg cmd (lastPolicy args) sub elems sched w).1 := by
  have step : ∀ s i, S s.world (tcStep reg cmd (lastPolicy args) sub elems s i).world := by
    intro s i
    unfold tcStep
    split
    · exact h.refl _
    split
    · exact h.refl _
    simp only
    split
    · exact h.putIn _ _ _
    · have := h.run s.world cmd _ (tcArgs_words hsub i)
      split
      · rename_i hr; rw [hr] at this; exact this
      · rename_i hr; rw [hr] at this; exact this
    · split <;> exact h.refl _
    · exact h.delIn _ _
    · exact h.delOut _ _
    · exact h.refl _
  have all : ∀ (sched : List Nat) (s : TcState P F), S w s.world →
      S w (sched.foldl (tcStep reg cmd (lastPolicy args) sub elems) s).world := by
    intro sched
    induction sched with
    | nil => exact fun s hs => hs
    | cons i is ih => exact fun s hs => ih _ (h.trans _ _ _ hs (step s i))
  have := all sched ⟨w, fun _ => 0, fun _ => none, false⟩ (h.refl w)
  unfold tcParallel
  simp only
  split <;> exact this

theorem tcStore_small (h : Small reg args S) {out : Str} (ho : out ∈ args) (w : World P F) (rs : List (Val P)) :
    S w (tcStore w out rs).1 := by
  unfold tcStore
  split
  · exact h.refl _
  · split
    · split
      · exact h.refl _
      · rename_i hne
        split
        · exact h.store _ _ _ ho hne
        · exact h.refl _
    · exact h.refl _

theorem transformContainer_small (h : Small reg args S) (io : FileIO P F) (sched : List Nat) (w : World P F) :
    S w (transformContainer io reg sched w args).1 := by
  have hsubset : ∀ a ∈ argsFilter args, a ∈ args := fun a ha => by
    rw [argsFilter_eq] at ha
    exact (List.mem_filter.1 ha).1
  unfold transformContainer
  simp only
  split
  · rename_i inArg out cmd sub he
    rw [he] at hsubset
    have ho : out ∈ args := hsubset _ (by simp)
    have hsub : ∀ a ∈ sub, a ∈ args := fun a ha => hsubset a (by simp [ha])
    split
    · exact h.refl _
    · exact h.refl _
    · exact h.refl _
    · rename_i k e items _
      split
      · exact h.refl _
      split
      · split
        · exact h.refl _
        · rename_i hne
          exact h.store _ _ _ ho hne
      · have hd : ∀ a b : World P F × TcRes P, S w a.1 → S w b.1 →
            S w (dispatchPolicy (lastPolicy args) (fun _ => a) b).1 := by
          intro a b ha hb
          unfold dispatchPolicy
          split_ifs <;> assumption
        have hr := hd _ _ (tcParallel_small h cmd hsub (items.map (elementStored .vector e)) sched w)
          (tcDefault_small h cmd hsub (items.map (elementStored k e)) 0 w [])
        split
        · rename_i hq; rw [hq] at hr; exact hr
        · rename_i hq; rw [hq] at hr; exact hr
        · rename_i hq; rw [hq] at hr; exact h.trans _ _ _ hr (tcStore_small h ho _ _)
  · exact h.refl _

end Chain

/-- The relation on the states with a mark. -/
def Under (S : World P F → World P F → Prop) (w w' : World P (F × Bool)) : Prop :=
  S ⟨w.ws, w.fs.1⟩ ⟨w'.ws, w'.fs.1⟩

theorem marked_execute {R : Str → Prop} {S : World P F → World P F → Prop} (hrefl : ∀ w, S w w)
    {reg : Registry (Option (World P F))}
    (hreg : ∀ name info, reg.lookup name = some info → Respects R S info.handler) (w : World P (F × Bool)) (cmd : Str)
    (as : List Str) (ha : ∀ a ∈ as, R a) :
    Under S w (Registry.execute (reg.map fun e => (e.1, ⟨e.2.schema, marked e.2.handler⟩)) w cmd as).1 := by
  have hl : Registry.lookup (reg.map fun e => (e.1, (⟨e.2.schema, marked e.2.handler⟩ : CmdInfo (World P (F × Bool))))) cmd =
      (reg.lookup cmd).map fun i => ⟨i.schema, marked i.handler⟩ := by
    unfold Registry.lookup
    rw [List.find?_map]
    simp only [Option.map_map]
    rfl
  unfold Registry.execute
  rw [hl]
  cases he : reg.lookup cmd with
  | none => exact hrefl _
  | some info =>
    have hm : Under S w (marked info.handler w as).1 := by
      unfold marked
      split
      · rename_i hq
        exact (hreg cmd info he).2 _ _ _ _ hq ha
      · exact hrefl _
    simp only [Option.map_some]
    split <;> (rename_i hq; rw [hq] at hm; exact hm)

theorem containerCmd_respects {R : Str → Prop} {S : World P F → World P F → Prop} (hrefl : ∀ w, S w w)
    (htrans : ∀ a b c, S a b → S b c → S a c) {reg : Registry (Option (World P F))}
    (hreg : ∀ name info, reg.lookup name = some info → Respects R S info.handler) (io : FileIO P F) (sched : List Nat)
    (hin : ∀ i, R ('$' :: tcIn i)) (hout : ∀ i, R ('$' :: tcOut i))
    (putIn : ∀ w i x, S w { w with ws := w.ws.put (tcIn i) x })
    (delIn : ∀ w i, S w { w with ws := (w.ws.remove (tcIn i)).1 })
    (delOut : ∀ w i, S w { w with ws := (w.ws.remove (tcOut i)).1 })
    (store : ∀ w a x, R a → a ≠ [] → S w { w with ws := w.ws.put (varName a) x }) :
    Respects R S (containerCmd io reg sched) := by
  refine ⟨fun _ => rfl, fun w args w' c e ha => ?_⟩
  have hs : Small (reg.map fun e => (e.1, ⟨e.2.schema, marked e.2.handler⟩)) args (Under (F := F) S) := by
    refine ⟨fun w => hrefl _, fun a b c => htrans _ _ _, fun w i x => putIn _ i x, fun w i => delIn _ i, fun w i => delOut _ i,
      fun w a x h1 h2 => store _ a x (ha a h1) h2, fun w cmd as has => marked_execute hrefl hreg w cmd as ?_⟩
    intro a hm
    rcases has a hm with h1 | ⟨i, rfl | rfl⟩
    · exact ha a h1
    · exact hin i
    · exact hout i
  have := transformContainer_small hs (markedIO io) sched ⟨w.ws, (w.fs, false)⟩
  unfold containerCmd at e
  simp only at e
  revert this e
  generalize transformContainer (markedIO io) (reg.map fun e => (e.1, ⟨e.2.schema, marked e.2.handler⟩)) sched
    ⟨w.ws, (w.fs, false)⟩ args = r
  obtain ⟨v, c'⟩ := r
  intro h2 h1
  simp only at h2
  split at h2
  · cases h2
  · simp only [Prod.mk.injEq, Option.some.injEq] at h2
    rw [← h2.1]
    exact h1

theorem lookup_register {σ : Type} {reg : Registry σ} {name n : Str} {i info : CmdInfo σ}
    (h : (reg.register name i).lookup n = some info) : reg.lookup n = some info ∨ info = i := by
  unfold Registry.register at h
  split at h
  · exact Or.inl h
  · unfold Registry.lookup at h ⊢
    rw [List.find?_append] at h
    cases hf : reg.find? fun p => p.1 == n with
    | some p => rw [hf] at h; exact Or.inl h
    | none =>
      rw [hf] at h
      right
      simp only [Option.none_or, List.find?_cons, List.find?_nil] at h
      split at h
      · simpa using h.symm
      · simp at h

/-- With `transform_container` at any level. -/
theorem withContainers_respects {R : Str → Prop} {S : World P F → World P F → Prop} (hrefl : ∀ w, S w w)
    (htrans : ∀ a b c, S a b → S b c → S a c) {base : Registry (Option (World P F))}
    (hbase : ∀ name info, base.lookup name = some info → Respects R S info.handler) (io : FileIO P F) (sched : List Nat)
    (hin : ∀ i, R ('$' :: tcIn i)) (hout : ∀ i, R ('$' :: tcOut i))
    (putIn : ∀ w i x, S w { w with ws := w.ws.put (tcIn i) x })
    (delIn : ∀ w i, S w { w with ws := (w.ws.remove (tcIn i)).1 })
    (delOut : ∀ w i, S w { w with ws := (w.ws.remove (tcOut i)).1 })
    (store : ∀ w a x, R a → a ≠ [] → S w { w with ws := w.ws.put (varName a) x }) (n : Nat) :
    ∀ name info, (withContainers io sched base n).lookup name = some info → Respects R S info.handler := by
  induction n with
  | zero => exact hbase
  | succ n ih =>
    intro name info h
    rcases lookup_register h with h | rfl
    · exact hbase name info h
    · exact containerCmd_respects hrefl htrans ih io sched hin hout putIn delIn delOut store

end TinyDIP.Props
