import Verif.Lemmas.CliNum
import Mathlib.Tactic.ByContra
import Mathlib.Data.List.Count
import Mathlib.Data.List.Range
import Mathlib.Data.List.GetD

namespace TinyDIP.Cli

variable {P F : Type}

/-- The policy words handed to the element command. -/
def polWords (policy : Str) : List Str := if policy = [] then [] else [policy]

theorem tcArgs_eq (policy : Str) (sub : List Str) (i : Nat) :
    tcArgs policy sub i = polWords policy ++ ['$' :: tcIn i, '$' :: tcOut i] ++ sub := rfl

theorem sanitize_tcIn (i : Nat) : sanitize (tcIn i) = tcIn i :=
  sanitize_prefix_toStr _ i (by simp) (by simp [Junk])

theorem sanitize_tcOut (i : Nat) : sanitize (tcOut i) = tcOut i :=
  sanitize_prefix_toStr _ i (by simp) (by simp [Junk])

theorem tcIn_inj {i j : Nat} : tcIn i = tcIn j ↔ i = j := by
  constructor
  · intro h; exact toStr_inj (List.append_cancel_left h)
  · rintro rfl; rfl

theorem tcOut_inj {i j : Nat} : tcOut i = tcOut j ↔ i = j := by
  constructor
  · intro h; exact toStr_inj (List.append_cancel_left h)
  · rintro rfl; rfl

theorem tcIn_ne_tcOut (i j : Nat) : tcIn i ≠ tcOut j := by
  intro h; simp [tcIn, tcOut] at h

theorem NoTemps.temps {w : World P F} (h : NoTemps w) (i : Nat) :
    w.ws.retrieveAny (tcIn i) = none ∧ w.ws.retrieveAny (tcOut i) = none := by
  have e1 : "__tc_in_".toList ++ Nat.toDigits 10 i = tcIn i := by
    have : "__tc_in_".toList = ['_', '_', 't', 'c', '_', 'i', 'n', '_'] := by decide
    rw [this]; rfl
  have e2 : "__tc_out_".toList ++ Nat.toDigits 10 i = tcOut i := by
    have : "__tc_out_".toList = ['_', '_', 't', 'c', '_', 'o', 'u', 't', '_'] := by decide
    rw [this]; rfl
  have := h i
  rwa [e1, e2] at this

/-- Same files and same variables. -/
def SameWorld (w w' : World P F) : Prop := w'.fs = w.fs ∧ ∀ k, w'.ws.find k = w.ws.find k

theorem tcDefault_ok (reg : Registry (World P F)) (cmd policy : Str) (sub : List Str)
    (f : Val P → Option (Val P)) (hp : ActsAs reg cmd (polWords policy) sub f) (xs rs : List (Val P))
    (hf : xs.map f = rs.map some) (i : Nat) (w : World P F) (acc : List (Val P)) (hn : NoTemps w) :
    ∃ w', tcDefault reg cmd policy sub xs i w acc = (w', .done (acc ++ rs)) ∧ SameWorld w w' := by
  induction xs generalizing rs i w acc with
  | nil =>
    cases rs with
    | nil => exact ⟨w, by simp [tcDefault], rfl, fun _ => rfl⟩
    | cons r rs => simp at hf
  | cons x xs ih =>
    cases rs with
    | nil => simp at hf
    | cons r rs =>
      simp only [List.map_cons, List.cons.injEq] at hf
      obtain ⟨rep, hrep, hex⟩ := hp { w with ws := w.ws.put (tcIn i) x } (tcIn i) (tcOut i) x
        (by simp [Workspace.retrieveAny_put])
      rw [hf.1, ← tcArgs_eq] at hex
      let w2 : World P F := { w with ws := (w.ws.put (tcIn i) x).put (tcOut i) r }
      let w4 : World P F := { w2 with ws := ((w2.ws.remove (tcIn i)).1.remove (tcOut i)).1 }
      have hsame : SameWorld w w4 := by
        refine ⟨rfl, fun k => ?_⟩
        show Workspace.find (Workspace.remove _ _).1 k = _
        rw [Workspace.find_remove, Workspace.find_remove]
        show (if _ then _ else if _ then _ else ((w.ws.put (tcIn i) x).put (tcOut i) r).find k) = _
        rw [Workspace.find_put, Workspace.find_put]
        have h := hn.temps i
        unfold Workspace.retrieveAny at h
        by_cases h1 : k = sanitize (tcOut i)
        · simp [h1, h.2]
        · by_cases h2 : k = sanitize (tcIn i)
          · subst h2; simp [h1, h.1]
          · simp [h1, h2]
      have hn4 : NoTemps w4 := fun j => by
        unfold Workspace.retrieveAny
        rw [hsame.2, hsame.2]; exact hn j
      obtain ⟨w', hw', hs'⟩ := ih rs hf.2 (i + 1) w4 (acc ++ [r]) hn4
      refine ⟨w', ?_, hs'.1.trans hsame.1, fun k => (hs'.2 k).trans (hsame.2 k)⟩
      have hret : w2.ws.retrieveAny (tcOut i) = some r := by
        show ((w.ws.put (tcIn i) x).put (tcOut i) r).retrieveAny (tcOut i) = _
        simp [Workspace.retrieveAny_put]
      rw [List.append_assoc] at hw'
      rw [tcDefault]
      simp only [hex]
      cases rep with
      | terminated => exact absurd rfl hrep
      | _ =>
        show (match w2.ws.retrieveAny (tcOut i) with
          | none => (w2, TcRes.threw)
          | some r => _) = _
        rw [hret]
        exact hw'

/-- Invariant of the parallel run. -/
structure Inv (w0 : World P F) (xs rs : List (Val P)) (s : TcState P F) : Prop where
  alive : s.dead = false
  fs : s.world.fs = w0.fs
  pcLe : ∀ i, s.pc i ≤ 5
  inVar : ∀ i, s.world.ws.find (tcIn i) = if 1 ≤ s.pc i ∧ s.pc i ≤ 3 then xs[i]? else none
  outVar : ∀ i, s.world.ws.find (tcOut i) = if 2 ≤ s.pc i ∧ s.pc i ≤ 4 then rs[i]? else none
  res : ∀ i, s.results i = if 3 ≤ s.pc i then rs[i]? else none
  other : ∀ k, (∀ i, k ≠ tcIn i ∧ k ≠ tcOut i) → s.world.ws.find k = w0.ws.find k
  idle : ∀ i, xs.length ≤ i → s.pc i = 0

theorem inv_step (reg : Registry (World P F)) (cmd policy : Str) (sub : List Str)
    (f : Val P → Option (Val P)) (hp : ActsAs reg cmd (polWords policy) sub f) (xs rs : List (Val P))
    (hf : xs.map f = rs.map some) (w0 : World P F) (s : TcState P F) (hi : Inv w0 xs rs s) (i : Nat) :
    Inv w0 xs rs (tcStep reg cmd policy sub xs s i) ∧
      ∀ j, (tcStep reg cmd policy sub xs s i).pc j =
        if j = i ∧ i < xs.length then min 5 (s.pc j + 1) else s.pc j := by
  have hlen : xs.length = rs.length := by
    have := congrArg List.length hf; simpa using this
  unfold tcStep
  rw [hi.alive]
  simp only [Bool.false_eq_true, if_false]
  cases hx : xs[i]? with
  | none =>
    have : ¬ i < xs.length := by simpa using hx
    exact ⟨hi, fun j => by simp [this]⟩
  | some x =>
    have hil : i < xs.length := by
      rw [List.getElem?_eq_some_iff] at hx; exact hx.1
    obtain ⟨r, hr⟩ : ∃ r, rs[i]? = some r := ⟨_, List.getElem?_eq_getElem (hlen ▸ hil)⟩
    have hfx : f x = some r := by
      have := congrArg (fun l => l[i]?) hf
      simpa [List.getElem?_map, hx, hr] using this
    have hpcle := hi.pcLe i
    have hres := hi.res
    -- the new program counters
    have hnext : ∀ j, (if j = i then s.pc i + 1 else s.pc j) =
        if j = i then s.pc j + 1 else s.pc j := by
      intro j; by_cases h : j = i <;> simp [h]
    rcases (show s.pc i = 0 ∨ s.pc i = 1 ∨ s.pc i = 2 ∨ s.pc i = 3 ∨ s.pc i = 4 ∨ s.pc i = 5 by omega)
      with h | h | h | h | h | h
    · simp only [h]
      refine ⟨⟨rfl, hi.fs, ?_, ?_, ?_, ?_, ?_, ?_⟩, ?_⟩
      · intro j; by_cases hj : j = i <;> simp [hj, hi.pcLe]
      · intro j
        show (s.world.ws.put _ _).find _ = _
        rw [Workspace.find_put, sanitize_tcIn]
        simp only [tcIn_inj]
        by_cases hj : j = i
        · subst hj; simp [hx]
        · simp only [hj, if_false]; exact hi.inVar j
      · intro j
        show (s.world.ws.put _ _).find _ = _
        rw [Workspace.find_put, sanitize_tcIn, if_neg (tcIn_ne_tcOut i j).symm]
        by_cases hj : j = i
        · subst hj; rw [hi.outVar, h]; simp
        · simp only [hj, if_false]; exact hi.outVar j
      · intro j
        by_cases hj : j = i
        · subst hj; rw [hres, h]; simp
        · simp only [hj, if_false]; exact hres j
      · intro k hk
        show (s.world.ws.put _ _).find _ = _
        rw [Workspace.find_put, sanitize_tcIn, if_neg (hk i).1]
        exact hi.other k hk
      · intro j hj
        have : j ≠ i := by omega
        simp [this, hi.idle j hj]
      · intro j
        by_cases hj : j = i
        · subst hj; simp [hil, h]
        · simp [hj]
    · have hin : s.world.ws.retrieveAny (tcIn i) = some x := by
        unfold Workspace.retrieveAny
        rw [sanitize_tcIn, hi.inVar, h, hx]; simp
      obtain ⟨rep, hrep, hex⟩ := hp s.world (tcIn i) (tcOut i) x hin
      rw [hfx, ← tcArgs_eq] at hex
      simp only [h, hex]
      have key : Inv w0 xs rs { s with
          world := { s.world with ws := s.world.ws.put (tcOut i) r },
          pc := fun j => if j = i then 1 + 1 else s.pc j, dead := false } ∧
          ∀ j, (if j = i then 1 + 1 else s.pc j) =
            if j = i ∧ i < xs.length then min 5 (s.pc j + 1) else s.pc j := by
        refine ⟨⟨rfl, hi.fs, ?_, ?_, ?_, ?_, ?_, ?_⟩, ?_⟩
        · intro j; by_cases hj : j = i <;> simp [hj, hi.pcLe]
        · intro j
          show (s.world.ws.put _ _).find _ = _
          rw [Workspace.find_put, sanitize_tcOut, if_neg (tcIn_ne_tcOut j i)]
          by_cases hj : j = i
          · subst hj; rw [hi.inVar, h]; simp
          · simp only [hj, if_false]; exact hi.inVar j
        · intro j
          show (s.world.ws.put _ _).find _ = _
          rw [Workspace.find_put, sanitize_tcOut]
          simp only [tcOut_inj]
          by_cases hj : j = i
          · subst hj; simp [hr]
          · simp only [hj, if_false]; exact hi.outVar j
        · intro j
          by_cases hj : j = i
          · subst hj; rw [hres, h]; simp
          · simp only [hj, if_false]; exact hres j
        · intro k hk
          show (s.world.ws.put _ _).find _ = _
          rw [Workspace.find_put, sanitize_tcOut, if_neg (hk i).2]
          exact hi.other k hk
        · intro j hj
          have : j ≠ i := by omega
          simp [this, hi.idle j hj]
        · intro j
          by_cases hj : j = i
          · subst hj; simp [hil, h]
          · simp [hj]
      have hal := hi.alive
      cases rep with
      | terminated => exact absurd rfl hrep
      | _ => exact key
    · have hout : s.world.ws.retrieveAny (tcOut i) = some r := by
        unfold Workspace.retrieveAny
        rw [sanitize_tcOut, hi.outVar, h, hr]; simp
      simp only [h, hout]
      refine ⟨⟨rfl, hi.fs, ?_, ?_, ?_, ?_, hi.other, ?_⟩, ?_⟩
      · intro j; by_cases hj : j = i <;> simp [hj, hi.pcLe]
      · intro j
        by_cases hj : j = i
        · subst hj; rw [hi.inVar, h]; simp
        · simp only [hj, if_false]; exact hi.inVar j
      · intro j
        by_cases hj : j = i
        · subst hj; rw [hi.outVar, h]; simp
        · simp only [hj, if_false]; exact hi.outVar j
      · intro j
        by_cases hj : j = i
        · subst hj; simp [hr]
        · simp only [hj, if_false]; exact hres j
      · intro j hj
        have : j ≠ i := by omega
        simp [this, hi.idle j hj]
      · intro j
        by_cases hj : j = i
        · subst hj; simp [hil, h]
        · simp [hj]
    · simp only [h]
      refine ⟨⟨rfl, hi.fs, ?_, ?_, ?_, ?_, ?_, ?_⟩, ?_⟩
      · intro j; by_cases hj : j = i <;> simp [hj, hi.pcLe]
      · intro j
        show (s.world.ws.remove _).1.find _ = _
        rw [Workspace.find_remove, sanitize_tcIn]
        simp only [tcIn_inj]
        by_cases hj : j = i
        · subst hj; simp
        · simp only [hj, if_false]; exact hi.inVar j
      · intro j
        show (s.world.ws.remove _).1.find _ = _
        rw [Workspace.find_remove, sanitize_tcIn, if_neg (tcIn_ne_tcOut i j).symm]
        by_cases hj : j = i
        · subst hj; rw [hi.outVar, h]; simp
        · simp only [hj, if_false]; exact hi.outVar j
      · intro j
        by_cases hj : j = i
        · subst hj; rw [hres, h]; simp
        · simp only [hj, if_false]; exact hres j
      · intro k hk
        show (s.world.ws.remove _).1.find _ = _
        rw [Workspace.find_remove, sanitize_tcIn, if_neg (hk i).1]
        exact hi.other k hk
      · intro j hj
        have : j ≠ i := by omega
        simp [this, hi.idle j hj]
      · intro j
        by_cases hj : j = i
        · subst hj; simp [hil, h]
        · simp [hj]
    · simp only [h]
      refine ⟨⟨rfl, hi.fs, ?_, ?_, ?_, ?_, ?_, ?_⟩, ?_⟩
      · intro j; by_cases hj : j = i <;> simp [hj, hi.pcLe]
      · intro j
        show (s.world.ws.remove _).1.find _ = _
        rw [Workspace.find_remove, sanitize_tcOut, if_neg (tcIn_ne_tcOut j i)]
        by_cases hj : j = i
        · subst hj; rw [hi.inVar, h]; simp
        · simp only [hj, if_false]; exact hi.inVar j
      · intro j
        show (s.world.ws.remove _).1.find _ = _
        rw [Workspace.find_remove, sanitize_tcOut]
        simp only [tcOut_inj]
        by_cases hj : j = i
        · subst hj; simp
        · simp only [hj, if_false]; exact hi.outVar j
      · intro j
        by_cases hj : j = i
        · subst hj; rw [hres, h]; simp
        · simp only [hj, if_false]; exact hres j
      · intro k hk
        show (s.world.ws.remove _).1.find _ = _
        rw [Workspace.find_remove, sanitize_tcOut, if_neg (hk i).2]
        exact hi.other k hk
      · intro j hj
        have : j ≠ i := by omega
        simp [this, hi.idle j hj]
      · intro j
        by_cases hj : j = i
        · subst hj; simp [hil, h]
        · simp [hj]
    · simp only [h]
      refine ⟨hi, fun j => ?_⟩
      by_cases hj : j = i
      · subst hj; simp [hil, h]
      · simp [hj]

theorem inv_run (reg : Registry (World P F)) (cmd policy : Str) (sub : List Str)
    (f : Val P → Option (Val P)) (hp : ActsAs reg cmd (polWords policy) sub f) (xs rs : List (Val P))
    (hf : xs.map f = rs.map some) (w0 : World P F) (sched : List Nat) (s : TcState P F)
    (hi : Inv w0 xs rs s) :
    Inv w0 xs rs (sched.foldl (tcStep reg cmd policy sub xs) s) ∧
      ∀ j < xs.length, (sched.foldl (tcStep reg cmd policy sub xs) s).pc j =
        min 5 (s.pc j + sched.count j) := by
  induction sched generalizing s with
  | nil => exact ⟨hi, fun j _ => by simp [Nat.min_eq_right (hi.pcLe j)]⟩
  | cons i sched ih =>
    obtain ⟨h1, h2⟩ := inv_step reg cmd policy sub f hp xs rs hf w0 s hi i
    obtain ⟨h3, h4⟩ := ih _ h1
    refine ⟨h3, fun j hj => ?_⟩
    rw [List.foldl_cons, h4 j hj, h2 j, List.count_cons]
    by_cases hij : j = i
    · subst hij; simp [hj]; omega
    · simp [hij, Ne.symm hij]

/-- Every schedule in which every element makes its five steps. -/
theorem tcParallel_ok (reg : Registry (World P F)) (cmd policy : Str) (sub : List Str)
    (f : Val P → Option (Val P)) (hp : ActsAs reg cmd (polWords policy) sub f) (xs rs : List (Val P))
    (hf : xs.map f = rs.map some) (w : World P F) (hn : NoTemps w) (sched : List Nat)
    (hs : ∀ i < xs.length, 5 ≤ sched.count i) :
    ∃ w', tcParallel reg cmd policy sub xs sched w = (w', .done rs) ∧ SameWorld w w' := by
  have hlen : xs.length = rs.length := by
    have := congrArg List.length hf; simpa using this
  have h0 : Inv w xs rs ⟨w, fun _ => 0, fun _ => none, false⟩ := by
    refine ⟨rfl, rfl, fun _ => by simp, fun i => ?_, fun i => ?_, fun i => by simp,
      fun _ _ => rfl, fun _ _ => rfl⟩
    · have := (hn.temps i).1
      unfold Workspace.retrieveAny at this; rw [sanitize_tcIn] at this; simpa using this
    · have := (hn.temps i).2
      unfold Workspace.retrieveAny at this; rw [sanitize_tcOut] at this; simpa using this
  obtain ⟨hi, hpc⟩ := inv_run reg cmd policy sub f hp xs rs hf w sched _ h0
  unfold tcParallel
  simp only [hi.alive, Bool.false_eq_true, if_false]
  generalize hsd : sched.foldl (tcStep reg cmd policy sub xs) ⟨w, fun _ => 0, fun _ => none, false⟩ = s
    at hi hpc
  have h5 : ∀ j < xs.length, s.pc j = 5 := fun j hj => by
    rw [hpc j hj]; have := hs j hj; simp; omega
  refine ⟨s.world, ?_, hi.fs, fun k => ?_⟩
  · refine congrArg (fun l => (s.world, TcRes.done l)) ?_
    have : ∀ j ∈ List.range xs.length, s.results j = rs[j]? := fun j hj => by
      rw [hi.res, h5 j (List.mem_range.1 hj)]; simp
    rw [List.filterMap_congr this, hlen]
    apply List.ext_getElem?
    intro n
    have e : (List.range rs.length).filterMap (fun j => rs[j]?) = rs := by
      clear this hn h0 hi hpc h5 hs hf hlen hsd
      induction rs using List.reverseRecOn with
      | nil => rfl
      | append_singleton l a ih =>
        rw [List.length_append, List.length_singleton, List.range_succ, List.filterMap_append]
        have h1 : (List.range l.length).filterMap (fun j => (l ++ [a])[j]?) =
            (List.range l.length).filterMap (fun j => l[j]?) := by
          apply List.filterMap_congr
          intro j hj
          rw [List.getElem?_append_left (List.mem_range.1 hj)]
        rw [h1, ih]; simp
    rw [e]
  · by_cases h : ∀ i, k ≠ tcIn i ∧ k ≠ tcOut i
    · exact hi.other k h
    · have hz : ∀ i, s.pc i = 0 ∨ s.pc i = 5 := fun i => by
        by_cases hl : i < xs.length
        · exact Or.inr (h5 i hl)
        · exact Or.inl (hi.idle i (by omega))
      have : ∃ i, k = tcIn i ∨ k = tcOut i := by
        by_contra hc
        apply h
        intro i
        constructor
        · intro he; exact hc ⟨i, Or.inl he⟩
        · intro he; exact hc ⟨i, Or.inr he⟩
      obtain ⟨i, rfl | rfl⟩ := this
      · rw [hi.inVar]
        have := (hn.temps i).1
        unfold Workspace.retrieveAny at this; rw [sanitize_tcIn] at this; rw [this]
        rcases hz i with h | h <;> simp [h]
      · rw [hi.outVar]
        have := (hn.temps i).2
        unfold Workspace.retrieveAny at this; rw [sanitize_tcOut] at this; rw [this]
        rcases hz i with h | h <;> simp [h]

end TinyDIP.Cli
