import Verif.Lemmas.Cli
import Verif.Model.Repl

/-!
# Properties C60, C61, C68, C69, C71: workspace, command execution, policy words, element commands
-/

namespace TinyDIP.Props

open TinyDIP.Cli

/-! ## C60 the workspace is a map keyed by sanitised names -/

/-- Operations of a workspace history. -/
inductive WsOp (V : Type)
  | store (name : Str) (v : V)
  | remove (name : Str)
  | rename (old new : Str)
  | clear

/-- Running a history on the modelled workspace. -/
def runWs {V : Type} (w : Workspace V) : List (WsOp V) → Workspace V
  | [] => w
  | .store n v :: ops => runWs (w.put n v) ops
  | .remove n :: ops => runWs (w.remove n).1 ops
  | .rename a b :: ops => runWs (w.rename a b).1 ops
  | .clear :: ops => runWs w.clear ops

/-- What a history does to a map from names to values. Texts are related to names by `Means`. A
rename moves the value when the two names differ. -/
inductive Hist {V : Type} : (Str → Option V) → List (WsOp V) → (Str → Option V) → Prop
  | nil (m) : Hist m [] m
  | store {m m' ops s n v} (hn : Means s n)
      (h : Hist (fun k => if k = n then some v else m k) ops m') : Hist m (.store s v :: ops) m'
  | remove {m m' ops s n} (hn : Means s n)
      (h : Hist (fun k => if k = n then none else m k) ops m') : Hist m (.remove s :: ops) m'
  | rename {m m' ops a b x y v} (ha : Means a x) (hb : Means b y) (hne : x ≠ y) (hv : m x = some v)
      (h : Hist (fun k => if k = x then none else if k = y then some v else m k) ops m') :
      Hist m (.rename a b :: ops) m'
  | renameMissing {m m' ops a b x} (ha : Means a x) (hv : m x = none) (h : Hist m ops m') :
      Hist m (.rename a b :: ops) m'
  | clear {m m' ops} (h : Hist (fun _ => none) ops m') : Hist m (.clear :: ops) m'

/-- After any history of stores, removals, renames to different names and clears, reading a
variable gives what the map says for the name meant. -/
theorem C60_history {V : Type} (w : Workspace V) (m m' : Str → Option V) (ops : List (WsOp V))
    (hw : ∀ s n, Means s n → w.retrieveAny s = m n) (h : Hist m ops m') :
    ∀ s n, Means s n → (runWs w ops).retrieveAny s = m' n := by
  induction h generalizing w with
  | nil m => exact hw
  | store hn h ih =>
    refine ih _ fun s k hs => ?_
    rw [Workspace.retrieveAny_put, means_iff.1 hn, means_iff.1 hs, hw s k hs]
  | remove hn h ih =>
    refine ih _ fun s k hs => ?_
    show Workspace.find _ (sanitize s) = _
    rw [Workspace.find_remove, means_iff.1 hn, means_iff.1 hs]
    have := hw s k hs
    unfold Workspace.retrieveAny at this
    rw [means_iff.1 hs] at this
    rw [this]
  | @rename m m' ops a b x y v ha hb hne hv h ih =>
    refine ih _ fun s k hs => ?_
    have hx : w.find x = some v := by
      have := hw a x ha
      unfold Workspace.retrieveAny at this
      rw [means_iff.1 ha, hv] at this; exact this
    have := hw s k hs
    unfold Workspace.retrieveAny at this ⊢
    rw [means_iff.1 hs] at this ⊢
    unfold Workspace.rename
    rw [means_iff.1 ha, means_iff.1 hb, hx]
    simp only [Workspace.find_erase, Workspace.find_assign, this]
  | @renameMissing m m' ops a b x ha hv h ih =>
    refine ih _ fun s k hs => ?_
    have hx : w.find x = none := by
      have := hw a x ha
      unfold Workspace.retrieveAny at this
      rw [means_iff.1 ha, hv] at this; exact this
    unfold Workspace.rename
    rw [means_iff.1 ha, hx]
    exact hw s k hs
  | clear h ih => exact ih _ fun s k hs => rfl

/-- A history with a quoted name, a removal and a rename. -/
example : ∃ m', Hist (V := Nat) (fun _ => none)
    [.store ['"', 'a', '"'] 1, .store ['b', ' '] 2, .remove ['a'], .rename ['b'] ['c']] m' ∧
    m' ['c'] = some 2 := by
  refine ⟨_, .store (n := ['a']) (means_iff.2 (by decide)) (.store (n := ['b'])
    (means_iff.2 (by decide)) (.remove (n := ['a']) (means_iff.2 (by decide))
      (.rename (x := ['b']) (y := ['c']) (v := 2) (means_iff.2 (by decide))
        (means_iff.2 (by decide)) (by decide) (by decide) (.nil _)))), by decide⟩

/-- Single steps: storing sets exactly the variable meant. -/
theorem C60_store {V : Type} (w : Workspace V) (n m : Str) (v : V) :
    (SameVar m n → (w.put n v).retrieveAny m = some v) ∧
      (¬ SameVar m n → (w.put n v).retrieveAny m = w.retrieveAny m) := by
  rw [sameVar_iff, Workspace.retrieveAny_put]
  exact ⟨fun h => by simp [h], fun h => by simp [h]⟩

example : SameVar ['"', 'a', '"'] ['a', ' '] ∧ ¬ SameVar ['a'] ['b'] := by
  rw [sameVar_iff, sameVar_iff]; decide

/-- Single steps: removing deletes exactly the variable meant, and tells whether it was there. -/
theorem C60_remove {V : Type} (w : Workspace V) (n m : Str) :
    (SameVar m n → (w.remove n).1.retrieveAny m = none) ∧
      (¬ SameVar m n → (w.remove n).1.retrieveAny m = w.retrieveAny m) ∧
      ((w.remove n).2 = true ↔ w.retrieveAny n ≠ none) := by
  rw [sameVar_iff]
  refine ⟨fun h => ?_, fun h => ?_, ?_⟩
  · show Workspace.find _ _ = _
    rw [Workspace.find_remove]; simp [h]
  · show Workspace.find _ _ = _
    rw [Workspace.find_remove]; simp [h, Workspace.retrieveAny]
  · unfold Workspace.remove Workspace.retrieveAny
    cases w.find (sanitize n) <;> simp

/-- Typed reads: a variable is found with a type exactly when it holds a value of that type. -/
theorem C60_typed {P : Type} (w : Workspace (Val P)) (n : Str) (t : Ty) (v : Val P) :
    w.retrieve t n = some v ↔ w.retrieveAny n = some v ∧ v.ty = t := by
  unfold Workspace.retrieve Workspace.retrieveAny
  cases w.find (sanitize n) with
  | none => simp
  | some u =>
    by_cases h : u.ty = t
    · simp only [h, if_true, Option.some.injEq]
      constructor
      · rintro rfl; exact ⟨rfl, h⟩
      · exact fun hh => hh.1
    · simp only [h, if_false, Option.some.injEq]
      constructor
      · intro hh; cases hh
      · rintro ⟨rfl, ht⟩; exact absurd ht h

/-! ## C61 rename -/

/-- Renaming an existing variable to a different name moves its value and changes nothing else.
Full statement: also for equal names; see `C61_violation`. -/
theorem C61_partial {V : Type} (w : Workspace V) (old new : Str) (v : V)
    (hv : w.retrieveAny old = some v) (hne : ¬ SameVar old new) :
    (w.rename old new).2 = true ∧ (w.rename old new).1.retrieveAny new = some v ∧
      (w.rename old new).1.retrieveAny old = none ∧
      ∀ m, ¬ SameVar m old → ¬ SameVar m new →
        (w.rename old new).1.retrieveAny m = w.retrieveAny m := by
  rw [sameVar_iff] at hne
  unfold Workspace.rename
  unfold Workspace.retrieveAny at hv ⊢
  rw [hv]
  refine ⟨rfl, ?_, ?_, fun m h1 h2 => ?_⟩
  · simp [Workspace.find_erase, Workspace.find_assign, Ne.symm hne]
  · simp [Workspace.find_erase]
  · rw [sameVar_iff] at h1 h2
    simp [Workspace.find_erase, Workspace.find_assign, h1, h2]

example : (Workspace.put ⟨[]⟩ ['a'] 5).retrieveAny ['a', ' '] = some 5 ∧ ¬ SameVar ['a'] ['b'] := by
  rw [sameVar_iff]; decide

/-- Renaming a variable that does not exist changes nothing and reports failure. Missing: renaming a variable to its
own name, see `C61_violation`. -/
theorem C61_missing_partial {V : Type} (w : Workspace V) (old new : Str)
    (hv : w.retrieveAny old = none) : w.rename old new = (w, false) := by
  unfold Workspace.rename
  unfold Workspace.retrieveAny at hv
  rw [hv]

example := C61_missing_partial (Workspace.put ⟨[]⟩ ['a'] 5) ['b'] ['c'] (by decide)

/-- Renaming a variable to its own name deletes it and reports success: `rename $a $a`. -/
theorem C61_violation {V : Type} (w : Workspace V) (old new : Str) (v : V)
    (hv : w.retrieveAny old = some v) (hs : SameVar old new) :
    (w.rename old new).2 = true ∧ (w.rename old new).1.retrieveAny old = none ∧
      (w.rename old new).1.retrieveAny new = none := by
  rw [sameVar_iff] at hs
  unfold Workspace.rename
  unfold Workspace.retrieveAny at hv ⊢
  rw [hv, hs]
  exact ⟨rfl, by simp [Workspace.find_erase], by simp [Workspace.find_erase]⟩

example : (Workspace.put ⟨[]⟩ ['a'] 5).retrieveAny ['a'] = some 5 ∧ SameVar ['a'] ['"', 'a', '"'] := by
  rw [sameVar_iff]; decide

/-! ## C69 policy words -/

theorem policyWord_iff (s : Str) : PolicyWord s ↔ isPolicy s = true := by
  have e1 : "seq".toList = sSeq := by decide
  have e2 : "par".toList = sPar := by decide
  have e3 : "par_unseq".toList = sParUnseq := by decide
  have e4 : "unseq".toList = sUnseq := by decide
  simp [PolicyWord, isPolicy, or_assoc, e1, e2, e3, e4]

/-- Filtering keeps exactly the arguments that are not policy words, in order. -/
theorem C69_filter (args : List Str) [DecidablePred PolicyWord] :
    argsFilter args = args.filter (fun a => ¬ PolicyWord a) := by
  induction args with
  | nil => rfl
  | cons a as ih =>
    by_cases h : PolicyWord a
    · simp [argsFilter, (policyWord_iff a).1 h, h, ih]
    · have h' : isPolicy a = false := by
        rw [policyWord_iff] at h; simpa using h
      simp [argsFilter, h', h, ih]

theorem argsFilter_append (as bs : List Str) :
    argsFilter (as ++ bs) = argsFilter as ++ argsFilter bs := by
  induction as with
  | nil => rfl
  | cons a as ih =>
    by_cases h : isPolicy a = true <;> simp [argsFilter, h, ih]

/-- The extracted policy is the first policy word, and empty exactly when there is none. -/
theorem C69_extract (args : List Str) :
    ((∀ a ∈ args, ¬ PolicyWord a) → extractPolicy args = []) ∧
      ∀ pre p post, args = pre ++ p :: post → (∀ a ∈ pre, ¬ PolicyWord a) → PolicyWord p →
        extractPolicy args = p := by
  constructor
  · intro h
    induction args with
    | nil => rfl
    | cons a as ih =>
      have ha : isPolicy a = false := by
        have := h a (by simp); rw [policyWord_iff] at this; simpa using this
      simp only [extractPolicy, ha]
      exact ih fun b hb => h b (by simp [hb])
  · rintro pre p post rfl hpre hp
    induction pre with
    | nil => simp [extractPolicy, (policyWord_iff p).1 hp]
    | cons a as ih =>
      have ha : isPolicy a = false := by
        have := hpre a (by simp); rw [policyWord_iff] at this; simpa using this
      simp only [List.cons_append, extractPolicy, ha]
      exact ih fun b hb => hpre b (by simp [hb])

/-- One policy word can stand anywhere: a transform command does the same wherever it is put. -/
theorem C69_anywhere {P F : Type} (io : FileIO P F) (minArgs : Nat) (check : Ty → Bool)
    (setup : List Str → Str → Option (Val P → Option (Val P))) (w : World P F)
    (pre post pre' post' : List Str) (p : Str) (hp : PolicyWord p)
    (hsame : pre ++ post = pre' ++ post') (hno : ∀ a ∈ pre ++ post, ¬ PolicyWord a) :
    argsFilter (pre ++ p :: post) = pre ++ post ∧
      metaTransform io minArgs check setup w (pre ++ p :: post) =
        metaTransform io minArgs check setup w (pre' ++ p :: post') := by
  have key : ∀ a b : List Str, (∀ x ∈ a ++ b, ¬ PolicyWord x) →
      argsFilter (a ++ p :: b) = a ++ b ∧ extractPolicy (a ++ p :: b) = p := by
    intro a b hab
    have self : ∀ l : List Str, (∀ x ∈ l, ¬ PolicyWord x) → argsFilter l = l := by
      intro l hl
      induction l with
      | nil => rfl
      | cons x l ih =>
        have hx : isPolicy x = false := by
          have := hl x (by simp); rw [policyWord_iff] at this; simpa using this
        simp [argsFilter, hx, ih fun y hy => hl y (by simp [hy])]
    refine ⟨?_, (C69_extract _).2 a p b rfl (fun x hx => hab x (by simp [hx])) hp⟩
    rw [argsFilter_append]
    simp only [argsFilter, (policyWord_iff p).1 hp, if_true]
    rw [self a fun x hx => hab x (by simp [hx]), self b fun x hx => hab x (by simp [hx])]
  obtain ⟨k1, k2⟩ := key pre post hno
  obtain ⟨k3, k4⟩ := key pre' post' (hsame ▸ hno)
  refine ⟨k1, ?_⟩
  unfold metaTransform
  rw [k1, k2, k3, k4, hsame]

example : PolicyWord sPar ∧ (∀ a ∈ ([['$', 'a']] : List Str) ++ [['$', 'b'], ['3']], ¬ PolicyWord a) := by
  constructor
  · rw [policyWord_iff]; decide
  · intro a ha
    rw [policyWord_iff]
    revert a; decide

/-- Each policy word selects its policy; every other text selects the default. -/
theorem C69_dispatch {β : Type} (f : Policy → β) (d : β) (s : Str) :
    dispatchPolicy "seq".toList f d = f .seq ∧ dispatchPolicy "par".toList f d = f .par ∧
      dispatchPolicy "par_unseq".toList f d = f .parUnseq ∧
      dispatchPolicy "unseq".toList f d = f .unseq ∧
      (¬ PolicyWord s → dispatchPolicy s f d = d) := by
  have e1 : "seq".toList = sSeq := by decide
  have e2 : "par".toList = sPar := by decide
  have e3 : "par_unseq".toList = sParUnseq := by decide
  have e4 : "unseq".toList = sUnseq := by decide
  rw [e1, e2, e3, e4]
  refine ⟨rfl, rfl, rfl, rfl, fun h => ?_⟩
  simp only [PolicyWord, e1, e2, e3, e4, List.mem_cons, List.not_mem_nil, or_false, not_or] at h
  simp [dispatchPolicy, h.1, h.2.1, h.2.2.1, h.2.2.2]

example := C69_dispatch (fun p => some p) none ['f', 'a', 's', 't']

/-! ## C68 unknown and failing commands -/

/-- An unknown command changes nothing and is reported; a handler that throws is reported as an error; executing ends
the process only when the handler does. Missing: handlers that end the process, see `C68_violation`. -/
theorem C68_execute_partial {σ : Type} (reg : Registry σ) (s : σ) (name : Str) (args : List Str) :
    ((∀ info, (name, info) ∉ reg) → reg.execute s name args = (s, .unknownCommand)) ∧
      ∀ info, reg.lookup name = some info →
        (∀ s', info.handler s args = (s', .threw) → reg.execute s name args = (s', .errorReported)) ∧
        (∀ s', info.handler s args = (s', .returned) → reg.execute s name args = (s', .ran)) ∧
        ((reg.execute s name args).2 = .terminated ↔ (info.handler s args).2 = .terminated) := by
  constructor
  · intro h
    have : reg.lookup name = none := by
      unfold Registry.lookup
      rw [Option.map_eq_none_iff, List.find?_eq_none]
      rintro ⟨n, info⟩ hp
      simp only [beq_iff_eq]
      rintro rfl
      exact h info hp
    simp [Registry.execute, this]
  · intro info hi
    refine ⟨fun s' h => ?_, fun s' h => ?_, ?_⟩
    · simp [Registry.execute, hi, h]
    · simp [Registry.execute, hi, h]
    · unfold Registry.execute
      simp only [hi]
      rcases h : info.handler s args with ⟨s', c⟩
      cases c <;> simp

/-- A registry with one command. -/
example : ∀ info : CmdInfo Nat, (sCopy, info) ∉ ([(sMultiply, ⟨independentSchema, fun s _ => (s, .threw)⟩)] :
    Registry Nat) := by
  intro info h
  simp at h
  exact absurd h.1 (by decide)

/-- Registering a command again keeps the first registration; registering a new name makes it available and keeps the
others. Missing: handlers that end the process, see `C68_violation`. -/
theorem C68_register_partial {σ : Type} (reg : Registry σ) (name other : Str) (info : CmdInfo σ) :
    (∀ i, reg.lookup name = some i → reg.register name info = reg) ∧
      (reg.lookup name = none → (reg.register name info).lookup name = some info) ∧
      (other ≠ name → (reg.register name info).lookup other = reg.lookup other) := by
  refine ⟨fun i hi => by simp [Registry.register, hi], fun h => ?_, fun hne => ?_⟩
  · unfold Registry.register
    rw [h]
    unfold Registry.lookup at h ⊢
    rw [Option.map_eq_none_iff] at h
    rw [List.find?_append, h]
    simp
  · unfold Registry.register
    cases h : reg.lookup name with
    | some i => rfl
    | none =>
      unfold Registry.lookup
      rw [List.find?_append]
      have : (name == other) = false := by simp [Ne.symm hne]
      cases (reg.find? fun p => p.1 == other) <;> simp [this]

/-- The process is terminated by a command whose element command fails under a policy:
`transform_container par $c $d nosuch` with a container of one element, whatever other commands
are registered. -/
theorem C68_violation (io : FileIO Nat Unit) (inner : Registry (World Nat Unit))
    (h : inner.lookup "nosuch".toList = none) :
    let w : World Nat Unit := ⟨⟨[(['c'], .cont .vector tyDouble [.atom tyDouble 7])]⟩, ()⟩
    let reg : Registry (World Nat Unit) :=
      ("transform_container".toList, ⟨independentSchema,
        transformContainer io inner [0, 0, 0, 0, 0]⟩) :: inner
    (reg.execute w "transform_container".toList
      ["par".toList, "$c".toList, "$d".toList, "nosuch".toList]).2 = .terminated := by
  have h1 : "par".toList = sPar := by decide
  have h2 : "$c".toList = ['$', 'c'] := by decide
  have h3 : "$d".toList = ['$', 'd'] := by decide
  have h4 : "nosuch".toList = ['n', 'o', 's', 'u', 'c', 'h'] := by decide
  rw [h4] at h
  have he : ∀ w args, inner.execute w ['n', 'o', 's', 'u', 'c', 'h'] args = (w, .unknownCommand) := by
    intro w args; simp [Registry.execute, h]
  rw [h1, h2, h3, h4]
  simp only [Registry.execute, Registry.lookup, List.find?_cons, beq_self_eq_true, Option.map_some]
  have hp : lastPolicy [sPar, ['$', 'c'], ['$', 'd'], ['n', 'o', 's', 'u', 'c', 'h']] = sPar := by
    decide
  have hf : argsFilter [sPar, ['$', 'c'], ['$', 'd'], ['n', 'o', 's', 'u', 'c', 'h']] =
      [['$', 'c'], ['$', 'd'], ['n', 'o', 's', 'u', 'c', 'h']] := by decide
  have hl : loadArg io isAllContainer
      (⟨⟨[(['c'], .cont .vector tyDouble [.atom tyDouble 7])]⟩, ()⟩ : World Nat Unit) ['$', 'c'] =
      .ok (some (.cont .vector tyDouble [.atom tyDouble 7])) := rfl
  have hne : ∀ x : Val Nat, ([x] : List (Val Nat)) ≠ [] := by simp
  unfold transformContainer
  simp only [hp, hf, hl, Kind.resizable, Bool.not_true, Bool.false_eq_true, if_false, hne]
  have hd : ∀ {β : Type} (f : Policy → β) (d : β), dispatchPolicy sPar f d = f .par := fun f d => rfl
  rw [hd]
  simp only [tcParallel, List.foldl_cons, List.foldl_nil, tcStep, List.length_singleton,
    List.getElem?_cons_zero, Bool.false_eq_true, if_false, he, if_true]
  rfl

example : ([] : Registry (World Nat Unit)).lookup "nosuch".toList = none := rfl

end TinyDIP.Props
