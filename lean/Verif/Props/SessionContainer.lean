import Verif.Lemmas.SessionContainer
import Verif.Props.Session

/-!
# Property C199: sessions with transform_container
-/

namespace TinyDIP.Props

open TinyDIP TinyDIP.Cli

variable {F P : Type}

theorem tcIn_text (i : Nat) : "__tc_in_".toList ++ Nat.toDigits 10 i = tcIn i := by
  have : "__tc_in_".toList = ['_', '_', 't', 'c', '_', 'i', 'n', '_'] := by decide
  rw [this]; rfl

theorem tcOut_text (i : Nat) : "__tc_out_".toList ++ Nat.toDigits 10 i = tcOut i := by
  have : "__tc_out_".toList = ['_', '_', 't', 'c', '_', 'o', 'u', 't', '_'] := by decide
  rw [this]; rfl

/-- A word `$name` without slash and dot names `name` only. -/
theorem dollar_names {x p : Str} {i : Nat} (hx : Ordinary x) (hp : ∀ c ∈ p, c ≠ '/' ∧ c ≠ '.')
    (hv : ¬ SameVar (p ++ toStr i) x) : ¬ MayNameAny ('$' :: (p ++ toStr i)) x := by
  have hd : ∀ c ∈ '$' :: (p ++ toStr i), c ≠ '/' ∧ c ≠ '.' := by
    intro c hc
    rcases List.mem_cons.1 hc with rfl | hc
    · decide
    rcases List.mem_append.1 hc with hc | hc
    · exact hp c hc
    · exact isDigit_plain (isDigit_toStr hc)
  have hs : sanitize ('$' :: (p ++ toStr i)) = '$' :: (p ++ toStr i) :=
    sanitize_prefix_toStr ('$' :: p) i (by simp) (by
      intro c hc
      simp only [List.head?_cons, Option.some.injEq] at hc
      subst hc
      simp [Junk])
  obtain ⟨-, h1, -⟩ := hx (sanitize x) (means_iff.2 rfl)
  rintro ((h | ⟨v, e, h⟩ | ⟨q, s, hq, ⟨dir, ext, rfl, -, hdir, hext⟩, h⟩) | ⟨c, v, e, h⟩)
  · have := congrArg List.head? h
    simp at this
  · injection e with _ e
    exact hv (e ▸ h)
  · rw [means_iff, hs] at hq
    have e1 : dir = [] := by
      rcases hdir with e | ⟨d, rfl⟩
      · exact e
      · exact absurd rfl (hd '/' (by rw [hq]; simp)).1
    have e2 : ext = [] := by
      rcases hext with e | ⟨d, rfl, -⟩
      · exact e
      · exact absurd rfl (hd '.' (by rw [hq]; simp)).2
    subst e1 e2
    simp only [List.nil_append, List.append_nil] at hq
    rw [sameVar_iff, ← hq, hs] at h
    apply h1
    rw [← h]
    rfl
  · injection e with _ e
    exact hv (e ▸ h)

theorem pipe_any (x : Str) (hx : Ordinary x) (i : Nat) : ¬ MayNameAny (pipeVar i) x := by
  rintro (h | ⟨c, v, e, h⟩)
  · exact pipe_other x hx i h
  · refine pipe_other x hx i (.inr (.inl ⟨v, ?_, h⟩))
    have hc : c = '$' := by
      have := congrArg List.head? e
      simpa [pipeVar, pipePrefix] using this.symm
    rw [e, hc]

/-- A session in which `transform_container` is among the commands, also inside itself, with or without a policy and
for every schedule: a variable keeps its value as long as no word refers to it, it is not the rest of a word behind
its first character, and it has none of the names of the temporary variables. `n` is the number of levels of
`transform_container` inside itself. Missing: variables that are the rest of a word (`C199_letter_violation`) and
variables with temporary names (`C66_clobber_violation`). -/
theorem C199_session_partial (isOne : Str → Bool) (io : FileIO P F) (sched : List Nat)
    (base : Registry (Option (World P F)))
    (hbase : ∀ name info, base.lookup name = some info → Discreet info.handler) (levels : Nat) (x : Str)
    (hx : Ordinary x) (ht : NotTemporary x) (lines : List Str) (w w' : World P F) (n : Next)
    (hl : ∀ l ∈ lines, ∀ a, WordOf l a → ¬ MayNameAny a x)
    (h : runLines isOne (withContainers io sched base levels) lines (some w) = (some w', n)) :
    w'.ws.retrieveAny x = w.ws.retrieveAny x := by
  have hin : ∀ i, sanitize x ≠ sanitize (tcIn i) := fun i e => (ht i).1 (by rw [tcIn_text]; exact sameVar_iff.2 e.symm)
  have hout : ∀ i, sanitize x ≠ sanitize (tcOut i) := fun i e => (ht i).2 (by rw [tcOut_text]; exact sameVar_iff.2 e.symm)
  have hreg := withContainers_respects (R := fun a => ¬ MayNameAny a x)
    (S := fun w w' : World P F => w'.ws.retrieveAny x = w.ws.retrieveAny x) (fun _ => rfl) (fun _ _ _ h1 h2 => h2.trans h1)
    (base := base) (fun name info hi => ⟨(hbase name info hi).1, fun w args w' c e ha =>
      (hbase name info hi).2 w args w' c e x fun a hm h => ha a hm (.inl h)⟩) io sched
    (fun i => dollar_names hx (by decide) fun h => (ht i).1 (by rw [tcIn_text]; exact h))
    (fun i => dollar_names hx (by decide) fun h => (ht i).2 (by rw [tcOut_text]; exact h))
    (fun w i v => by rw [Workspace.retrieveAny_put, if_neg (hin i)])
    (fun w i => by
      show Workspace.find (Workspace.remove _ _).1 _ = _
      rw [Workspace.find_remove, if_neg (hin i)]; rfl)
    (fun w i => by
      show Workspace.find (Workspace.remove _ _).1 _ = _
      rw [Workspace.find_remove, if_neg (hout i)]; rfl)
    (fun w a v ha hne => by
      rw [Workspace.retrieveAny_put, if_neg]
      intro e
      cases a with
      | nil => exact hne rfl
      | cons c t => exact ha (.inr ⟨c, t, rfl, sameVar_iff.2 e.symm⟩)) levels
  obtain ⟨w0, hw, e⟩ := runLines_respects _ (fun a => ¬ MayNameAny a x)
    (fun w w' => w'.ws.retrieveAny x = w.ws.retrieveAny x) (fun _ => rfl) (fun _ _ _ h1 h2 => h2.trans h1) isOne
    hreg (by rintro (h | ⟨c, v, h, -⟩); exact empty_other x hx h; cases h) (pipe_any x hx) lines (some w)
    w' n hl h
  injection hw with hw
  rw [hw]
  exact e

/-- The same for files: `transform_container` does not make a session write a file that no word means. -/
theorem C199_files {D : Type} (isOne : Str → Bool) (io : FileIO P F) (see : F → D) (sched : List Nat)
    (base : Registry (Option (World P F)))
    (hbase : ∀ name info, base.lookup name = some info → Tidy io info.handler) (levels : Nat)
    (hempty : Spares io see []) (lines : List Str) (w w' : World P F) (n : Next)
    (hl : ∀ l ∈ lines, ∀ a, WordOf l a → Elsewhere io see a)
    (h : runLines isOne (withContainers io sched base levels) lines (some w) = (some w', n)) : see w'.fs = see w.fs := by
  have hreg := withContainers_respects (R := fun a => Elsewhere io see a)
    (S := fun w w' : World P F => see w'.fs = see w.fs) (fun _ => rfl) (fun _ _ _ h1 h2 => h2.trans h1)
    (base := base) (fun name info hi => (tidy_iff _ _).1 (hbase name info hi) D see) io sched
    (fun i => .inl rfl) (fun i => .inl rfl) (fun _ _ _ => rfl) (fun _ _ => rfl) (fun _ _ => rfl) (fun _ _ _ _ _ => rfl)
    levels
  obtain ⟨w0, hw, e⟩ := runLines_respects _ (fun a => Elsewhere io see a)
    (fun w w' => see w'.fs = see w.fs) (fun _ => rfl) (fun _ _ _ h1 h2 => h2.trans h1) isOne
    hreg (empty_elsewhere hempty) (fun _ => .inl rfl) lines (some w) w' n hl h
  injection hw with hw
  rw [hw]
  exact e

/-- A command without a defined outcome on the first element: the session as a whole has none, whatever the rest of
the container and the line. -/
theorem C199_undefined (io : FileIO P F) (sched : List Nat) (reg : Registry (Option (World P F))) (w : World P F)
    (s d cmd : Str) (sub : List Str) (k : Kind) (e : Ty) (x : Val P) (xs : List (Val P))
    (info : CmdInfo (Option (World P F))) (hcmd : ∀ a ∈ cmd :: sub, ¬ PolicyWord a)
    (hs : w.ws.retrieveAny s = some (.cont k e (x :: xs))) (ht : ContainerTy k e) (hk : ∀ n, k ≠ .array n)
    (hreg : reg.lookup cmd = some info) (hund : ∀ w args, (info.handler (some w) args).1 = none) :
    (containerCmd io reg sched (some w) (['$' :: s, '$' :: d, cmd] ++ sub)).1 = none := by
  have hvar : ∀ a : Str, isPolicy ('$' :: a) = false := by
    intro a; simp [isPolicy, sSeq, sPar, sParUnseq, sUnseq]
  have hc : ∀ a ∈ cmd :: sub, isPolicy a = false := by
    intro a ha
    have hcmd := hcmd a ha
    have e1 : "seq".toList = sSeq := by decide
    have e2 : "par".toList = sPar := by decide
    have e3 : "par_unseq".toList = sParUnseq := by decide
    have e4 : "unseq".toList = sUnseq := by decide
    simp only [PolicyWord, e1, e2, e3, e4, List.mem_cons, List.not_mem_nil, or_false, not_or] at hcmd
    simp [isPolicy, hcmd.1, hcmd.2.1, hcmd.2.2.1, hcmd.2.2.2]
  have hl : loadArg (markedIO io) isAllContainer ⟨w.ws, (w.fs, false)⟩ ('$' :: s) = .ok (some (.cont k e (x :: xs))) := by
    unfold Workspace.retrieveAny at hs
    simp [loadArg, isVar, varName, hs, Val.ty, containerTy_iff.1 ht]
  have hr : k.resizable = true := by
    cases k with
    | array n => exact absurd rfl (hk n)
    | _ => rfl
  have hf : sub.filter isPolicy = [] := List.filter_eq_nil_iff.2 fun a ha => by simp [hc a (by simp [ha])]
  have hlk : Registry.lookup (reg.map fun e => (e.1, (⟨e.2.schema, marked e.2.handler⟩ : CmdInfo (World P (F × Bool))))) cmd =
      some ⟨info.schema, marked info.handler⟩ := by
    unfold Registry.lookup at hreg ⊢
    rw [List.find?_map]
    simp only [Option.map_map]
    rw [Option.map_eq_some_iff] at hreg ⊢
    obtain ⟨a, h1, h2⟩ := hreg
    exact ⟨a, h1, by simp [h2]⟩
  have hm : ∀ (v : World P (F × Bool)) args, marked info.handler v args = (⟨v.ws, (v.fs.1, true)⟩, .terminated) := by
    intro v args
    have := hund ⟨v.ws, v.fs.1⟩ args
    unfold marked
    split
    · rename_i h; rw [h] at this; cases this
    · rfl
  have he : ∀ (v : World P (F × Bool)) args,
      Registry.execute (reg.map fun e => (e.1, (⟨e.2.schema, marked e.2.handler⟩ : CmdInfo (World P (F × Bool))))) v cmd args =
        (⟨v.ws, (v.fs.1, true)⟩, .terminated) := by
    intro v args
    unfold Registry.execute
    rw [hlk]
    simp [hm]
  unfold containerCmd transformContainer
  simp [argsFilter, lastPolicy, hvar, hc, hf, hl, hr, dispatchPolicy, tcDefault, he, sSeq, sPar, sParUnseq, sUnseq]

/-! ## Concrete cases -/

/-- A line without the letters `c` and `l` has no word that refers to the variable `c`. -/
theorem not_named_any {line : Str} {c : Char} (hc : ¬ Junk c) (h1 : c ∉ line) (h2 : 'l' ∉ line) (a : Str)
    (ha : WordOf line a) : ¬ MayNameAny a [c] := by
  rintro (h | ⟨b, v, rfl, h⟩)
  · exact not_named hc h1 h2 a ha h
  · obtain ⟨pre, suf, rfl, -⟩ := ha
    have hc' : sanitize [c] = [c] := sanitize_eq_self (by simpa using hc) (by simpa using hc)
    obtain ⟨n, ⟨⟨p, s, rfl, -⟩, -⟩, h⟩ := h
    rw [means_iff, hc'] at h
    exact h1 (by simp [← h])

theorem notTemporary_z : NotTemporary ['z'] := by
  intro i
  rw [tcIn_text, tcOut_text, sameVar_iff, sameVar_iff, sanitize_tcIn, sanitize_tcOut,
    show sanitize ['z'] = ['z'] by decide +kernel]
  constructor <;> (intro h; have := congrArg List.head? h; simp [tcIn, tcOut] at this)

/-- A workspace with a vector of two images and a variable `d`. -/
def twoVars (fs : F) : World Pay F :=
  ⟨⟨[(['c'], .cont .vector tyDouble [.atom tyDouble (.image ⟨[1, 1], [5]⟩), .atom tyDouble (.image ⟨[1, 2], [6, 7]⟩)]),
    (['d'], .atom (.num .int) (.num 1))]⟩, fs⟩

/-- A command that is undefined for every element. -/
example (o : Open F) (fs : F) (sched : List Nat) :
    (containerCmd o.io (("bad".toList, ⟨⟨none, none⟩, fun _ _ => (none, .terminated)⟩) :: someReg o) sched
      (some (twoVars fs)) (['$' :: ['c'], '$' :: ['b'], "bad".toList] ++ ["3".toList])).1 = none :=
  C199_undefined o.io sched _ (twoVars fs) ['c'] ['b'] _ _ _ _ _ _ _ (by decide +kernel) rfl (containerTy_iff.2 rfl)
    (by intro n; exact fun h => by cases h) rfl (fun _ _ => rfl)

/-- The line of the next example runs and stores its result. -/
example (o : Open F) (fs : F) : (runLines (fun _ => false) (withContainers o.io [] (someReg o) 2)
    ["transform_container $c $b copy".toList] (some (twoVars fs))).1.map (·.ws.retrieveAny "b".toList) =
      some (some (.cont .vector tyDouble
        [.atom tyDouble (.image ⟨[1, 1], [5]⟩), .atom tyDouble (.image ⟨[1, 2], [6, 7]⟩)])) := rfl

example (o : Open F) (w w' : World Pay F) (n : Next) (sched : List Nat)
    (h : runLines (fun _ => false) (withContainers o.io sched (someReg o) 2)
      ["transform_container par $c $b abs".toList, "transform_container $b $b transform_container abs".toList]
      (some w) = (some w', n)) :
    w'.ws.retrieveAny "z".toList = w.ws.retrieveAny "z".toList :=
  C199_session_partial _ o.io sched (someReg o) (someReg_discreet o) 2 ['z'] ordinary_z notTemporary_z _ w w' n (by
    intro l hl
    simp only [List.mem_cons, List.not_mem_nil, or_false] at hl
    rcases hl with rfl | rfl
    · exact not_named_any (by simp [Junk]) (by decide) (by decide)
    · exact not_named_any (by simp [Junk]) (by decide) (by decide)) h

/-- Files: only a file whose path is a word of the line can change. -/
example (o : Open (Str → Option (Val Pay))) (ho : o.io = someFiles) (file : Str)
    (hf : file ∉ [[], "transform_container".toList, "abs".toList]) (sched : List Nat)
    (w w' : World Pay (Str → Option (Val Pay))) (n : Next)
    (h : runLines (fun _ => false) (withContainers someFiles sched (someReg o) 2) ["transform_container $a $b abs".toList]
      (some w) = (some w', n)) :
    w'.fs file = w.fs file := by
  have hsp : ∀ p, p ≠ file → Spares someFiles (fun fs => fs file) p := by
    rintro p hp fs v fs' h
    simp only [someFiles, Option.some.injEq] at h
    subst h
    exact if_neg fun e => hp e.symm
  simp only [List.mem_cons, List.not_mem_nil, or_false, not_or] at hf
  refine C199_files _ someFiles (fun fs => fs file) sched (someReg o)
    (fun name info hi => ho ▸ (someReg_modest o name info hi).2) 2 (hsp _ fun e => hf.1 e.symm) _ w w' n ?_ h
  intro l hl a ha
  rw [List.mem_singleton] at hl
  subst hl
  obtain ⟨stage, hs, ha⟩ := parse_wordOf _ a ha
  have : parseLine "transform_container $a $b abs".toList =
      [["transform_container".toList, "$a".toList, "$b".toList, "abs".toList]] := by decide +kernel
  rw [this, List.mem_singleton] at hs
  subst hs
  simp only [List.mem_cons, List.not_mem_nil, or_false] at ha
  rcases ha with rfl | rfl | rfl | rfl
  · refine .inr fun p hp => hsp p fun e => hf.2.1 ?_
    rw [← e, ← means_iff.1 hp]; decide +kernel
  · exact .inl (by decide +kernel)
  · exact .inl (by decide +kernel)
  · refine .inr fun p hp => hsp p fun e => hf.2.2 ?_
    rw [← e, ← means_iff.1 hp]; decide +kernel

/-- The full property fails: `transform_container $c xd copy` has no word that refers to the variable `d`, and it
overwrites `d`. -/
theorem C199_letter_violation (o : Open F) (fs : F) :
    (∀ a, WordOf "transform_container $c xd copy".toList a → ¬ MayName a "d".toList) ∧
    ∃ w', runLines (fun _ => false) (withContainers o.io [] (someReg o) 1)
        ["transform_container $c xd copy".toList] (some (twoVars fs)) = (some w', .goOn) ∧
      (twoVars fs).ws.retrieveAny "d".toList = some (.atom (.num .int) (.num 1)) ∧
      w'.ws.retrieveAny "d".toList =
        some (.cont .vector tyDouble
          [.atom tyDouble (.image ⟨[1, 1], [5]⟩), .atom tyDouble (.image ⟨[1, 2], [6, 7]⟩)]) := by
  refine ⟨?_, ?_⟩
  · intro a ha
    obtain ⟨stage, hs, ha⟩ := parse_wordOf _ a ha
    have : parseLine "transform_container $c xd copy".toList =
        [["transform_container".toList, "$c".toList, "xd".toList, "copy".toList]] := by decide +kernel
    rw [this, List.mem_singleton] at hs
    subst hs
    have key : ∀ a : Str, (∀ c ∈ a, c ≠ '/' ∧ c ≠ '.') → sanitize a = a → a ≠ "all".toList → a.head? ≠ some '$' → a ≠ ['d'] →
        ¬ MayName a "d".toList := by
      rintro a hc hs h1 h2 h3 (h | ⟨v, e, h⟩ | ⟨q, s, hq, ⟨dir, ext, rfl, -, hdir, hext⟩, h⟩)
      · exact h1 h
      · rw [e] at h2; exact h2 rfl
      · rw [means_iff, hs] at hq
        have e1 : dir = [] := by
          rcases hdir with e | ⟨d, rfl⟩
          · exact e
          · exact absurd rfl (hc '/' (by rw [hq]; simp)).1
        have e2 : ext = [] := by
          rcases hext with e | ⟨d, rfl, -⟩
          · exact e
          · exact absurd rfl (hc '.' (by rw [hq]; simp)).2
        subst e1 e2
        simp only [List.nil_append, List.append_nil] at hq
        rw [sameVar_iff, ← hq, hs] at h
        exact h3 (h.trans (by decide +kernel))
    simp only [List.mem_cons, List.not_mem_nil, or_false] at ha
    rcases ha with rfl | rfl | rfl | rfl
    · exact key _ (by decide +kernel) (by decide +kernel) (by decide +kernel) (by decide +kernel) (by decide +kernel)
    · rintro (h | ⟨v, e, h⟩ | ⟨q, s, hq, ⟨dir, ext, rfl, -, hdir, hext⟩, h⟩)
      · exact absurd h (by decide +kernel)
      · have e : v = ['c'] := by
          have : "$c".toList = ['$', 'c'] := by decide
          rw [this] at e
          injection e with _ e
          exact e.symm
        subst e
        rw [sameVar_iff] at h
        exact absurd h (by decide +kernel)
      · rw [means_iff, show sanitize "$c".toList = ['$', 'c'] by decide +kernel] at hq
        have e1 : 'd' ∈ s := by
          rw [sameVar_iff, show sanitize "d".toList = ['d'] by decide +kernel] at h
          obtain ⟨⟨pre, suf, h5, -⟩, -⟩ := means_iff.2 h
          rw [h5]; simp
        have : 'd' ∈ ['$', 'c'] := by rw [hq]; simp [e1]
        exact absurd this (by decide)
    · exact key _ (by decide +kernel) (by decide +kernel) (by decide +kernel) (by decide +kernel) (by decide +kernel)
    · exact key _ (by decide +kernel) (by decide +kernel) (by decide +kernel) (by decide +kernel) (by decide +kernel)
  · exact ⟨_, rfl, rfl, rfl⟩

end TinyDIP.Props
