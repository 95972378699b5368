import Verif.Lemmas.Pipe
import Verif.Model.CliHandlers

/-!
# Properties C62 and C63: pipelines and the optimiser
-/

namespace TinyDIP.Props

open TinyDIP.Cli

/-! ## C62 wiring -/

/-- Reading a line gives back its stages and words: words are non-empty and contain no white space
and no bar. -/
theorem C62_parse (stages : List (List Str)) (hne : ∀ s ∈ stages, s ≠ [])
    (hw : ∀ s ∈ stages, ∀ w ∈ s, w ≠ [] ∧
      ∀ c ∈ w, c ∉ [' ', '\t', '\n', '\x0b', '\x0c', '\r', '|']) :
    parseLine (joinStages stages) = stages := by
  refine parseLine_join stages hne (fun s hs w hw' => ⟨(hw s hs w hw').1, fun c hc => ?_⟩) []
    (Or.inl rfl)
  have := (hw s hs w hw').2 c hc
  simp only [List.mem_cons, List.not_mem_nil, or_false, not_or] at this
  simp [isSpace, this]

example : parseLine "dct2 $a par | idct2 | $b".toList =
    ["dct2 $a par".toList, "idct2".toList, "$b".toList].map tokenize := by decide +kernel

/-- A line of one stage runs the command as typed, whatever its words are: nothing is added, and in particular a
line that is just a variable is not taken for an output. (A multiplication may be replaced by a copy, see
C64.) -/
theorem C62_single_stage {σ : Type} (isOne : Str → Bool) (reg : Registry σ) (name : Str) (typed : List Str) (st : σ)
    (hw : ∀ w ∈ name :: typed, w ≠ [] ∧ ∀ c ∈ w, c ∉ [' ', '\t', '\n', '\x0b', '\x0c', '\r', '|'])
    (hx : name ≠ "exit".toList ∧ name ≠ "quit".toList) (hm : name ≠ "multiply".toList)
    (hreg : reg.lookup name ≠ none) :
    runLine isOne reg (joinStages [name :: typed]) st =
      ((reg.execute st name typed).1, if (reg.execute st name typed).2 = .terminated then .terminated else .goOn) := by
  have hp : parseLine (joinStages [name :: typed]) = [name :: typed] :=
    C62_parse [name :: typed] (by simp) (by simpa using hw)
  have e1 : "exit".toList = sExit := by decide
  have e2 : "quit".toList = sQuit := by decide
  have e3 : "multiply".toList = sMultiply := by decide
  rw [e1, e2] at hx
  rw [e3] at hm
  have hs : splitFinal [name :: typed] = ([name :: typed], []) := by
    unfold splitFinal
    cases typed <;> simp
  obtain ⟨info, hi⟩ := Option.ne_none_iff_exists'.1 hreg
  obtain ⟨sch, hsch⟩ : ∃ sch, reg.getSchema name = some sch := by
    simp [Registry.getSchema, hi]
  have hb : build reg.getSchema [] [name :: typed] 0 [] = .ok [⟨name, typed⟩] := by
    simp only [build, List.head?_cons, Option.getD_some, hx.1, hx.2, or_self, if_false, hsch, ne_eq, not_true_eq_false]
    unfold wireArgs
    rcases sch with ⟨_ | a, _ | b⟩ <;> simp
  have hpass : pass isOne reg.getSchema none [⟨name, typed⟩] = ([⟨name, typed⟩], false) := by
    simp [pass, rule1, hm]
  have ho : optimize isOne reg.getSchema [⟨name, typed⟩] = [⟨name, typed⟩] := by
    unfold optimize
    simp [optimizeFuel, hpass]
  unfold runLine
  simp only [hp, hs, hb, ho, runCmds]
  cases h : reg.execute st name typed with
  | mk s' o => cases o <;> simp

example : runLine (fun _ => false)
    [("count".toList, ⟨transformerSchema, fun s a => (s + a.length, .returned)⟩)] "count $a 1 2".toList (5 : Nat) =
      (8, .goOn) ∧ joinStages [tokenize "count $a 1 2".toList] = "count $a 1 2".toList := by decide +kernel

/-- Every stage becomes one command with the stage's name; the typed arguments are kept in order
and at most the input and the output variable are added. -/
theorem C62_typed (schemas : Str → Option Schema) (final : Str) (stages : List (List Str))
    (cmds : List Cmd) (h : build schemas final stages 0 [] = .ok cmds) :
    cmds.length = stages.length ∧
    ∀ (i : Nat) (name : Str) (typed : List Str), stages[i]? = some (name :: typed) →
      ∃ c, cmds[i]? = some c ∧ c.name = name ∧ typed.Sublist c.args ∧
        c.args.length ≤ typed.length + 2 := by
  obtain ⟨h1, h2⟩ := build_get schemas final stages 0 [] cmds h
  refine ⟨by simpa using congrArg List.length h1, fun i name typed hi => ?_⟩
  obtain ⟨s, -, hc⟩ := h2 i _ hi
  refine ⟨_, hc, rfl, wire_sublist _ _ _ _, ?_⟩
  rw [wire_length]
  simp only [List.drop_succ_cons, List.drop_zero]
  have hite : ∀ (q : Prop) [Decidable q], (if q then 1 else 0) ≤ 1 := by
    intro q _; split <;> omega
  have a1 := hite (s.inIdx.isSome ∧ (if i = 0 then ([] : Str) else pipeVar (0 + i - 1)) ≠ [])
  have a2 := hite (s.outIdx.isSome ∧
    (if i + 1 < stages.length then pipeVar (0 + i) else final) ≠ [])
  omega

/-- Stage `i` receives the variable `$__pipe_i` at its output position, and stage `i + 1` receives
the same variable at its input position; positions are counted as the command handlers count them,
without the policy words.
Full statement: for every stage. Here the stage has as many typed arguments as stand before the
position, none of these is a policy word, and its input position is before its output position (as
for all registered commands). -/
theorem C62_partial (schemas : Str → Option Schema) (final : Str) (stages : List (List Str))
    (cmds : List Cmd) (h : build schemas final stages 0 [] = .ok cmds)
    (i : Nat) (n1 n2 : Str) (t1 t2 : List Str) (s1 s2 : Schema) (o p k : Nat)
    (hi : stages[i]? = some (n1 :: t1)) (hi' : stages[i + 1]? = some (n2 :: t2))
    (hs1 : schemas n1 = some s1) (hs2 : schemas n2 = some s2)
    (ho : s1.outIdx = some o) (hp : s2.inIdx = some p)
    (hord1 : ∀ q, s1.inIdx = some q → q < o) (hord2 : ∀ q, s2.outIdx = some q → p < q)
    (hk : o = k + if 0 < i ∧ s1.inIdx.isSome then 1 else 0)
    (hk1 : k ≤ t1.length) (hk2 : p ≤ t2.length)
    (hp1 : ∀ a ∈ t1.take k, ¬ PolicyWord a) (hp2 : ∀ a ∈ t2.take p, ¬ PolicyWord a) :
    ∃ c1 c2, cmds[i]? = some c1 ∧ cmds[i + 1]? = some c2 ∧ c1.name = n1 ∧ c2.name = n2 ∧
      (plainWords c1.args)[o]? = some (pipeName i) ∧ (plainWords c2.args)[p]? = some (pipeName i) := by
  obtain ⟨h1, h2⟩ := build_get schemas final stages 0 [] cmds h
  obtain ⟨s, hs, hc⟩ := h2 i _ hi
  obtain ⟨s', hs', hc'⟩ := h2 (i + 1) _ hi'
  have hlt : i + 1 < stages.length := by
    rw [List.getElem?_eq_some_iff] at hi'
    exact hi'.1
  simp only [List.head?_cons, Option.getD_some] at hs hs'
  rw [hs1, Option.some.injEq] at hs
  rw [hs2, Option.some.injEq] at hs'
  subst hs hs'
  refine ⟨_, _, hc, hc', rfl, rfl, ?_, ?_⟩
  · simp only [hlt, if_true, Nat.zero_add, List.drop_succ_cons, List.drop_zero, pipeName_eq]
    refine wire_out s1 _ _ t1 o k ho (isVar_pipeVar i) ?_ hord1 ?_ hk1 hp1
    · by_cases h0 : i = 0
      · simp [h0]
      · right; simp only [h0, if_false]; exact isVar_pipeVar _
    · rw [hk]
      by_cases h0 : i = 0
      · simp [h0]
      · have : 0 < i := by omega
        simp [h0, this, pipeVar_ne_nil]
  · simp only [pipeName_eq, List.drop_succ_cons, List.drop_zero]
    have e : (if i + 1 = 0 then ([] : Str) else pipeVar (0 + (i + 1) - 1)) = pipeVar i := by
      have : ¬ (i + 1 = 0) := by omega
      rw [if_neg this]; congr 1; omega
    rw [e]
    exact wire_in s2 _ _ t2 p hp (isVar_pipeVar i) hord2 hk2 hp2

/-- The schemas of some registered commands (main.cpp 1462-1676). -/
def someSchemas (name : Str) : Option Schema :=
  if name = "read".toList ∨ name = "zeros".toList then some generatorSchema
  else if name = "write".toList then some terminatorSchema
  else if name = sDct2 ∨ name = sIdct2 ∨ name = sMultiply then some transformerSchema
  else none

/-- The hypotheses are met by a three-stage line; what the theorem says about it. -/
example : build someSchemas [] (parseLine "read a.bmp | multiply 2 par | write b.bmp".toList) 0 [] =
    .ok [⟨"read".toList, ["a.bmp".toList, "$__pipe_0".toList]⟩,
      ⟨sMultiply, ["$__pipe_0".toList, "$__pipe_1".toList, "2".toList, "par".toList]⟩,
      ⟨"write".toList, ["$__pipe_1".toList, "b.bmp".toList]⟩] := by decide +kernel

/-- The last stage of a line ending in `| $v` receives `$v` at its output position, and the pipe variables of
different stages differ. Same conditions as above. Missing: as for `C62_partial`, see `C62_policy_violation` and
`C62_zeros_violation`. -/
theorem C62_final_partial (schemas : Str → Option Schema) (v : Str) (stages : List (List Str))
    (cmds : List Cmd)
    (h : build schemas (splitFinal (stages ++ [['$' :: v]])).2
      (splitFinal (stages ++ [['$' :: v]])).1 0 [] = .ok cmds)
    (i : Nat) (n : Str) (t : List Str) (s : Schema) (o k : Nat)
    (hi : stages[i]? = some (n :: t)) (hlast : i + 1 = stages.length)
    (hs : schemas n = some s) (ho : s.outIdx = some o)
    (hord : ∀ q, s.inIdx = some q → q < o)
    (hk : o = k + if 0 < i ∧ s.inIdx.isSome then 1 else 0)
    (hk1 : k ≤ t.length) (hp1 : ∀ a ∈ t.take k, ¬ PolicyWord a) :
    (∃ c, cmds[i]? = some c ∧ c.name = n ∧ (plainWords c.args)[o]? = some ('$' :: v)) ∧
      ∀ a b, pipeName a = pipeName b → a = b := by
  have hsp : splitFinal (stages ++ [['$' :: v]]) = (stages, '$' :: v) := by
    unfold splitFinal
    have h1 : 1 < stages.length + 1 := by omega
    simp [isVar, h1]
  rw [hsp] at h
  obtain ⟨h1, h2⟩ := build_get schemas _ stages 0 [] cmds h
  obtain ⟨s', hs', hc⟩ := h2 i _ hi
  simp only [List.head?_cons, Option.getD_some] at hs'
  rw [hs, Option.some.injEq] at hs'
  subst hs'
  refine ⟨⟨_, hc, rfl, ?_⟩, fun a b hab => ?_⟩
  · have hnl : ¬ (i + 1 < stages.length) := by omega
    simp only [hnl, if_false, List.drop_succ_cons, List.drop_zero]
    refine wire_out s _ _ t o k ho (by simp [isVar]) ?_ hord ?_ hk1 hp1
    · by_cases h0 : i = 0
      · simp [h0]
      · right; simp only [h0, if_false]; exact isVar_pipeVar _
    · rw [hk]
      by_cases h0 : i = 0
      · simp [h0]
      · have : 0 < i := by omega
        simp [h0, this, pipeVar_ne_nil]
  · rw [pipeName_eq, pipeName_eq] at hab
    exact pipeVar_inj hab

example : build someSchemas "$b".toList (parseLine "dct2 $a | idct2".toList) 0 [] =
    .ok [⟨sDct2, ["$a".toList, "$__pipe_0".toList]⟩,
      ⟨sIdct2, ["$__pipe_0".toList, "$b".toList]⟩] := by decide +kernel

/-- `zeros` writes to its first argument, but is registered with output position 1
(main.cpp 1470-1676, `GeneratorSchema`): in `zeros 3 3 | dct2 | $b` it receives the pipe variable
between its sizes, so it fails and the variable is not written, whatever the image constructor and
the files are. -/
theorem C62_zeros_violation {P F : Type} (io : FileIO P F) (mk : List Nat → Option (Val P))
    (w : World P F) :
    ∃ rest, build someSchemas "$b".toList (parseLine "zeros 3 3 | dct2".toList) 0 [] =
        .ok (⟨"zeros".toList, ["3".toList, "$__pipe_0".toList, "3".toList]⟩ :: rest) ∧
      createImage io mk w ["3".toList, "$__pipe_0".toList, "3".toList] = (w, .threw) := by
  refine ⟨[⟨sDct2, ["$__pipe_0".toList, "$b".toList]⟩], by decide +kernel, ?_⟩
  have : parseSizes ["$__pipe_0".toList, "3".toList] = none := by decide +kernel
  unfold createImage
  simp only [this]

/-- A policy word typed before the other arguments shifts the positions: in
`dct2 par $a | idct2 | $b` the first command reads the pipe variable and writes `$a`. -/
theorem C62_policy_violation :
    ∃ rest, build someSchemas "$b".toList (parseLine "dct2 par $a | idct2".toList) 0 [] =
        .ok (⟨sDct2, ["par".toList, "$__pipe_0".toList, "$a".toList]⟩ :: rest) ∧
      (plainWords ["par".toList, "$__pipe_0".toList, "$a".toList])[1]? = some "$a".toList := by
  exact ⟨[⟨sIdct2, ["$__pipe_0".toList, "$b".toList]⟩], by decide +kernel, by decide +kernel⟩

/-! ## C63 the optimiser terminates -/

/-- Products not yet replaced count twice. -/
def weight : List Cmd → Nat
  | [] => 0
  | c :: cs => (if c.name = sMultiply then 2 else 1) + weight cs

theorem weight_le (l : List Cmd) : weight l ≤ 2 * l.length := by
  induction l with
  | nil => simp [weight]
  | cons c l ih => simp only [weight, List.length_cons]; split <;> omega

theorem rule1_weight (isOne : Str → Bool) (schemas : Str → Option Schema) (c : Cmd) :
    ((rule1 isOne schemas c).2 = false ∧ (rule1 isOne schemas c).1 = c) ∨
      ((rule1 isOne schemas c).2 = true ∧ c.name = sMultiply ∧
        (rule1 isOne schemas c).1.name = sCopy) := by
  unfold rule1
  split
  · rename_i h; exact Or.inr ⟨rfl, h.1, rfl⟩
  · exact Or.inl ⟨rfl, rfl⟩

theorem updateIn_name {schemas : Str → Option Schema} {c c' : Cmd} {v : Str}
    (h : updateIn schemas c v = some c') : c'.name = c.name := by
  unfold updateIn at h
  split at h
  · simp only [Option.some.injEq] at h; subst h; rfl
  · split at h
    · rw [Option.map_eq_some_iff] at h
      obtain ⟨a, -, rfl⟩ := h
      rfl
    · cases h

theorem updateOut_name {schemas : Str → Option Schema} {c c' : Cmd} {v : Str}
    (h : updateOut schemas c v = some c') : c'.name = c.name := by
  unfold updateOut at h
  split at h
  · simp only [Option.some.injEq] at h; subst h; rfl
  · split at h
    · rw [Option.map_eq_some_iff] at h
      obtain ⟨a, -, rfl⟩ := h
      rfl
    · cases h

theorem pairRule_cases (schemas : Str → Option Schema) (c1 c2 : Cmd) :
    (∃ c, pairRule schemas c1 c2 = .collapse c ∧ c.name = sCopy) ∨
      (∃ c, pairRule schemas c1 c2 = .keep c ∧ (c.name = c1.name ∨ c.name = c2.name)) ∨
      pairRule schemas c1 c2 = .none := by
  unfold pairRule
  simp only
  split
  · split
    · exact Or.inl ⟨_, rfl, rfl⟩
    · split
      · rename_i c2' hu
        split at hu
        · exact Or.inr (Or.inl ⟨c2', rfl, Or.inr (updateIn_name hu)⟩)
        · cases hu
      · split
        · rename_i c1' hu
          split at hu
          · exact Or.inr (Or.inl ⟨c1', rfl, Or.inl (updateOut_name hu)⟩)
          · cases hu
        · exact Or.inr (Or.inr rfl)
  · exact Or.inr (Or.inr rfl)

theorem sCopy_ne : sCopy ≠ sMultiply := by decide

theorem pass_weight (isOne : Str → Bool) (schemas : Str → Option Schema) (cs : List Cmd) :
    ∀ pend : Option Cmd,
      (pass isOne schemas pend cs).1.length ≤ (pend.toList ++ cs).length ∧
      weight (pass isOne schemas pend cs).1 ≤ weight (pend.toList ++ cs) ∧
      ((pass isOne schemas pend cs).2 = true →
        weight (pass isOne schemas pend cs).1 < weight (pend.toList ++ cs)) ∧
      ((pass isOne schemas pend cs).2 = false →
        (pass isOne schemas pend cs).1 = pend.toList ++ cs) := by
  obtain ⟨n, hn⟩ : ∃ n, cs.length = n := ⟨_, rfl⟩
  induction n using Nat.strongRecOn generalizing cs with
  | _ n ih =>
  have main : ∀ (c : Cmd) (cs : List Cmd), cs.length < n ∨ (cs.length = n) →
      (pass isOne schemas (some c) cs).1.length ≤ (c :: cs).length ∧
      weight (pass isOne schemas (some c) cs).1 ≤ weight (c :: cs) ∧
      ((pass isOne schemas (some c) cs).2 = true →
        weight (pass isOne schemas (some c) cs).1 < weight (c :: cs)) ∧
      ((pass isOne schemas (some c) cs).2 = false →
        (pass isOne schemas (some c) cs).1 = c :: cs) := by
    intro c cs hlen
    have hw := rule1_weight isOne schemas c
    cases cs with
    | nil =>
      rw [pass]
      rcases hw with ⟨h1, h2⟩ | ⟨h1, h2, h3⟩
      · simp [h1, h2]
      · simp [h1, weight, h2, h3, sCopy_ne]
    | cons c2 cs =>
      have hlt : cs.length < n := by simp only [List.length_cons] at hlen; omega
      have hc1 : (if (rule1 isOne schemas c).1.name = sMultiply then 2 else 1) ≤
          (if c.name = sMultiply then 2 else 1) := by
        rcases hw with ⟨h1, h2⟩ | ⟨h1, h2, h3⟩
        · rw [h2]; exact Nat.le_refl _
        · rw [h3, if_neg sCopy_ne]; split <;> omega
      rw [pass]
      rcases pairRule_cases schemas (rule1 isOne schemas c).1 c2 with ⟨d, hd, hn⟩ | ⟨d, hd, hn⟩ | hd
      · simp only [hd]
        obtain ⟨i1, i2, i3, i4⟩ := ih cs.length hlt cs rfl none
        simp only [Option.toList_none, List.nil_append] at i1 i2
        refine ⟨by simp only [List.length_cons]; omega, ?_, fun _ => ?_, by simp⟩
        · simp only [weight, hn, if_neg sCopy_ne]; split <;> split <;> omega
        · simp only [weight, hn, if_neg sCopy_ne]; split <;> split <;> omega
      · simp only [hd]
        obtain ⟨i1, i2, i3, i4⟩ := ih cs.length hlt cs rfl (some d)
        simp only [Option.toList_some, List.singleton_append, List.length_cons, weight] at i1 i2
        have hdw : (if d.name = sMultiply then 2 else 1) ≤
            (if c.name = sMultiply then 2 else 1) ∨
            (if d.name = sMultiply then 2 else 1) ≤ (if c2.name = sMultiply then 2 else 1) := by
          rcases hn with hn | hn
          · left; rw [hn]; exact hc1
          · right; rw [hn]; exact Nat.le_refl _
        have p1 : 1 ≤ (if c.name = sMultiply then 2 else 1) := by split <;> omega
        have p2 : 1 ≤ (if c2.name = sMultiply then 2 else 1) := by split <;> omega
        refine ⟨by simp only [List.length_cons]; omega, ?_, fun _ => ?_, by simp⟩
        · simp only [weight]; omega
        · simp only [weight]; omega
      · simp only [hd]
        obtain ⟨i1, i2, i3, i4⟩ := ih cs.length hlt cs rfl (some c2)
        simp only [Option.toList_some, List.singleton_append, List.length_cons, weight] at i1 i2 i3 i4
        refine ⟨by simp only [List.length_cons]; omega, by simp only [weight]; omega, ?_, ?_⟩
        · intro hch
          simp only [weight]
          rcases hw with ⟨h1, h2⟩ | ⟨h1, h2, h3⟩
          · rw [h1, Bool.false_or] at hch
            have := i3 hch
            omega
          · rw [h3, if_neg sCopy_ne, if_pos h2]
            omega
        · intro hch
          rcases hw with ⟨h1, h2⟩ | ⟨h1, h2, h3⟩
          · rw [h1, Bool.false_or] at hch
            rw [h2, i4 hch]
          · rw [h1] at hch; simp at hch
  intro pend
  cases pend with
  | some c =>
    have := main c cs (Or.inr hn)
    simpa only [Option.toList_some, List.singleton_append] using this
  | none =>
    simp only [Option.toList_none, List.nil_append]
    cases cs with
    | nil => simp [pass]
    | cons c cs =>
      rw [pass]
      exact main c cs (Or.inl (by simp only [List.length_cons] at hn; omega))

/-- The number of passes allowed in the model is always enough. -/
theorem optimizeFuel_total (isOne : Str → Bool) (schemas : Str → Option Schema) :
    ∀ (n : Nat) (p : List Cmd), weight p < n →
      ∃ q, optimizeFuel isOne schemas n p = some q ∧ q.length ≤ p.length ∧
        pass isOne schemas none q = (q, false) ∧
        ∀ m, n ≤ m → optimizeFuel isOne schemas m p = some q := by
  intro n
  induction n with
  | zero => intro p h; omega
  | succ n ih =>
    intro p h
    obtain ⟨h1, h2, h3, h4⟩ := pass_weight isOne schemas p none
    simp only [Option.toList_none, List.nil_append] at h1 h2 h3 h4
    by_cases hc : (pass isOne schemas none p).2 = true
    · obtain ⟨q, e1, e2, e3, e4⟩ := ih (pass isOne schemas none p).1 (by have := h3 hc; omega)
      refine ⟨q, by simp [optimizeFuel, hc, e1], by omega, e3, fun m hm => ?_⟩
      obtain ⟨m, rfl⟩ : ∃ k, m = k + 1 := ⟨m - 1, by omega⟩
      simp [optimizeFuel, hc, e4 m (by omega)]
    · have hc' : (pass isOne schemas none p).2 = false := by simpa using hc
      have e := h4 hc'
      refine ⟨p, by simp [optimizeFuel, hc', e], Nat.le_refl _, ?_, fun m hm => ?_⟩
      · exact Prod.ext e hc'
      · obtain ⟨m, rfl⟩ : ∃ k, m = k + 1 := ⟨m - 1, by omega⟩
        simp [optimizeFuel, hc', e]

/-- Optimising finishes for every pipeline, registry and notion of a factor equal to one: from some
number of passes on the loop has ended (`optimizeFuel` is the loop cut off after a number of
passes), with a pipeline that is not longer. Optimising that pipeline again changes nothing, and one
pass of the loop over it reports no change. -/
theorem C63 (isOne : Str → Bool) (schemas : Str → Option Schema) (p : List Cmd) :
    (∃ n, ∀ m, n ≤ m → optimizeFuel isOne schemas m p = some (optimize isOne schemas p)) ∧
      (optimize isOne schemas p).length ≤ p.length ∧
      optimize isOne schemas (optimize isOne schemas p) = optimize isOne schemas p ∧
      pass isOne schemas none (optimize isOne schemas p) = (optimize isOne schemas p, false) := by
  obtain ⟨q, e1, e2, e3, e4⟩ := optimizeFuel_total isOne schemas (2 * p.length + 1) p
    (by have := weight_le p; omega)
  have ho : optimize isOne schemas p = q := by unfold optimize; rw [e1]; rfl
  rw [ho]
  refine ⟨⟨_, e4⟩, e2, ?_, e3⟩
  unfold optimize optimizeFuel
  simp [e3]

/-- A pipeline that takes three passes to settle. -/
example : optimize (fun s => s == "1".toList) someSchemas
    [⟨sMultiply, ["$a".toList, "$__pipe_0".toList, "1".toList]⟩,
      ⟨sDct2, ["$__pipe_0".toList, "$__pipe_1".toList]⟩,
      ⟨sIdct2, ["$__pipe_1".toList, "$__pipe_2".toList]⟩,
      ⟨sMultiply, ["$__pipe_2".toList, "$b".toList, "2".toList]⟩] =
    [⟨sMultiply, ["$a".toList, "$b".toList, "2".toList]⟩] := by decide +kernel

example := C62_typed someSchemas [] (parseLine "read a.bmp | multiply 2 par | write b.bmp".toList)
  [⟨"read".toList, ["a.bmp".toList, "$__pipe_0".toList]⟩,
    ⟨sMultiply, ["$__pipe_0".toList, "$__pipe_1".toList, "2".toList, "par".toList]⟩,
    ⟨"write".toList, ["$__pipe_1".toList, "b.bmp".toList]⟩] (by decide +kernel)

end TinyDIP.Props
