import Verif.Lemmas.Session
import Verif.Lemmas.Chain
import Verif.Lemmas.CliNum
import Verif.Spec.Plugin

/-!
# C190: a variable changes only when a line names it
-/

namespace TinyDIP.Props
open TinyDIP TinyDIP.Cli

variable {P F : Type}

theorem tables_modest (o : Open F) (r : OpenR F) :
    (∀ c ∈ numberTable o, Modest o.io c.2) ∧ ∀ c ∈ imageTable r, Modest r.io c.2 := by
  have tr : ∀ {P : Type} (io : FileIO P F) (m : Nat) (check : Ty → Bool)
      (setup : List Str → Str → Option (Val P → Act (Val P))), Modest io (ofU (transformU io m check setup)) :=
    fun io m check setup => modest_ofU fun w args out h =>
      kept_of_frame (argsFilter_eq args ▸ transformU_frame io m check setup w args out h)
  have sc : ∀ (m : Nat) (core : Str → Val Pay → Res (Val Pay)), Modest o.io (ofU (metaScalar o.io m core)) :=
    fun m core => modest_ofU fun w args out h => kept_of_var (i := 1) (by
      rcases C115_frame o.io m core w args out h with h | ⟨d, _, h1, -, h2, -⟩
      · exact .inl h
      · exact .inr ⟨d, h1, h2⟩)
  have bi : ∀ core : Val Pay → Val Pay → Res (Val Pay), Modest o.io (ofU (binaryCmd o.io core)) :=
    fun core => modest_ofU fun w args out h => kept_of_frame (C116_frame o.io core w args out h)
  have told : ∀ w args, (printCmd o.io w args).world = w := by
    intro w args
    unfold printCmd
    split
    · rfl
    · split
      · rfl
      · rfl
      · split
        · split <;> rfl
        · rfl
  have info : ∀ w args t, infoCmd o.io o.toSizes w args = .ok t → t.world = w := by
    intro w args t h
    unfold infoCmd at h
    split at h
    · injection h with h; subst h; rfl
    · split at h
      · injection h with h; subst h; rfl
      · injection h with h; subst h; rfl
      · rename_i v _
        cases hs : imgSize o.toSizes v with
        | ok s => rw [hs] at h; injection h with h; subst h; rfl
        | throw e => rw [hs] at h; cases h
        | ub => rw [hs] at h; cases h
  constructor
  · intro c hc
    simp only [numberTable, List.mem_cons, List.not_mem_nil, or_false] at hc
    rcases hc with rfl | rfl | rfl | rfl | rfl | rfl | rfl | rfl | rfl | rfl | rfl | rfl | rfl | rfl | rfl | rfl | rfl |
      rfl | rfl | rfl | rfl | rfl | rfl | rfl | rfl | rfl | rfl | rfl
    · exact modest_ofPlain (append_kept o.io)
    · exact modest_ofU fun w args out h => kept_of_frame ((C118_frame o.io w args o.order out).1 h)
    · exact modest_ofPlain (copy_kept _)
    · exact modest_ofPlain (createContainer_kept o.io)
    · exact modest_ofPlain (erase_kept o.io)
    · exact modest_ofPlain (getElement_kept o.io)
    · exact modest_ofU fun w args out h => kept_of_frame ((C118_frame o.io w args o.order out).2 h)
    · exact modest_ofTold o.io info
    · exact modest_ofPlain (multiply_kept o.io o.mul)
    · exact modest_ofPlain (createImage_kept o.io _)
    · exact modest_ofTold o.io (h := fun w args => .ok (printCmd o.io w args)) fun w args t h => by
        injection h with h; subst h; exact told w args
    · exact modest_ofPlain (rand_kept o.io o.gen o.seed)
    · exact ⟨read_discreet o.io, read_tidy o.io⟩
    · exact ⟨remove_discreet, remove_tidy _⟩
    · exact ⟨rename_discreet, rename_tidy _⟩
    · exact tr _ _ _ _
    · exact modest_ofTold o.io (h := fun w _ => .ok (varsCmd w)) fun w args t h => by
        injection h with h; subst h; rfl
    · exact modest_ofPlain (write_kept o.io)
    · exact modest_ofPlain (createImage_kept o.io _)
    · exact modest_ofU fun w args out h => kept_of_var (C117_count_frame o.io o.dbl w args out h)
    · exact tr _ _ _ _
    · exact sc _ _
    · exact sc _ _
    · exact sc _ _
    · exact bi _
    · exact bi _
    · exact modest_ofU fun w args out h => kept_of_frame (C117_replace_frame o.io o.dbl w args out h)
    · exact modest_ofU fun w args out h => kept_of_var (C119_command_frame o.io o.toPair w args out h)
  · intro c hc
    simp only [imageTable, List.mem_cons, List.not_mem_nil, or_false] at hc
    rcases hc with rfl | rfl | rfl | rfl | rfl | rfl | rfl | rfl | rfl | rfl | rfl | rfl | rfl | rfl | rfl | rfl | rfl |
      rfl | rfl | rfl | rfl | rfl | rfl
    · exact tr _ _ _ _
    · exact modest_ofPlain (copy_kept _)
    · exact tr _ _ _ _
    · exact tr _ _ _ _
    · exact modest_ofU (gaussian_kept r.io r.dbl)
    · exact tr _ _ _ _
    · exact tr _ _ _ _
    · exact tr _ _ _ _
    · exact modest_ofU (sift_kept r.io r.dbl r.sched r.toOption)
    · exact tr _ _ _ _
    · exact tr _ _ _ _
    · exact tr _ _ _ _
    · exact tr _ _ _ _
    · exact tr _ _ _ _
    · exact tr _ _ _ _
    · exact ⟨read_discreet r.io, read_tidy r.io⟩
    · exact ⟨remove_discreet, remove_tidy _⟩
    · exact ⟨rename_discreet, rename_tidy _⟩
    · exact tr _ _ _ _
    · exact modest_ofU (octave_kept r.io r.dbl r.order)
    · exact tr _ _ _ _
    · exact modest_ofPlain (write_kept r.io)
    · exact modest_ofU (metaScalarArgs_kept r.io _ _)

/-- Every command of the two tables leaves alone the variables that none of its words may refer to, whatever its
arguments are, whether it succeeds, rejects its arguments or reports an error. -/
theorem C190_commands (o : Open F) (r : OpenR F) :
    (∀ c ∈ numberTable o, Discreet c.2) ∧ ∀ c ∈ imageTable r, Discreet c.2 :=
  ⟨fun c h => ((tables_modest o r).1 c h).1, fun c h => ((tables_modest o r).2 c h).1⟩

/-- Every command of the two tables writes no file but those at the paths its words mean. -/
theorem C191_commands (o : Open F) (r : OpenR F) :
    (∀ c ∈ numberTable o, Tidy o.io c.2) ∧ ∀ c ∈ imageTable r, Tidy r.io c.2 :=
  ⟨fun c h => ((tables_modest o r).1 c h).2, fun c h => ((tables_modest o r).2 c h).2⟩

/-- The names of the two tables. -/
def tableNames : List String :=
  ["append_element", "constructRGB", "copy", "create_container", "erase_element", "get_element", "grid", "info",
    "multiply", "ones", "print", "rand", "read", "remove", "rename", "subimage", "vars", "write", "zeros",
    "count", "abs", "max", "min", "sum", "add", "subtract", "replace", "manhattan_distance", "bicubic_resize",
    "copy", "dct2", "dct3", "gaussian_figure_2d", "getBplane", "getGplane", "getRplane",
    "get_sift_potential_keypoint", "hsv2rgb", "idct2", "im2double", "im2uint8", "lanczos_resample",
    "normalize", "read", "remove", "rename", "rotate", "sift_generate_octave", "to_complex", "write",
    "estimate_gaussian_params_2d"]

/-- The tables have every command of the program except `batch_add_zeros`, `help`, `load_plugins`, `load_workspace`,
`save_workspace`, `test` and `transform_container`, every command of the shipped plugins, and nothing else but two
handlers that are there for plugins. -/
theorem C190_names (o : Open F) (r : OpenR F) (name : String) :
    name.toList ∈ (numberTable o).map (·.1) ++ (imageTable r).map (·.1) ↔
      (name ∈ (Plug.programCommands ++ Plug.shippedCommands).flatMap (·.1) ∧
        name ∉ ["batch_add_zeros", "help", "load_plugins", "load_workspace", "save_workspace", "test",
          "transform_container"]) ∨ name ∈ ["manhattan_distance", "estimate_gaussian_params_2d"] := by
  have e : (numberTable o).map (·.1) ++ (imageTable r).map (·.1) = tableNames.map String.toList := rfl
  rw [e, List.mem_map]
  constructor
  · rintro ⟨n, hn, h⟩
    rw [String.toList_inj] at h
    subst h
    revert n
    decide +kernel
  · rintro (⟨h, hn⟩ | h)
    · refine ⟨name, ?_, rfl⟩
      revert hn
      revert name
      decide +kernel
    · refine ⟨name, ?_, rfl⟩
      revert name
      decide +kernel

theorem isDigit_plain {c : Char} (h : c.isDigit = true) : c ≠ '/' ∧ c ≠ '.' := by
  constructor <;> (rintro rfl; exact absurd h (by decide))

/-- A pipe variable is not an ordinary name. -/
theorem pipe_other (x : Str) (hx : Ordinary x) (i : Nat) : ¬ MayName (pipeVar i) x := by
  have hd : ∀ c ∈ pipeVar i, c ≠ '/' ∧ c ≠ '.' := by
    intro c hc
    rcases List.mem_append.1 hc with hc | hc
    · clear * - hc; revert c; decide
    · exact isDigit_plain (isDigit_toStr hc)
  obtain ⟨h0, h1, h2⟩ := hx (sanitize x) (means_iff.2 rfl)
  have hkeep : ∀ p : Str, p ≠ [] → (∀ c ∈ p, isJunk c = false) → ∃ t, sanitize (p ++ toStr i) = p ++ t :=
    fun p h1 h2 => sanitize_keep p _ h1 h2
  have hs : sanitize (pipeVar i) = pipeVar i := by
    refine sanitize_eq_self ?_ ?_
    · intro c hc
      simp only [pipeVar, pipePrefix, List.cons_append, List.head?_cons, Option.some.injEq] at hc
      subst hc
      simp [Junk]
    · intro c hc
      have : (pipeVar i).getLast? = (toStr i).getLast? := by
        unfold pipeVar
        rw [List.getLast?_append]
        cases h : (toStr i).getLast? with
        | none => exact absurd (List.getLast?_eq_none_iff.1 h) (toStr_ne_nil i)
        | some d => rfl
      rw [this] at hc
      exact not_junk_of_digit (isDigit_toStr (List.mem_of_getLast? hc))
  rintro (h | ⟨v, hv, h⟩ | ⟨p, s, hp, ⟨dir, ext, rfl, -, hdir, hext⟩, h⟩)
  · have := congrArg List.head? h
    simp [pipeVar, pipePrefix] at this
  · have hv' : v = "__pipe_".toList ++ toStr i := by
      have : pipeVar i = '$' :: ("__pipe_".toList ++ toStr i) := rfl
      rw [this] at hv
      injection hv with _ hv
      exact hv.symm
    obtain ⟨t, ht⟩ := hkeep "__pipe_".toList (by decide) (by decide)
    rw [sameVar_iff, hv', ht] at h
    exact h2 ⟨t, h⟩
  · rw [means_iff, hs] at hp
    have e1 : dir = [] := by
      rcases hdir with e | ⟨d, rfl⟩
      · exact e
      · exact absurd rfl (hd '/' (by rw [hp]; simp)).1
    have e2 : ext = [] := by
      rcases hext with e | ⟨d, rfl, -⟩
      · exact e
      · exact absurd rfl (hd '.' (by rw [hp]; simp)).2
    subst e1 e2
    simp only [List.nil_append, List.append_nil] at hp
    rw [sameVar_iff, ← hp, hs] at h
    apply h1
    rw [← h]
    rfl

theorem empty_other (x : Str) (hx : Ordinary x) : ¬ MayName [] x := by
  obtain ⟨h0, -, -⟩ := hx (sanitize x) (means_iff.2 rfl)
  rintro (h | ⟨v, hv, -⟩ | ⟨p, s, hp, ⟨dir, ext, rfl, -, -, -⟩, h⟩)
  · exact absurd h (by decide)
  · cases hv
  · have : dir ++ s ++ ext = [] := (means_iff.1 hp).symm.trans rfl
    simp only [List.append_eq_nil_iff] at this
    rw [this.1.2, sameVar_iff] at h
    exact h0 h.symm

theorem empty_elsewhere {D : Type} {io : FileIO P F} {see : F → D} (h : Spares io see []) : Elsewhere io see [] :=
  .inr fun p hp => by
    have : p = [] := (means_iff.1 hp).symm.trans rfl
    rw [this]; exact h

/-- A line of any number of stages, with its pipe variables and after the optimiser has rewritten it, changes no
variable that none of its words may refer to. `some w'` says that the line did not run into undefined behaviour; the
line may succeed, be refused or report errors. -/
theorem C190_line (isOne : Str → Bool) (reg : Registry (Option (World P F))) (line : Str) (w w' : World P F) (n : Next)
    (x : Str)
    (hreg : ∀ name info, WordOf line name ∨ name = "copy".toList → reg.lookup name = some info → Discreet info.handler)
    (hx : Ordinary x) (hline : ∀ a, WordOf line a → ¬ MayName a x)
    (h : runLine isOne reg line (some w) = (some w', n)) :
    w'.ws.retrieveAny x = w.ws.retrieveAny x := by
  obtain ⟨w0, hw, e⟩ := runLine_respects reg (fun a => ¬ MayName a x)
    (fun w w' => w'.ws.retrieveAny x = w.ws.retrieveAny x) (fun _ => rfl) (fun _ _ _ h1 h2 => h2.trans h1) isOne line (some w) w' n
    (fun name info hn hi => (discreet_iff _).1 (hreg name info hn hi) x) (empty_other x hx) (pipe_other x hx) hline h
  injection hw with hw
  rw [hw]
  exact e

/-- A whole session: a variable that no word of any of its lines may refer to holds at the end what it held at the
start, whatever the lines do. -/
theorem C190_session (isOne : Str → Bool) (reg : Registry (Option (World P F)))
    (hreg : ∀ name info, reg.lookup name = some info → Discreet info.handler) (x : Str) (hx : Ordinary x)
    (lines : List Str) (w w' : World P F) (n : Next) (hl : ∀ l ∈ lines, ∀ a, WordOf l a → ¬ MayName a x)
    (h : runLines isOne reg lines (some w) = (some w', n)) : w'.ws.retrieveAny x = w.ws.retrieveAny x := by
  obtain ⟨w0, hw, e⟩ := runLines_respects reg (fun a => ¬ MayName a x)
    (fun w w' => w'.ws.retrieveAny x = w.ws.retrieveAny x) (fun _ => rfl) (fun _ _ _ h1 h2 => h2.trans h1) isOne
    (fun name info hi => (discreet_iff _).1 (hreg name info hi) x) (empty_other x hx) (pipe_other x hx) lines (some w)
    w' n hl h
  injection hw with hw
  rw [hw]
  exact e

/-- A line of any number of stages, with its pipe variables and after the optimiser has rewritten it, writes no file
but those at the paths its words mean: whatever is seen of the files and cannot be changed by saving at such a path
(or at the empty path) is as before. -/
theorem C191_line {D : Type} (io : FileIO P F) (see : F → D) (isOne : Str → Bool)
    (reg : Registry (Option (World P F))) (line : Str) (w w' : World P F) (n : Next)
    (hreg : ∀ name info, WordOf line name ∨ name = "copy".toList → reg.lookup name = some info → Tidy io info.handler)
    (hempty : Spares io see []) (hline : ∀ a, WordOf line a → Elsewhere io see a)
    (h : runLine isOne reg line (some w) = (some w', n)) : see w'.fs = see w.fs := by
  obtain ⟨w0, hw, e⟩ := runLine_respects reg (fun a => Elsewhere io see a)
    (fun w w' => see w'.fs = see w.fs) (fun _ => rfl) (fun _ _ _ h1 h2 => h2.trans h1) isOne line (some w) w' n
    (fun name info hn hi => (tidy_iff _ _).1 (hreg name info hn hi) D see) (empty_elsewhere hempty)
    (fun _ => .inl rfl) hline h
  injection hw with hw
  rw [hw]
  exact e

/-- A whole session writes no file but those at the paths the words of its lines mean. -/
theorem C191_session {D : Type} (io : FileIO P F) (see : F → D) (isOne : Str → Bool)
    (reg : Registry (Option (World P F))) (hreg : ∀ name info, reg.lookup name = some info → Tidy io info.handler)
    (hempty : Spares io see []) (lines : List Str) (w w' : World P F) (n : Next)
    (hl : ∀ l ∈ lines, ∀ a, WordOf l a → Elsewhere io see a)
    (h : runLines isOne reg lines (some w) = (some w', n)) : see w'.fs = see w.fs := by
  obtain ⟨w0, hw, e⟩ := runLines_respects reg (fun a => Elsewhere io see a)
    (fun w w' => see w'.fs = see w.fs) (fun _ => rfl) (fun _ _ _ h1 h2 => h2.trans h1) isOne
    (fun name info hi => (tidy_iff _ _).1 (hreg name info hi) D see) (empty_elsewhere hempty) (fun _ => .inl rfl) lines
    (some w) w' n hl h
  injection hw with hw
  rw [hw]
  exact e

/-! ## Concrete cases -/

/-- A line without the letters `c` and `l` has no word that refers to the variable `c`. -/
theorem not_named {line : Str} {c : Char} (hc : ¬ Junk c) (h1 : c ∉ line) (h2 : 'l' ∉ line) (a : Str)
    (ha : WordOf line a) : ¬ MayName a [c] := by
  obtain ⟨pre, suf, rfl, -⟩ := ha
  have hm : ∀ s, SameVar s [c] → c ∈ s := by
    intro s h
    have hc' : sanitize [c] = [c] := sanitize_eq_self (by simpa using hc) (by simpa using hc)
    obtain ⟨n, ⟨⟨pre, suf, rfl, -⟩, -⟩, h⟩ := h
    rw [means_iff, hc'] at h
    simp [← h]
  rintro (rfl | ⟨v, rfl, h⟩ | ⟨p, s, ⟨⟨q, t, rfl, -⟩, -⟩, ⟨dir, ext, rfl, -⟩, h⟩)
  · exact h2 (by simp)
  · exact h1 (by simp [hm v h])
  · exact h1 (by simp [hm s h])

theorem ordinary_z : Ordinary ['z'] := by
  intro t h
  rw [means_iff] at h
  subst h
  decide

/-- A registry with four of the commands, as main.cpp 1461-1650 fills it. -/
def someReg (o : Open F) : Registry (Option (World Pay F)) :=
  [("copy".toList, ⟨⟨none, none⟩, ofPlain copyCmd⟩), ("abs".toList, ⟨⟨some 0, some 1⟩, ofU (absCmd o.io o.toAct o.orders)⟩),
    ("multiply".toList, ⟨⟨some 0, some 1⟩, ofPlain (multiplyCmd o.io o.mul)⟩),
    ("rename".toList, ⟨⟨none, none⟩, ofPlain renameCmd⟩)]

theorem someReg_modest (o : Open F) (name : Str) (info : CmdInfo (Option (World Pay F)))
    (h : (someReg o).lookup name = some info) : Modest o.io info.handler := by
  have hm : ∃ n, (n, info) ∈ someReg o := by
    unfold Registry.lookup at h
    rw [Option.map_eq_some_iff] at h
    obtain ⟨⟨n, i⟩, h, rfl⟩ := h
    exact ⟨n, List.mem_of_find?_eq_some h⟩
  obtain ⟨n, hm⟩ := hm
  simp only [someReg, List.mem_cons, Prod.mk.injEq, List.not_mem_nil, or_false] at hm
  rcases hm with ⟨-, rfl⟩ | ⟨-, rfl⟩ | ⟨-, rfl⟩ | ⟨-, rfl⟩
  · exact modest_ofPlain (copy_kept _)
  · exact modest_ofU fun w args out h =>
      kept_of_frame (argsFilter_eq args ▸ transformU_frame o.io _ _ _ w args out h)
  · exact modest_ofPlain (multiply_kept o.io o.mul)
  · exact ⟨rename_discreet, rename_tidy _⟩

theorem someReg_discreet (o : Open F) (name : Str) (info : CmdInfo (Option (World Pay F)))
    (h : (someReg o).lookup name = some info) : Discreet info.handler := (someReg_modest o name info h).1

example (o : Open F) (w w' : World Pay F) (n : Next)
    (h : runLine (fun _ => false) (someReg o) "abs $a | abs | $b".toList (some w) = (some w', n)) :
    w'.ws.retrieveAny "z".toList = w.ws.retrieveAny "z".toList :=
  C190_line _ (someReg o) _ w w' n ['z'] (fun name info _ => someReg_discreet o name info) ordinary_z
    (not_named (by simp [Junk]) (by decide) (by decide)) h

/-- The session of the next example is defined and does change the variable it names. -/
example (o : Open F) (fs : F) : (runLines (fun _ => false) (someReg o) ["copy $a $b".toList, "rename $b $d".toList]
    (some ⟨⟨[(['a'], .atom (.num .int) (.num 5))]⟩, fs⟩)).1.map (·.ws.store.map (·.1)) =
      some [['d'], ['a']] := by
  rfl

example (o : Open F) (w w' : World Pay F) (n : Next)
    (h : runLines (fun _ => false) (someReg o) ["copy $a $b".toList, "rename $b $d".toList] (some w) = (some w', n)) :
    w'.ws.retrieveAny "z".toList = w.ws.retrieveAny "z".toList :=
  C190_session _ (someReg o) (someReg_discreet o) ['z'] ordinary_z _ w w' n (by
    intro l hl
    simp only [List.mem_cons, List.not_mem_nil, or_false] at hl
    rcases hl with rfl | rfl
    · exact not_named (by simp [Junk]) (by decide) (by decide)
    · exact not_named (by simp [Junk]) (by decide) (by decide)) h

/-- Files as a function from paths to pictures; saving stores the picture and never fails. -/
def someFiles : FileIO Pay (Str → Option (Val Pay)) :=
  ⟨fun fs p => fs p, fun fs p v => some fun q => if q = p then some v else fs q⟩

/-- A session that writes `out.bmp` leaves every other file alone. -/
example (o : Open (Str → Option (Val Pay))) (ho : o.io = someFiles) (file : Str)
    (hf : file ∉ [[], "abs".toList, "out.bmp".toList]) (w w' : World Pay (Str → Option (Val Pay))) (n : Next)
    (h : runLines (fun _ => false) (someReg o) ["abs $a out.bmp".toList] (some w) = (some w', n)) :
    w'.fs file = w.fs file := by
  have hsp : ∀ p, p ≠ file → Spares someFiles (fun fs => fs file) p := by
    rintro p hp fs v fs' h
    simp only [someFiles, Option.some.injEq] at h
    subst h
    exact if_neg fun e => hp e.symm
  simp only [List.mem_cons, List.not_mem_nil, or_false, not_or] at hf
  refine C191_session someFiles (fun fs => fs file) _ (someReg o)
    (fun name info hi => ho ▸ (someReg_modest o name info hi).2) (hsp _ fun e => hf.1 e.symm) _ w w' n ?_ h
  intro l hl a ha
  rw [List.mem_singleton] at hl
  subst hl
  obtain ⟨stage, hs, ha⟩ := parse_wordOf _ a ha
  have : parseLine "abs $a out.bmp".toList = [["abs".toList, "$a".toList, "out.bmp".toList]] := by decide +kernel
  rw [this, List.mem_singleton] at hs
  subst hs
  simp only [List.mem_cons, List.not_mem_nil, or_false] at ha
  rcases ha with rfl | rfl | rfl
  · refine .inr fun p hp => hsp p fun e => hf.2.1 ?_
    rw [← e, ← means_iff.1 hp]; decide +kernel
  · exact .inl (by decide +kernel)
  · refine .inr fun p hp => hsp p fun e => hf.2.2 ?_
    rw [← e, ← means_iff.1 hp]; decide +kernel

/-- The names that are not protected: `remove all` and `read` with a file name only. -/
example : MayName "all".toList "z".toList ∧ MayName "pictures/z.bmp".toList "z".toList ∧ MayName "$z".toList "z".toList :=
  ⟨.inl rfl, .inr (.inr ⟨"pictures/z.bmp".toList, "z".toList, means_iff.2 (by decide +kernel),
    ⟨"pictures/".toList, ".bmp".toList, by decide +kernel, by decide +kernel, .inr ⟨"pictures".toList, by decide +kernel⟩,
      .inr ⟨"bmp".toList, by decide +kernel, by decide +kernel⟩⟩, sameVar_iff.2 rfl⟩), .inr (.inl ⟨"z".toList, rfl, sameVar_iff.2 rfl⟩)⟩

end TinyDIP.Props
