import Verif.Spec.Plugin
import Verif.Lemmas.Plugin
import Verif.Props.Pipeline

/-!
# C132 to C134, C186: plugins, library references and `main`
-/

namespace TinyDIP.Props

open TinyDIP.Cli TinyDIP.Cli.Plug

variable {σ : Type}

theorem effective_iff (m : Module σ) : effective m = true ↔ m.Usable := by
  have h1 := splitExt_module (f := m.file) (suffix := "so".toList) (by decide) (by decide)
  have h2 := splitExt_module (f := m.file) (suffix := "dll".toList) (by decide) (by decide)
  have h3 := splitExt_module (f := m.file) (suffix := "dylib".toList) (by decide) (by decide)
  have e1 : ".so".toList = '.' :: "so".toList := by decide
  have e2 : ".dll".toList = '.' :: "dll".toList := by decide
  have e3 : ".dylib".toList = '.' :: "dylib".toList := by decide
  unfold effective isModuleExt Module.Usable ModuleName
  simp only [Bool.and_eq_true, Bool.or_eq_true, beq_iff_eq, e1, e2, e3, h1, h2, h3]
  constructor
  · rintro ⟨⟨(⟨s, a, b⟩ | ⟨s, a, b⟩) | ⟨s, a, b⟩, h⟩, h'⟩
    · exact ⟨⟨s, a, Or.inr (Or.inl b)⟩, h, h'⟩
    · exact ⟨⟨s, a, Or.inl b⟩, h, h'⟩
    · exact ⟨⟨s, a, Or.inr (Or.inr b)⟩, h, h'⟩
  · rintro ⟨⟨s, a, b | b | b⟩, h, h'⟩
    · exact ⟨⟨Or.inl (Or.inr ⟨s, a, b⟩), h⟩, h'⟩
    · exact ⟨⟨Or.inl (Or.inl ⟨s, a, b⟩), h⟩, h'⟩
    · exact ⟨⟨Or.inr ⟨s, a, b⟩, h⟩, h'⟩

theorem firstReg_iff {β : Type} (cs : List (Str × β)) (n : Str) (x : β) :
    firstReg cs n = some x ↔ FirstUnder cs n x := by
  unfold firstReg FirstUnder
  constructor
  · intro h
    rw [Option.map_eq_some_iff] at h
    obtain ⟨c, hc, rfl⟩ := h
    rw [List.find?_eq_some_iff_append] at hc
    obtain ⟨he, a, b, rfl, ha⟩ := hc
    have he : c.1 = n := by simpa using he
    refine ⟨a, b, by rw [← he], fun c' hc' => ?_⟩
    have := ha c' hc'
    simpa using this
  · rintro ⟨a, b, rfl, ha⟩
    rw [List.find?_append, List.find?_eq_none.2 (by simpa using ha)]
    simp

/-! ## C132: what loading plugins does to the commands -/

open Classical in
/-- After loading a directory every command that existed is unchanged, and every other name belongs to the first
command registered under it, in the order in which the files are visited, by a module that can be loaded. Files
that are no modules, cannot be opened or do not export the entry point are skipped without affecting
the others. -/
theorem C132_load (grow : Nat → Nat) (h h' : Host σ) (ms : List (Module σ))
    (he : loadPlugins grow h (.entries ms) = (h', .done)) (n : Str) :
    (∀ i, h.command n = some i → h'.command n = some i) ∧
    (h.command n = none → ∀ i, h'.command n = some i ↔
      FirstUnder ((ms.filter fun m => m.Usable).flatMap fun m => m.commands) n i) := by
  have hf : (ms.filter fun m => m.Usable) = ms.filter effective := by
    refine List.filter_congr fun m _ => ?_
    rw [Bool.eq_iff_iff]
    simpa using (effective_iff m).symm
  rw [hf]
  rw [loadPlugins] at he
  cases e : loadAll grow h ms with
  | mk h1 b =>
    rw [e] at he
    cases b with
    | true => simp at he
    | false =>
      simp only [Prod.mk.injEq, and_true] at he
      subst he
      have := loadAll_find grow ms h (by rw [e]) n
      rw [e] at this
      change h1.command n = (h.command n).or _ at this
      constructor
      · intro i hi
        rw [this, hi]; rfl
      · intro hi i
        rw [this, hi, Option.none_or, firstReg_iff]

/-- Directories that are missing or cannot be read leave the commands as they are. -/
theorem C132_no_directory (grow : Nat → Nat) (h : Host σ) :
    loadPlugins grow h .missing = (h, .done) ∧ loadPlugins grow h .unreadable = (h, .fsError) := ⟨rfl, rfl⟩

theorem loadPlugins_keeps (grow : Nat → Nat) (d : Dir σ) (h : Host σ) (n : Str) (e : Entry σ)
    (he : h.table.find n = some e) : (loadPlugins grow h d).1.table.find n = some e := by
  cases d with
  | missing => exact he
  | unreadable => exact he
  | entries l =>
    have := loadAll_keeps grow l h n e he
    rw [loadPlugins]
    cases e' : loadAll grow h l with
    | mk h' b => rw [e'] at this; cases b <;> exact this

theorem session_keeps (grow : Nat → Nat) (steps : List (Step σ)) (h : Host σ) (s : σ) (n : Str) (e : Entry σ)
    (he : h.table.find n = some e) : (session grow (h, s) steps).1.table.find n = some e := by
  induction steps generalizing h s with
  | nil => exact he
  | cons st steps ih =>
    cases st with
    | load d =>
      have := loadPlugins_keeps grow d h n e he
      rw [session]
      cases e' : loadPlugins grow h d with
      | mk h' b => rw [e'] at this; cases b <;> first | exact ih h' s this | exact this
    | run name args =>
      rw [session]
      cases e' : exec h name args s with
      | mk s' l => cases l <;> first | exact ih h s' he | exact he

theorem boot_table (body : Str → Handler σ) : (bootHost body).table = coreTable body := by
  simp only [bootHost]

theorem core_find (body : Str → Handler σ) {n : Str} {sch : Schema} (hn : (n, sch) ∈ coreCommands) :
    (coreTable body).find n = some ⟨none, ⟨sch, body n⟩⟩ := by
  have hnd : (coreCommands.map (·.1)).Nodup := by decide +kernel
  unfold coreTable
  rw [find_registerAll (fun c => ⟨none, ⟨c.2, body c.1⟩⟩)]
  have h0 : Table.find ([] : Table σ) n = none := rfl
  rw [h0, Option.none_or]
  have h1 := (firstReg_eq_some hnd n sch).2 hn
  unfold firstReg at h1
  rw [Option.map_eq_some_iff] at h1 ⊢
  obtain ⟨c, hc, rfl⟩ := h1
  have : c.1 = n := by simpa using List.find?_some hc
  exact ⟨c, hc, by rw [this]⟩

/-- The commands of the program keep their schemas and their handlers through every session, whatever plugins are
loaded: none of their names is used twice, and no plugin can replace one. -/
theorem C132_core (grow : Nat → Nat) (body : Str → Handler σ) (s : σ) (steps : List (Step σ)) :
    ∀ c ∈ coreCommands, (session grow (bootHost body, s) steps).1.command c.1 = some ⟨c.2, body c.1⟩ := by
  intro c hc
  have := session_keeps grow steps (bootHost body) s c.1 ⟨none, ⟨c.2, body c.1⟩⟩ (by rw [boot_table]; exact core_find body hc)
  rw [Host.command, this]
  rfl

example : coreCommands[43]? = some ("load_plugins".toList, independentSchema) ∧ coreCommands.length = 44 :=
  ⟨rfl, rfl⟩

/-- Which commands these are and where their source and destination variables stand: those of the specification and
no others. -/
theorem C132_roles (grow : Nat → Nat) (body : Str → Handler σ) (s : σ) (steps : List (Step σ)) :
    (∀ r ∈ programCommands, ∀ n ∈ r.1,
      (session grow (bootHost body, s) steps).1.command n.toList = some ⟨⟨r.2.1, r.2.2⟩, body n.toList⟩) ∧
    ∀ m : Str, (∀ r ∈ programCommands, ∀ n ∈ r.1, n.toList ≠ m) → (bootHost body).command m = none := by
  constructor
  · intro r hr n hn
    have h : ∀ r ∈ programCommands, ∀ n ∈ r.1, (n.toList, (⟨r.2.1, r.2.2⟩ : Schema)) ∈ coreCommands := by decide +kernel
    exact C132_core grow body s steps _ (h r hr n hn)
  · intro m hm
    have h : ∀ c ∈ coreCommands, ∃ r ∈ programCommands, ∃ n ∈ r.1, n.toList = c.1 := by decide +kernel
    rw [Host.command, boot_table]
    unfold coreTable
    rw [find_registerAll (fun c => ⟨none, ⟨c.2, body c.1⟩⟩)]
    have : (coreCommands.find? fun d => d.1 == m) = none := by
      rw [List.find?_eq_none]
      intro c hc e
      obtain ⟨r, hr, n, hn, en⟩ := h c hc
      exact hm r hr n hn (en.trans (by simpa using e))
    rw [this]
    rfl

example := (C132_roles (σ := Nat) (fun n => 2 * n + 1) (fun _ s _ => (s, .returned)) 0 []).1
  (["info", "print", "write"], some 0, none) (by decide +kernel) "print" (by decide)

open Classical in
/-- When no two usable modules of a directory use the same command name, the order in which the files are visited makes
no difference to the commands. Missing: clashing names, see `C132_order_violation`. -/
theorem C132_order_partial (grow : Nat → Nat) (h h1 h2 : Host σ) (ms ms' : List (Module σ)) (hp : ms.Perm ms')
    (hnd : (((ms.filter fun m => m.Usable).flatMap fun m => m.commands).map (·.1)).Nodup)
    (e1 : loadPlugins grow h (.entries ms) = (h1, .done)) (e2 : loadPlugins grow h (.entries ms') = (h2, .done))
    (n : Str) : h1.command n = h2.command n := by
  have key : ∀ (l : List (Module σ)) (k : Host σ), loadPlugins grow h (.entries l) = (k, .done) →
      k.command n = (h.command n).or (firstReg ((l.filter effective).flatMap (·.commands)) n) := by
    intro l k he
    rw [loadPlugins] at he
    cases e : loadAll grow h l with
    | mk h1 b =>
      rw [e] at he
      cases b with
      | true => simp at he
      | false =>
        simp only [Prod.mk.injEq, and_true] at he
        subst he
        have := loadAll_find grow l h (by rw [e]) n
        rw [e] at this
        exact this
  rw [key ms h1 e1, key ms' h2 e2]
  congr 1
  refine firstReg_perm ((hp.filter _).flatMap_right _) ?_ n
  have hf : (ms.filter fun m => m.Usable) = ms.filter effective := by
    refine List.filter_congr fun m _ => ?_
    rw [Bool.eq_iff_iff]
    simpa using (effective_iff m).symm
  rw [← hf]
  exact hnd

/-- A module whose commands do nothing but return. -/
def exampleModule (file : Str) (cs : List (Str × Schema)) : Module Unit :=
  ⟨file, true, true, cs.map fun c => (c.1, ⟨c.2, fun s _ => (s, .returned)⟩), .returned⟩

/-- The schema of a command. -/
def schemaOf (h : Host Unit) (n : Str) : Option Schema := (h.command n).map (·.schema)

/-- With two modules using the same name, the order of the files, which the file system chooses, decides which one
gets it. -/
theorem C132_order_violation :
    let a := exampleModule "a.so".toList [("blur".toList, transformerSchema)]
    let b := exampleModule "b.so".toList [("blur".toList, combinerSchema)]
    let h : Host Unit := ⟨[], ⟨[], 0⟩, ⟨0, []⟩⟩
    schemaOf (loadPlugins (fun n => 2 * n + 1) h (.entries [a, b])).1 "blur".toList = some transformerSchema ∧
    schemaOf (loadPlugins (fun n => 2 * n + 1) h (.entries [b, a])).1 "blur".toList = some combinerSchema := by
  decide +kernel

/-- The three plugins of the project, with other files between them. -/
def shippedDir : List (Module Unit) :=
  [exampleModule "README.txt".toList [("sum".toList, independentSchema)], exampleModule "libm.so".toList mathCommands,
   { exampleModule "broken.so".toList [("add".toList, independentSchema)] with hasSymbol := false },
   exampleModule "liba.so".toList addCommands, exampleModule "libr.dylib".toList replaceCommands]

example : ((shippedDir.filter effective).flatMap fun m => m.commands.map (·.1)).Nodup ∧
    schemaOf (loadPlugins (fun n => 2 * n + 1) (bootHost fun _ s _ => (s, .returned)) (.entries shippedDir)).1
      "sum".toList = some transformerSchema ∧
    schemaOf (loadPlugins (fun n => 2 * n + 1) (bootHost fun _ s _ => (s, .returned)) (.entries shippedDir)).1
      "replace".toList = some ⟨some 0, some 3⟩ ∧
    (loadPlugins (fun n => 2 * n + 1) (bootHost fun _ s _ => (s, .returned)) (.entries shippedDir)).2 = .done ∧
    (loadPlugins (fun n => 2 * n + 1) (bootHost fun _ s _ => (s, .returned)) (.entries shippedDir)).1.libs.objs =
      [⟨some 0⟩, ⟨some 2⟩, ⟨some 3⟩] := by decide +kernel

/-- The commands of the shipped plugins do not collide with those of the program or with each other, so all of them
become available, in whatever order the files are visited. -/
theorem C132_shipped (grow : Nat → Nat) (body : Str → Handler σ) (f : Str → Handler σ) (math add repl : Module σ)
    (um : math.Usable) (ua : add.Usable) (ur : repl.Usable)
    (cm : math.commands = mathCommands.map fun c => (c.1, ⟨c.2, f c.1⟩))
    (ca : add.commands = addCommands.map fun c => (c.1, ⟨c.2, f c.1⟩))
    (cr : repl.commands = replaceCommands.map fun c => (c.1, ⟨c.2, f c.1⟩))
    (ms : List (Module σ)) (hp : ms.Perm [math, add, repl]) (h' : Host σ)
    (e : loadPlugins grow (bootHost body) (.entries ms) = (h', .done)) :
    (∀ r ∈ programCommands, ∀ n ∈ r.1, h'.command n.toList = some ⟨⟨r.2.1, r.2.2⟩, body n.toList⟩) ∧
    ∀ r ∈ shippedCommands, ∀ n ∈ r.1, h'.command n.toList = some ⟨⟨r.2.1, r.2.2⟩, f n.toList⟩ := by
  classical
  suffices h : (∀ c ∈ coreCommands, h'.command c.1 = some ⟨c.2, body c.1⟩) ∧
      ∀ c ∈ mathCommands ++ addCommands ++ replaceCommands, h'.command c.1 = some ⟨c.2, f c.1⟩ by
    have h1 : ∀ r ∈ programCommands, ∀ n ∈ r.1, (n.toList, (⟨r.2.1, r.2.2⟩ : Schema)) ∈ coreCommands := by
      decide +kernel
    have h2 : ∀ r ∈ shippedCommands, ∀ n ∈ r.1,
        (n.toList, (⟨r.2.1, r.2.2⟩ : Schema)) ∈ mathCommands ++ addCommands ++ replaceCommands := by decide +kernel
    exact ⟨fun r hr n hn => h.1 _ (h1 r hr n hn), fun r hr n hn => h.2 _ (h2 r hr n hn)⟩
  have hl := C132_load grow _ _ ms e
  constructor
  · intro c hc
    refine (hl c.1).1 _ ?_
    rw [Host.command]
    have := core_find body hc
    rw [boot_table, this]
    rfl
  · intro c hc
    have hnot : (bootHost body).command c.1 = none := by
      rw [Host.command, boot_table]
      unfold coreTable
      rw [find_registerAll (fun c => ⟨none, ⟨c.2, body c.1⟩⟩)]
      have : (coreCommands.find? fun d => d.1 == c.1) = none := by
        revert c
        decide +kernel
      rw [this]
      rfl
    rw [((hl c.1).2 hnot _), ← firstReg_iff]
    have hall : ∀ m ∈ ms, m.Usable := by
      intro m hm
      rcases (by simpa using hp.mem_iff.1 hm : m = math ∨ m = add ∨ m = repl) with rfl | rfl | rfl <;> assumption
    have hfil : (ms.filter fun m => m.Usable) = ms := List.filter_eq_self.2 fun m hm => by simpa using hall m hm
    have hnames : (([math, add, repl].flatMap fun m => m.commands).map (·.1)) =
        (mathCommands ++ addCommands ++ replaceCommands).map (·.1) := by
      simp only [List.flatMap_cons, List.flatMap_nil, cm, ca, cr, List.append_nil, List.map_append, List.map_map,
        List.append_assoc]
      rfl
    have hnd : (((ms.filter fun m => m.Usable).flatMap fun m => m.commands).map (·.1)).Nodup := by
      have hpp : ((ms.flatMap fun m => m.commands).map (·.1)).Perm _ := (hp.flatMap_right _).map _
      rw [hfil, hpp.nodup_iff, hnames]
      decide +kernel
    rw [firstReg_eq_some hnd, hfil, (hp.flatMap_right _).mem_iff]
    simp only [List.flatMap_cons, List.flatMap_nil, cm, ca, cr, List.append_nil, List.mem_append]
    simp only [List.mem_append] at hc
    have hin : ∀ l : List (Str × Schema), c ∈ l →
        (c.1, (⟨c.2, f c.1⟩ : CmdInfo σ)) ∈ l.map fun c => (c.1, (⟨c.2, f c.1⟩ : CmdInfo σ)) :=
      fun l hl => List.mem_map.2 ⟨c, hl, rfl⟩
    rcases hc with (hc | hc) | hc
    · exact Or.inl (hin _ hc)
    · exact Or.inr (Or.inl (hin _ hc))
    · exact Or.inr (Or.inr (hin _ hc))

example : (exampleModule "libm.so".toList mathCommands).Usable ∧ (exampleModule "libr.dylib".toList []).Usable :=
  ⟨⟨⟨"libm".toList, by decide, by decide⟩, rfl, rfl⟩, ⟨⟨"libr".toList, by decide, by decide⟩, rfl, rfl⟩⟩

/-! ## C133: references to libraries -/

theorem sound_boot (body : Str → Handler σ) : Sound (bootHost body) := by
  refine ⟨fun l hl => absurd hl List.not_mem_nil, List.Perm.refl [], ?_⟩
  intro p hp r hr
  rw [boot_table] at hp
  unfold coreTable at hp
  rcases mem_registerAll (fun c => (⟨none, ⟨c.2, body c.1⟩⟩ : Entry σ)) _ _ hp with hp | ⟨c, -, rfl⟩
  · simp at hp
  · simp at hr

theorem live_boot (body : Str → Handler σ) : Live (bootHost body) := by
  refine ⟨?_⟩
  intro p hp r hr
  rw [boot_table] at hp
  unfold coreTable at hp
  rcases mem_registerAll (fun c => (⟨none, ⟨c.2, body c.1⟩⟩ : Entry σ)) _ _ hp with hp | ⟨c, -, rfl⟩
  · simp at hp
  · simp at hr

theorem sound_session (grow : Nat → Nat) (steps : List (Step σ)) {h : Host σ} (hs : Sound h) (s : σ) :
    Sound (session grow (h, s) steps).1 := by
  induction steps generalizing h s with
  | nil => exact hs
  | cons st steps ih =>
    cases st with
    | load d =>
      have := sound_loadPlugins grow d hs
      rw [session]
      cases e' : loadPlugins grow h d with
      | mk h' b => rw [e'] at this; cases b <;> first | exact ih this s | exact this
    | run name args =>
      rw [session]
      cases e' : exec h name args s with
      | mk s' l => cases l <;> first | exact ih hs s' | exact hs

theorem count_held (h : Host σ) (r : Nat) : (held h.libs).count r = h.holders r := by
  unfold held Host.holders
  induction h.libs.objs with
  | nil => rfl
  | cons l ls ih =>
    rw [List.filterMap_cons, List.countP_cons]
    cases hl : l.handle with
    | none => simp [ih]
    | some q =>
      simp only [List.count_cons, ih]
      congr 1
      by_cases hq : q = r <;> simp [hq]

/-- At every moment of every session, each library reference that was handed out is held by exactly one object or has
been given back exactly once; none is given back twice, or without having been handed out. -/
theorem C133_references (grow : Nat → Nat) (body : Str → Handler σ) (s : σ) (steps : List (Step σ)) (r : Nat) :
    let h := (session grow (bootHost body, s) steps).1
    (r < h.os.next → h.holders r + h.os.closed.count r = 1) ∧
      (h.os.next ≤ r → h.holders r = 0 ∧ h.os.closed.count r = 0) := by
  intro h
  have hs : Sound h := sound_session grow steps (sound_boot body) s
  have hc := hs.once.count_eq r
  rw [List.count_append, count_held] at hc
  constructor
  · intro hr
    rw [hc, List.count_eq_one_of_mem List.nodup_range (by simpa using hr)]
  · intro hr
    rw [List.count_eq_zero_of_not_mem (l := List.range h.os.next) (by simpa using hr)] at hc
    omega

/-- When the program ends normally, every reference has been given back exactly once. -/
theorem C133_shutdown (grow : Nat → Nat) (body : Str → Handler σ) (s : σ) (steps : List (Step σ))
    (hend : (shutdown (session grow (bootHost body, s) steps).1).2 = .running) :
    let os := (shutdown (session grow (bootHost body, s) steps).1).1
    ∀ r, os.closed.count r = if r < os.next then 1 else 0 := by
  intro os r
  have hs : Sound (session grow (bootHost body, s) steps).1 := sound_session grow steps (sound_boot body) s
  have hos : os = ⟨(session grow (bootHost body, s) steps).1.os.next,
      (session grow (bootHost body, s) steps).1.os.closed ++ held (session grow (bootHost body, s) steps).1.libs⟩ := by
    show (shutdown _).1 = _
    unfold shutdown at hend ⊢
    split at hend
    · rename_i hc
      rw [if_pos hc, foldl_destroy]
      rfl
    · simp at hend
  rw [hos]
  have hc := (List.perm_append_comm.trans hs.once).count_eq r
  rw [hc]
  split
  · rename_i hr
    exact List.count_eq_one_of_mem List.nodup_range (by simpa using hr)
  · rename_i hr
    exact List.count_eq_zero_of_not_mem (by simpa using hr)

/-- The directories loaded in a session are tidy. -/
def TidySteps (steps : List (Step σ)) : Prop := ∀ d, Step.load d ∈ steps → d.Tidy

theorem live_loadPlugins (grow : Nat → Nat) {d : Dir σ} (hd : d.Tidy) {h : Host σ} (hl : Live h) :
    Live (loadPlugins grow h d).1 := by
  cases d with
  | missing => exact hl
  | unreadable => exact hl
  | entries l =>
    have := live_loadAll grow l hl hd
    rw [loadPlugins]
    cases e : loadAll grow h l with
    | mk h' b => rw [e] at this; cases b <;> exact this

theorem exec_life {h : Host σ} (hs : Sound h) (hl : Live h) (name : Str) (args : List Str) (s : σ) :
    (exec h name args s).2 ≠ .ub := by
  unfold exec
  cases hf : h.table.find name with
  | none => simp
  | some e =>
    have hmem : (name, e) ∈ h.table := by
      unfold Table.find at hf
      rw [Option.map_eq_some_iff] at hf
      obtain ⟨p, hp, rfl⟩ := hf
      have h1 := List.mem_of_find?_eq_some hp
      have h2 : p.1 = name := by simpa using List.find?_some hp
      rw [← h2]
      exact h1
    cases ho : e.owner with
    | none =>
      dsimp only
      rw [ho]
      dsimp only
      cases hh : e.info.handler s args with
      | mk s' c => cases c <;> simp
    | some r =>
      dsimp only
      rw [ho]
      dsimp only
      rw [if_pos (isOpen_held hs (hl.owner _ hmem r ho))]
      cases hh : e.info.handler s args with
      | mk s' c => cases c <;> simp

/-- If no module throws after having registered a command, the code of every registered command stays loaded: neither
running a command nor the end of the program uses code that has been unloaded. Missing: modules that throw later, see
`C133_throw_violation`. -/
theorem C133_loaded_partial (grow : Nat → Nat) (body : Str → Handler σ) (s : σ) (steps : List (Step σ))
    (ht : TidySteps steps) :
    (session grow (bootHost body, s) steps).2.2 ≠ .ub ∧
      (shutdown (session grow (bootHost body, s) steps).1).2 = .running := by
  have key : ∀ (steps : List (Step σ)) (h : Host σ) (s : σ), TidySteps steps → Sound h → Live h →
      (session grow (h, s) steps).2.2 ≠ .ub ∧ (shutdown (session grow (h, s) steps).1).2 = .running := by
    intro steps
    induction steps with
    | nil =>
      intro h s _ hs hl
      refine ⟨by simp [session], ?_⟩
      rw [session]
      unfold shutdown
      rw [if_pos]
      rw [List.all_eq_true]
      intro p hp
      cases ho : p.2.owner with
      | none => simp
      | some r => exact isOpen_held hs (hl.owner p hp r ho)
    | cons st steps ih =>
      intro h s ht hs hl
      have stop : ∀ k : Host σ, Sound k → Live k → (shutdown k).2 = .running := by
        intro k ks kl
        unfold shutdown
        rw [if_pos]
        rw [List.all_eq_true]
        intro p hp
        cases ho : p.2.owner with
        | none => simp
        | some r => exact isOpen_held ks (kl.owner p hp r ho)
      have ht' : TidySteps steps := fun d hd => ht d (List.mem_cons_of_mem _ hd)
      cases st with
      | load d =>
        have h1 := sound_loadPlugins grow d hs
        have h2 := live_loadPlugins grow (ht d List.mem_cons_self) hl
        rw [session]
        cases e' : loadPlugins grow h d with
        | mk h' b =>
          rw [e'] at h1 h2
          cases b
          · exact ih h' s ht' h1 h2
          · exact ih h' s ht' h1 h2
          · exact ⟨by simp, stop h' h1 h2⟩
      | run name args =>
        have h1 := exec_life hs hl name args s
        rw [session]
        cases e' : exec h name args s with
        | mk s' l =>
          rw [e'] at h1
          cases l
          · exact ih h s' ht' hs hl
          · exact ⟨by simp, stop h hs hl⟩
          · exact absurd rfl h1
  exact key steps (bootHost body) s ht (sound_boot body) (live_boot body)

/-- A module that registers a command and then throws: its library is unloaded, its command stays. -/
def halfModule : Module Unit :=
  { exampleModule "half.so".toList [("blur".toList, transformerSchema)] with ending := .threw }

/-- A module that throws after having registered a command is reported as skipped, but its command stays registered
while its code is unloaded: running the command uses unloaded code, and so does the end of the program even if the
command is never run. -/
theorem C133_throw_violation :
    let steps : List (Step Unit) := [.load (.entries [halfModule])]
    let boot : Host Unit := bootHost fun _ s _ => (s, .returned)
    (session (fun n => 2 * n + 1) (boot, ()) steps).2.2 = .running ∧
    (session (fun n => 2 * n + 1) (boot, ()) (steps ++ [.run "blur".toList []])).2.2 = .ub ∧
    (shutdown (session (fun n => 2 * n + 1) (boot, ()) steps).1).2 = .ub := by decide +kernel

example : (session (fun n => 2 * n + 1) (bootHost fun _ s _ => (s, .returned), ())
    [.load (.entries shippedDir), .run "sum".toList [], .load (.entries shippedDir)]).1.os = ⟨8, [1, 5]⟩ ∧
    (shutdown (session (fun n => 2 * n + 1) (bootHost fun _ s _ => (s, .returned), ())
      [.load (.entries shippedDir), .load (.entries shippedDir)]).1).1.closed = [1, 5, 0, 2, 3, 4, 6, 7] := by
  decide +kernel

example : TidySteps [.load (.entries shippedDir), .run "sum".toList []] := by
  intro d hd
  simp only [List.mem_cons, Step.load.injEq, List.not_mem_nil, or_false, reduceCtorEq] at hd
  subst hd
  intro m hm
  left
  simp only [shippedDir, List.mem_cons, List.not_mem_nil, or_false] at hm
  rcases hm with rfl | rfl | rfl | rfl | rfl <;> rfl

/-- Move assignment gives the target's reference back and takes over the source's: no reference is lost or held
twice. -/
theorem C133_assign (this other : Lib) (os : Os) (r : Nat) :
    let p := this.moveAssign other os
    let n := fun l : Lib => if l.handle = some r then 1 else 0
    n p.1 + n p.2.1 + p.2.2.closed.count r = n this + n other + os.closed.count r := by
  rcases this with ⟨_ | a⟩ <;> rcases other with ⟨_ | b⟩ <;>
    simp [Lib.moveAssign, Lib.destroy, Os.dlclose, List.count_append, List.count_cons, List.count_nil] <;> omega

/-! ## C186: variables whose values need the code of a plugin -/

/-- The program ends without using unloaded code exactly if no command of an unloaded plugin is registered and every
variable that is left in the workspace can be destroyed without the code of a plugin: the libraries are given back
before the variables are destroyed. -/
theorem C186_variables_partial (grow : Nat → Nat) (body : Str → Handler σ) (s : σ) (steps : List (Step σ))
    (owners : σ → List (Option Nat)) (end' : σ) :
    exitMain owners (session grow (bootHost body, s) steps).1 end' = .running ↔
      (shutdown (session grow (bootHost body, s) steps).1).2 = .running ∧ ∀ o ∈ owners end', o = none := by
  have key := C133_shutdown grow body s steps
  rw [exitMain]
  cases e : shutdown (session grow (bootHost body, s) steps).1 with
  | mk os l =>
    rw [e] at key
    cases l with
    | running =>
      have key := key rfl
      have closed : ∀ r, os.isOpen r = false := by
        intro r
        have hk : os.closed.count r = if r < os.next then 1 else 0 := key r
        rw [Os.isOpen]
        by_cases hr : r < os.next
        · rw [if_pos hr] at hk
          have : r ∈ os.closed := by
            rw [← List.count_pos_iff]
            show 0 < os.closed.count r
            omega
          simp [this]
        · simp [hr]
      simp only [true_and]
      constructor
      · intro h o ho
        split at h
        · rename_i ha
          have := List.all_eq_true.1 ha o ho
          cases o with
          | none => rfl
          | some r => simp [closed] at this
        · simp at h
      · intro h
        rw [if_pos]
        rw [List.all_eq_true]
        intro o ho
        rw [h o ho]
    | terminated => simp
    | ub => simp

/-- A variable filled by a plugin's command with a value that only the plugin's code can destroy is destroyed after the
plugin has been unloaded, at the end of every program that has such a variable. -/
theorem C186_variables_violation :
    let sum : CmdInfo (List (Option Nat)) := ⟨transformerSchema, fun s _ => (s ++ [some 0], .returned)⟩
    let m : Module (List (Option Nat)) := ⟨"libm.so".toList, true, true, [("sum".toList, sum)], .returned⟩
    let boot : Host (List (Option Nat)) := bootHost fun _ s _ => (s ++ [none], .returned)
    let r := session (fun n => 2 * n + 1) (boot, []) [.load (.entries [m]), .run "ones".toList [], .run "sum".toList []]
    let q := session (fun n => 2 * n + 1) (boot, []) [.load (.entries [m]), .run "ones".toList []]
    r.2 = ([none, some 0], .running) ∧ (shutdown r.1).2 = .running ∧ exitMain id r.1 r.2.1 = .ub ∧
      exitMain id q.1 q.2.1 = .running := by
  decide +kernel

/-! ## C134: `main` -/

/-- The commands as the interactive mode uses them. -/
def Host.registry (h : Host σ) : Registry σ := h.table.map fun p => (p.1, p.2.info)

theorem lookup_registry (h : Host σ) (n : Str) : (Host.registry h).lookup n = h.command n := by
  unfold Host.registry Registry.lookup Host.command Table.find
  rw [List.find?_map, Option.map_map, Option.map_map]
  rfl

/-- A command given on the command line has the effect of the same words typed as one line in the interactive mode:
the arguments reach the handler unchanged. Excepted are `exit` and `quit`, `multiply` (the interactive mode may
replace a product with one by a copy) and words the interactive mode would split. Missing: the excepted words, and the
exit status (`C134_status_violation`). -/
theorem C134_same_as_interactive_partial (grow : Nat → Nat) (body : Str → Handler σ) (boot : Dir σ) (hb : boot.Tidy)
    (h : Host σ) (e : loadPlugins grow (bootHost body) boot = (h, .done)) (isOne : Str → Bool) (command : Str)
    (args : List Str)
    (hw : ∀ w ∈ command :: args, w ≠ [] ∧ ∀ c ∈ w, c ∉ [' ', '\t', '\n', '\x0b', '\x0c', '\r', '|'])
    (hx : command ≠ "exit".toList ∧ command ≠ "quit".toList) (hm : command ≠ "multiply".toList) (s : σ) :
    (oneShot grow body boot command args s).1 =
        (runLine isOne (Host.registry h) (joinStages [command :: args]) s).1 ∧
      ((oneShot grow body boot command args s).2 = .success ↔
        (runLine isOne (Host.registry h) (joinStages [command :: args]) s).2 = .goOn) := by
  have hs : Sound h := by have := sound_loadPlugins grow boot (sound_boot body); rwa [e] at this
  have hl : Live h := by have := live_loadPlugins grow hb (live_boot body); rwa [e] at this
  have hsd : (shutdown h).2 = .running := by
    unfold shutdown
    rw [if_pos]
    rw [List.all_eq_true]
    intro p hp
    cases ho : p.2.owner with
    | none => simp
    | some r => exact isOpen_held hs (hl.owner p hp r ho)
  have hlive := exec_life hs hl command args s
  have hlook := lookup_registry h command
  unfold oneShot
  rw [e]
  dsimp only
  rw [hsd]
  unfold exec at hlive ⊢
  cases hf : h.table.find command with
  | none =>
    have hn : (Host.registry h).getSchema command = none := by
      unfold Registry.getSchema
      rw [hlook, Host.command, hf]; rfl
    have hp : parseLine (joinStages [command :: args]) = [command :: args] :=
      C62_parse [command :: args] (by simp) (by simpa using hw)
    have e1 : "exit".toList = sExit := by decide
    have e2 : "quit".toList = sQuit := by decide
    rw [e1, e2] at hx
    have hsf : splitFinal [command :: args] = ([command :: args], []) := by
      unfold splitFinal
      cases args <;> simp
    have : runLine isOne (Host.registry h) (joinStages [command :: args]) s = (s, .goOn) := by
      unfold runLine
      simp only [hp, hsf, build, List.head?_cons, Option.getD_some, hx.1, hx.2, or_self, if_false, hn]
      simp
    rw [this]
    simp
  | some en =>
    have hreg : (Host.registry h).lookup command = some en.info := by rw [hlook, Host.command, hf]; rfl
    rw [C62_single_stage isOne (Host.registry h) command args s hw hx hm (by rw [hreg]; simp)]
    unfold Registry.execute
    rw [hreg]
    rw [hf] at hlive
    dsimp only at hlive ⊢
    cases ho : en.owner with
    | none =>
      dsimp only
      obtain ⟨s', c, hh⟩ : ∃ s' c, en.info.handler s args = (s', c) := ⟨_, _, rfl⟩
      cases c <;> simp [hh]
    | some r =>
      rw [ho] at hlive
      dsimp only at hlive ⊢
      by_cases hop : h.os.isOpen r = true
      · rw [if_pos hop]
        obtain ⟨s', c, hh⟩ : ∃ s' c, en.info.handler s args = (s', c) := ⟨_, _, rfl⟩
        cases c <;> simp [hh]
      · rw [if_neg hop] at hlive
        exact absurd rfl hlive

example : (oneShot (fun n => 2 * n + 1) (fun _ s a => (s + a.length, .returned)) (.missing : Dir Nat) "info".toList
    ["a.bmp".toList, "b".toList] 5) = (7, .success) := by decide +kernel

/-- The exit status does not tell whether the command worked: it is success for an unknown command and for a command
that failed with an exception. -/
theorem C134_status_violation (grow : Nat → Nat) (body : Str → Handler σ) (command : Str) (args : List Str) (s : σ) :
    ((∀ c ∈ coreCommands, c.1 ≠ command) → oneShot grow body .missing command args s = (s, .success)) ∧
    (∀ sch s', (command, sch) ∈ coreCommands → body command s args = (s', .threw) →
      oneShot grow body .missing command args s = (s', .success)) := by
  have hl : Live (bootHost body) := live_boot body
  have hs : Sound (bootHost body) := sound_boot body
  have hsd : (shutdown (bootHost body)).2 = .running := by
    unfold shutdown
    rw [if_pos]
    rw [List.all_eq_true]
    intro p hp
    cases ho : p.2.owner with
    | none => simp
    | some r => exact isOpen_held hs (hl.owner p hp r ho)
  constructor
  · intro hc
    have hf : (bootHost body).table.find command = none := by
      rw [boot_table]
      unfold coreTable
      rw [find_registerAll (fun c => ⟨none, ⟨c.2, body c.1⟩⟩)]
      rw [List.find?_eq_none.2 (by simpa using hc)]
      rfl
    simp [oneShot, loadPlugins, exec, hf, hsd]
  · intro sch s' hc hb
    have hf : (bootHost body).table.find command = some ⟨none, ⟨sch, body command⟩⟩ := by
      rw [boot_table]
      exact core_find body hc
    simp [oneShot, loadPlugins, exec, hf, hsd, hb]

/-- A plugin directory that exists but cannot be read ends the program before the command is run, whatever the
command is. -/
theorem C134_unreadable_violation (grow : Nat → Nat) (body : Str → Handler σ) (command : Str) (args : List Str)
    (s : σ) : oneShot grow body .unreadable command args s = (s, .terminated) := rfl

example := C132_load (fun n => 2 * n + 1) (bootHost fun _ (s : Unit) _ => (s, .returned)) _ shippedDir
  (Prod.ext rfl (by decide +kernel)) "sum".toList

open Classical in
example := C132_order_partial (fun n => 2 * n + 1) (bootHost fun _ (s : Unit) _ => (s, .returned)) _ _ shippedDir
  shippedDir.reverse (List.reverse_perm _).symm (by
    have hf : (shippedDir.filter fun m => m.Usable) = shippedDir.filter effective := by
      refine List.filter_congr fun m _ => ?_
      rw [Bool.eq_iff_iff]
      simpa using (effective_iff m).symm
    rw [hf]
    decide +kernel) (Prod.ext rfl (by decide +kernel))
  (Prod.ext rfl (by decide +kernel)) "sum".toList

example := C133_references (fun n => 2 * n + 1) (fun _ (s : Unit) _ => (s, .returned)) ()
  [.load (.entries shippedDir), .run "sum".toList [], .load (.entries shippedDir)] 5

example := C133_shutdown (fun n => 2 * n + 1) (fun _ (s : Unit) _ => (s, .returned)) ()
  [.load (.entries shippedDir), .load (.entries shippedDir)] (by decide +kernel)

end TinyDIP.Props
