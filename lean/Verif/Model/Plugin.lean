import Verif.Model.CliHandlers
import Verif.Model.Repl

/-!
# Plugins, the command table and `main`

`dynamic_loader.h` (108 lines), `load_plugins` (main.cpp 1391-1450), the command table and `main`
(main.cpp 1141-1172, 1453-1702) and the shipped plugins (`plugin_math.cpp`, `plugin_math_add.cpp`,
`plugin_replace.cpp`).

`dlopen` and `dlclose` are modelled by numbering the references handed out: the `n`-th successful
`dlopen` returns reference `n`, and a `dlclose` is recorded with the reference it gives back. (A real
`dlopen` counts references per file; a second `dlopen` of a file hands out one more.) What a
module does when its `register_plugin_commands` is called is arbitrary: it registers a list of
commands and then returns or throws. Windows' `LoadLibrary` plays the same part. Running out of
memory is not modelled.
-/

namespace TinyDIP.Cli.Plug

open TinyDIP.Cli

/-! ## The operating system's library references -/

/-- How many references have been handed out, and the references given back, in order. Not from the
repository: the loader behind dynamic_loader.h 28-52. -/
structure Os where
  next : Nat
  closed : List Nat
  deriving DecidableEq, Repr

/-- `dlopen`, when it succeeds. dynamic_loader.h 28, 36. -/
def Os.dlopen (os : Os) : Nat × Os := (os.next, { os with next := os.next + 1 })

/-- `dlclose`. dynamic_loader.h 52, 76. -/
def Os.dlclose (os : Os) (h : Nat) : Os := { os with closed := os.closed ++ [h] }

/-- The reference has been handed out and not been given back. Not from the repository: the loader behind
dynamic_loader.h 28-52. -/
def Os.isOpen (os : Os) (h : Nat) : Bool := decide (h < os.next) && !os.closed.contains h

/-! ## `DynamicLibrary` -/

/-- dynamic_loader.h 20-106: the object; `none` is the null handle. -/
structure Lib where
  handle : Option Nat
  deriving DecidableEq, Repr

/-- dynamic_loader.h 44-54: the destructor. -/
def Lib.destroy (l : Lib) (os : Os) : Os :=
  match l.handle with
  | some h => os.dlclose h
  | none => os

/-- dynamic_loader.h 61-64: the move constructor; gives the new object and what is left of the old. -/
def Lib.moveOut (other : Lib) : Lib × Lib := (⟨other.handle⟩, ⟨none⟩)

/-- dynamic_loader.h 66-82: move assignment between two different objects; gives the target, what is left of the
source, and the system. -/
def Lib.moveAssign (this other : Lib) (os : Os) : Lib × Lib × Os := (⟨other.handle⟩, ⟨none⟩, this.destroy os)

/-- `std::vector<DynamicLibrary>`: its objects and its capacity. main.cpp 1398, 1424-1434. -/
structure LVec where
  objs : List Lib
  cap : Nat
  deriving DecidableEq, Repr

/-- `emplace_back(std::move(lib))`. When the capacity is used up the objects are moved, one by one, to new
storage of capacity `grow cap` and what is left of them is destroyed. Gives the vector, what is left of
`lib`, and the system. main.cpp 1426. -/
def LVec.emplaceBack (grow : Nat → Nat) (v : LVec) (lib : Lib) (os : Os) : LVec × Lib × Os :=
  if v.objs.length < v.cap then (⟨v.objs ++ [lib.moveOut.1], v.cap⟩, lib.moveOut.2, os)
  else
    (⟨v.objs.map (·.moveOut.1) ++ [lib.moveOut.1], grow v.cap⟩, lib.moveOut.2,
      (v.objs.map (·.moveOut.2)).foldl (fun o l => l.destroy o) os)

/-! ## The command table -/

variable {σ : Type}

/-- A registered command; `owner` is the library its code belongs to (`none`: the program itself). main.h
808-816. -/
structure Entry (σ : Type) where
  owner : Option Nat
  info : CmdInfo σ

/-- main.h 816: the registered commands. -/
abbrev Table (σ : Type) := List (Str × Entry σ)

/-- `commands.find`. main.h 832, 853. -/
def Table.find (t : Table σ) (name : Str) : Option (Entry σ) := (List.find? (fun p => p.1 == name) t).map (·.2)

/-- main.h 819-828 `register_command`: `emplace` keeps an existing entry. -/
def Table.register (t : Table σ) (name : Str) (e : Entry σ) : Table σ :=
  match t.find name with
  | some _ => t
  | none => t ++ [(name, e)]

/-! ## `load_plugins` -/

/-- How a module's `register_plugin_commands` ends: it returns, throws an exception derived from
`std::exception`, or throws something else. plugin_api.h, called at main.cpp 1415-1440. -/
inductive RegEnd
  | returned | threw | escaped
  deriving DecidableEq, Repr

/-- A file of the plugin directory: its name, whether `dlopen` succeeds on it, whether it exports
`register_plugin_commands`, and what that function does. main.cpp 1406-1440. -/
structure Module (σ : Type) where
  file : Str
  opens : Bool
  hasSymbol : Bool
  commands : List (Str × CmdInfo σ)
  ending : RegEnd

/-- The plugin directory: missing (or not a directory), not readable (the iterator's constructor throws), or
a list of files in the order the iterator visits them. main.cpp 1396-1406. -/
inductive Dir (σ : Type)
  | missing
  | unreadable
  | entries (l : List (Module σ))

/-- The part of `main`'s variables that concerns plugins. main.cpp 1453-1462. -/
structure Host (σ : Type) where
  table : Table σ
  libs : LVec
  os : Os

/-- main.cpp 1408-1409: extensions of modules. -/
def isModuleExt (ext : Str) : Bool :=
  ext == ".dll".toList || ext == ".so".toList || ext == ".dylib".toList

/-- main.cpp 1403-1443: one file. The flag tells that an exception left the `catch (const std::exception&)`. -/
def loadOne (grow : Nat → Nat) (h : Host σ) (m : Module σ) : Host σ × Bool :=
  if isModuleExt (splitExt m.file).2 then
    if m.opens then
      let (r, os) := h.os.dlopen
      let lib : Lib := ⟨some r⟩
      if m.hasSymbol then
        let table := m.commands.foldl (fun t c => Table.register t c.1 ⟨some r, c.2⟩) h.table
        match m.ending with
        | .returned =>
          let (v, rest, os) := h.libs.emplaceBack grow lib os
          (⟨table, v, rest.destroy os⟩, false)
        | .threw => (⟨table, h.libs, lib.destroy os⟩, false)
        | .escaped => (⟨table, h.libs, lib.destroy os⟩, true)
      else ({ h with os := lib.destroy os }, false)
    else (h, false)
  else (h, false)

/-- main.cpp 1403-1444: the files in order. -/
def loadAll (grow : Nat → Nat) : Host σ → List (Module σ) → Host σ × Bool
  | h, [] => (h, false)
  | h, m :: ms =>
    match loadOne grow h m with
    | (h', true) => (h', true)
    | (h', false) => loadAll grow h' ms

/-- How `load_plugins` ends. main.cpp 1391-1450. -/
inductive LoadEnd
  | done | fsError | escaped
  deriving DecidableEq, Repr

/-- main.cpp 1391-1450 `load_plugins`. -/
def loadPlugins (grow : Nat → Nat) (h : Host σ) : Dir σ → Host σ × LoadEnd
  | .missing => (h, .done)
  | .unreadable => (h, .fsError)
  | .entries l =>
    match loadAll grow h l with
    | (h', true) => (h', .escaped)
    | (h', false) => (h', .done)

/-! ## Using the commands, and the end of the program -/

/-- What a step does to the process. main.cpp 1453-1702. -/
inductive Life
  | running | terminated | ub
  deriving DecidableEq, Repr

/-- main.h 851-869 `execute`, for a command whose code may have been unloaded. -/
def exec (h : Host σ) (name : Str) (args : List Str) (s : σ) : σ × Life :=
  match h.table.find name with
  | none => (s, .running)
  | some e =>
    match e.owner with
    | some r =>
      if h.os.isOpen r then
        match e.info.handler s args with
        | (s', .terminated) => (s', .terminated)
        | (s', _) => (s', .running)
      else (s, .ub)
    | none =>
      match e.info.handler s args with
      | (s', .terminated) => (s', .terminated)
      | (s', _) => (s', .running)

/-- A step of a session: the command `load_plugins`, with the directory as it is then, or another command.
main.cpp 1678-1702. -/
inductive Step (σ : Type)
  | load (d : Dir σ)
  | run (name : Str) (args : List Str)

/-- A session. A file system error of the command `load_plugins` is reported (main.h 857-863), an exception that
leaves it otherwise ends the process. -/
def session (grow : Nat → Nat) : Host σ × σ → List (Step σ) → Host σ × σ × Life
  | (h, s), [] => (h, s, .running)
  | (h, s), .load d :: steps =>
    match loadPlugins grow h d with
    | (h', .escaped) => (h', s, .terminated)
    | (h', _) => session grow (h', s) steps
  | (h, s), .run name args :: steps =>
    match exec h name args s with
    | (s', .running) => session grow (h, s') steps
    | (s', l) => (h, s', l)

/-- The end of `main`: `registry` is destroyed first (its handlers are destroyed by code of their
libraries), then `active_plugins`. main.cpp 1453-1702. -/
def shutdown (h : Host σ) : Os × Life :=
  if h.table.all (fun p => match p.2.owner with | some r => h.os.isOpen r | none => true) then
    (h.libs.objs.foldl (fun o l => l.destroy o) h.os, .running)
  else (h.os, .ub)

/-- The rest of the end of `main`: the workspace was created before `active_plugins` (main.cpp 1456, 1459), so it is
destroyed after the libraries have been given back. `owners s` lists, for each variable that is left, the library whose
code destroys its value (`none`: the program itself; what a `std::any` filled by a plugin refers to). main.cpp
1453-1702. -/
def exitMain (owners : σ → List (Option Nat)) (h : Host σ) (s : σ) : Life :=
  match shutdown h with
  | (os, .running) =>
    if (owners s).all (fun o => match o with | some r => os.isOpen r | none => true) then .running else .ub
  | (_, l) => l

/-! ## The table of commands -/

/-- main.cpp 1462-1676, 1153-1171: the commands of the program, in the order they are registered, with their
schemas. -/
def coreCommands : List (Str × Schema) :=
  [("append_element", combinerSchema), ("bicubic_resize", transformerSchema), ("constructRGB", independentSchema),
   ("copy", independentSchema), ("create_container", transformerSchema), ("dct2", transformerSchema),
   ("dct3", transformerSchema), ("erase_element", transformerSchema), ("gaussian_figure_2d", generatorSchema),
   ("get_element", transformerSchema), ("getBplane", transformerSchema), ("getGplane", transformerSchema),
   ("getRplane", transformerSchema), ("get_sift_potential_keypoint", transformerSchema), ("grid", generatorSchema),
   ("hsv2rgb", transformerSchema), ("idct2", transformerSchema), ("im2double", transformerSchema),
   ("im2uint8", transformerSchema), ("info", terminatorSchema), ("lanczos_resample", transformerSchema),
   ("load_workspace", independentSchema), ("multiply", transformerSchema), ("normalize", transformerSchema),
   ("ones", generatorSchema), ("print", terminatorSchema), ("rand", generatorSchema), ("read", generatorSchema),
   ("remove", independentSchema), ("rename", independentSchema), ("rotate", transformerSchema),
   ("save_workspace", independentSchema), ("sift_generate_octave", transformerSchema), ("subimage", transformerSchema),
   ("to_complex", transformerSchema), ("vars", independentSchema), ("write", terminatorSchema),
   ("zeros", generatorSchema), ("test", independentSchema), ("batch_add_zeros", independentSchema),
   ("count", combinerSchema), ("help", independentSchema), ("transform_container", independentSchema),
   ("load_plugins", independentSchema)].map fun p => (p.1.toList, p.2)

/-- main.cpp 1141-1172, 1462-1676: the table before plugins are loaded; `body` are the handlers. -/
def coreTable (body : Str → Handler σ) : Table σ :=
  coreCommands.foldl (fun t c => Table.register t c.1 ⟨none, ⟨c.2, body c.1⟩⟩) []

/-- main.cpp 1453-1676: the state before plugins are loaded. -/
def bootHost (body : Str → Handler σ) : Host σ := ⟨coreTable body, ⟨[], 0⟩, ⟨0, []⟩⟩

/-- plugin_math.cpp 7-46, plugin_math_add.cpp, plugin_replace.cpp: what the shipped plugins register. -/
def mathCommands : List (Str × Schema) :=
  [("abs", transformerSchema), ("max", transformerSchema), ("min", transformerSchema), ("subtract", combinerSchema),
   ("sum", transformerSchema)].map fun p => (p.1.toList, p.2)

/-- plugin_math_add.cpp 7-18: the command it registers. -/
def addCommands : List (Str × Schema) := [("add".toList, combinerSchema)]

/-- plugin_replace.cpp 7-18: the command it registers. -/
def replaceCommands : List (Str × Schema) := [("replace".toList, ⟨some 0, some 3⟩)]

/-! ## `main` -/

/-- How the process ends. main.cpp 1453-1702. -/
inductive ExitStatus
  | success | failure | terminated | ub
  deriving DecidableEq, Repr

/-- main.cpp 1678-1702: `main` with a command on the command line (`argv` without the program's name); the
interactive mode is `Cli.runLine`, line by line. `boot` is the plugin directory. -/
def oneShot (grow : Nat → Nat) (body : Str → Handler σ) (boot : Dir σ) (command : Str) (args : List Str) (s : σ) :
    σ × ExitStatus :=
  match loadPlugins grow (bootHost body) boot with
  | (h, .done) =>
    match exec h command args s with
    | (s', .running) => (s', if (shutdown h).2 = .running then .success else .ub)
    | (s', .terminated) => (s', .terminated)
    | (s', .ub) => (s', .ub)
  | _ => (s, .terminated)

end TinyDIP.Cli.Plug
