/-!
# Model of the command line: strings, policies, workspace, registry

Files: `main.h` (sanitize_string_view 50-62, Workspace 367-437, type registries 150-300,
MetaImageIO 614-727, dispatch_data_operation 732-783, IOSchema and CommandRegistry 785-870,
policy helpers 1144-1232, MetaTransformHandler 1393-1476).

Strings are lists of characters (C++ bytes in the "C" locale). Text written to `std::ostream` is
not modelled, apart from the error report of `CommandRegistry::execute`.
-/

namespace TinyDIP.Cli

/-- `std::string` and `std::string_view` contents. Workspace keys and arguments, main.h 369, 787. -/
abbrev Str := List Char

/-- `std::isspace` in the "C" locale. Used at main.h 52. -/
def isSpace (c : Char) : Bool :=
  c == ' ' || c == '\t' || c == '\n' || c == '\x0b' || c == '\x0c' || c == '\r'

/-- main.h 52: the `is_junk` lambda. -/
def isJunk (c : Char) : Bool := isSpace c || c == '"' || c == '\''

/-- main.h 50-62 `sanitize_string_view`: first the suffix, then the prefix. -/
def sanitize (s : Str) : Str := ((s.reverse.dropWhile isJunk).reverse).dropWhile isJunk

/-- main.h 1186, 1203: the words `seq`, `par`, `par_unseq`, `unseq`. -/
def sSeq : Str := ['s', 'e', 'q']

/-- main.h 1186, 1203. -/
def sPar : Str := ['p', 'a', 'r']

/-- main.h 1186, 1203. -/
def sParUnseq : Str := ['p', 'a', 'r', '_', 'u', 'n', 's', 'e', 'q']

/-- main.h 1186, 1203. -/
def sUnseq : Str := ['u', 'n', 's', 'e', 'q']

/-- main.h 885-893 `match_any` with the array `policies`. -/
def isPolicy (s : Str) : Bool := s == sSeq || s == sPar || s == sParUnseq || s == sUnseq

/-- main.h 1184-1195 `extract_policy_string`: the first policy word, or the empty string. -/
def extractPolicy : List Str → Str
  | [] => []
  | a :: as => if isPolicy a then a else extractPolicy as

/-- main.h 1201-1232 `args_filter`: push every argument that is not a policy word. -/
def argsFilter : List Str → List Str
  | [] => []
  | a :: as => if isPolicy a then argsFilter as else a :: argsFilter as

/-- The standard execution policies. Selected at main.h 1152-1172. -/
inductive Policy
  | seq | par | parUnseq | unseq
  deriving DecidableEq, Repr

/-- main.h 1144-1175 `dispatch_policy_string` (the warning text is not modelled). -/
def dispatchPolicy {β : Type} (s : Str) (withPolicy : Policy → β) (dflt : β) : β :=
  if s = sPar then withPolicy .par
  else if s = sParUnseq then withPolicy .parUnseq
  else if s = sUnseq then withPolicy .unseq
  else if s = sSeq then withPolicy .seq
  else dflt

/-! ## Values: `std::any` contents -/

/-- main.h 164-170 `core_numeric_types` (the default build). -/
inductive Num
  | bool | uchar | int | double | sizeT
  deriving DecidableEq, Repr

/-- Container templates recognised by main.h 124-140. -/
inductive Kind
  | vector | deque | list | array (n : Nat)
  deriving DecidableEq, Repr

/-- `typeid` of a stored value. `scalar n` stands for the remaining scalar types (RGB, complex,
multichannel, Gaussian parameters, ...), `image t` for `Image<t>` and `boolRef` for
`std::vector<bool>::reference`. The types listed at main.h 164-313. -/
inductive Ty
  | num (n : Num)
  | scalar (n : Nat)
  | image (pixel : Ty)
  | cont (k : Kind) (elem : Ty)
  | boolRef
  deriving DecidableEq, Repr

/-- Contents of a `std::any`: a payload of some type, or a container of values. main.h 369. -/
inductive Val (P : Type)
  | atom (ty : Ty) (payload : P)
  | cont (k : Kind) (elem : Ty) (items : List (Val P))

/-- `std::any::type`. Used at main.h 4415 and in `match_any_type`. -/
def Val.ty {P : Type} : Val P → Ty
  | .atom t _ => t
  | .cont k e _ => .cont k e

/-- main.h 272-278 `master_image_types`. -/
def isMasterImage : Ty → Bool
  | .image (.num _) => true
  | .image (.scalar _) => true
  | _ => false

/-- main.h 281-287 `master_data_types`: images, and containers of numbers. -/
def isMasterData : Ty → Bool
  | .cont _ (.num _) => true
  | t => isMasterImage t

/-- main.h 309-313 `master_image_container_types`. -/
def isImageContainer : Ty → Bool
  | .cont (.array _) _ => false
  | .cont _ t => isMasterImage t
  | _ => false

/-- `tuple_cat_t<master_data_types, master_image_container_types>`, e.g. main.h 1835. -/
def isAllContainer (t : Ty) : Bool := isMasterData t || isImageContainer t

/-! ## Workspace -/

/-- main.h 367-371: the map of named values. The order of the list is not meaningful
(`std::map` iterates in key order; nothing below except saving iterates). -/
structure Workspace (V : Type) where
  store : List (Str × V)

namespace Workspace

variable {V : Type}

/-- `std::map::find` followed by reading `it->second`. main.h 383, 397, 409, 422. -/
def find (w : Workspace V) (k : Str) : Option V := (w.store.find? fun p => p.1 == k).map (·.2)

/-- `std::map::erase` of a key. main.h 411, 426. -/
def erase (w : Workspace V) (k : Str) : Workspace V := ⟨w.store.filter fun p => p.1 != k⟩

/-- `memory_store[k] = v`. main.h 376, 425. -/
def assign (w : Workspace V) (k : Str) (v : V) : Workspace V := ⟨(k, v) :: (w.erase k).store⟩

/-- main.h 373-378 `store`. -/
def put (w : Workspace V) (name : Str) (v : V) : Workspace V := w.assign (sanitize name) v

/-- main.h 394-402 `retrieve_any`. -/
def retrieveAny (w : Workspace V) (name : Str) : Option V := w.find (sanitize name)

/-- main.h 380-391 `retrieve<T>`: the value when it has the requested type. -/
def retrieve {P : Type} (w : Workspace (Val P)) (t : Ty) (name : Str) : Option (Val P) :=
  match w.find (sanitize name) with
  | some v => if v.ty = t then some v else none
  | none => none

/-- main.h 405-415 `remove`. -/
def remove (w : Workspace V) (name : Str) : Workspace V × Bool :=
  match w.find (sanitize name) with
  | some _ => (w.erase (sanitize name), true)
  | none => (w, false)

/-- main.h 418-430 `rename`: assigns the new key and then erases the old node. When both names
sanitise to the same key the node that is erased is the one just assigned. -/
def rename (w : Workspace V) (old new : Str) : Workspace V × Bool :=
  match w.find (sanitize old) with
  | some v => ((w.assign (sanitize new) v).erase (sanitize old), true)
  | none => (w, false)

/-- main.h 433-437 `clear`. -/
def clear (_ : Workspace V) : Workspace V := ⟨[]⟩

end Workspace

/-! ## Registry -/

/-- main.h 791-802 `IOSchema`; `none` is the index -1. -/
structure Schema where
  inIdx : Option Nat
  outIdx : Option Nat
  deriving DecidableEq, Repr

/-- main.h 798-802: the schemas used by the registered commands. -/
def generatorSchema : Schema := ⟨none, some 1⟩

/-- main.h 799. -/
def terminatorSchema : Schema := ⟨some 0, none⟩

/-- main.h 800. -/
def transformerSchema : Schema := ⟨some 0, some 1⟩

/-- main.h 801. -/
def combinerSchema : Schema := ⟨some 0, some 2⟩

/-- main.h 802. -/
def independentSchema : Schema := ⟨none, none⟩

/-- How a handler call ends: it returns (possibly after printing an error message), it throws a
`std::exception`, or the process is terminated (`std::terminate`). Seen by `execute`, main.h 855-863. -/
inductive Ctl
  | returned | threw | terminated
  deriving DecidableEq, Repr

/-- main.h 787 `CommandHandler`: works on the session state and may throw after changing it. -/
abbrev Handler (σ : Type) := σ → List Str → σ × Ctl

/-- main.h 808-813 `CommandInfo` (the description is not modelled). -/
structure CmdInfo (σ : Type) where
  schema : Schema
  handler : Handler σ

/-- main.h 816: the registered commands in registration order. -/
abbrev Registry (σ : Type) := List (Str × CmdInfo σ)

namespace Registry

variable {σ : Type}

/-- `commands.find`: the first registration of a name. main.h 832, 853. -/
def lookup (r : Registry σ) (name : Str) : Option (CmdInfo σ) :=
  (r.find? fun p => p.1 == name).map (·.2)

/-- main.h 819-828 `register_command`: `emplace` keeps an existing entry. -/
def register (r : Registry σ) (name : Str) (info : CmdInfo σ) : Registry σ :=
  match r.lookup name with
  | some _ => r
  | none => r ++ [(name, info)]

/-- main.h 830-837 `get_schema`. -/
def getSchema (r : Registry σ) (name : Str) : Option Schema := (r.lookup name).map (·.schema)

/-- What `execute` reports. main.h 851-869. -/
inductive Report
  | ran | errorReported | unknownCommand | terminated
  deriving DecidableEq, Repr

/-- main.h 851-869 `execute`. -/
def execute (r : Registry σ) (s : σ) (name : Str) (args : List Str) : σ × Report :=
  match r.lookup name with
  | some info =>
    match info.handler s args with
    | (s', .returned) => (s', .ran)
    | (s', .threw) => (s', .errorReported)
    | (s', .terminated) => (s', .terminated)
  | none => (s, .unknownCommand)

end Registry

/-! ## Session state, image loading and saving -/

/-- The workspace and the files. `F` is the state of the file system. `Workspace& workspace` of every
handler, main.h 787. -/
structure World (P F : Type) where
  ws : Workspace (Val P)
  fs : F

/-- The parts of the program below the command line: reading a file (main.h 632-668, 756-781) and
writing one (main.h 684-725). `none` is an exception. -/
structure FileIO (P F : Type) where
  load : F → Str → Option (Val P)
  save : F → Str → Val P → Option F

/-- `std::string_view::starts_with('$')`. main.h 623, 677, 741. -/
def isVar (s : Str) : Bool := s.head? == some '$'

/-- `arg.substr(1)`. main.h 625, 679. -/
def varName (s : Str) : Str := s.drop 1

/-- File extensions. main.h 3506-3530, 4420-4435. -/
def extBmp : Str := ['.', 'b', 'm', 'p']

/-- main.h 3512. -/
def extDbmp : Str := ['.', 'd', 'b', 'm', 'p']

/-- main.h 3518. -/
def extHsv : Str := ['.', 'h', 's', 'v']

/-- main.h 3524. -/
def extCsv : Str := ['.', 'c', 's', 'v']

/-- main.h 3530. -/
def extPpm : Str := ['.', 'p', 'p', 'm']

/-- `Image<RGB>` and `Image<HSV>`. main.h 3508, 4420. -/
def tyRgb : Ty := .image (.scalar 10)

/-- `Image<HSV>`, main.h 4430. -/
def tyHsv : Ty := .image (.scalar 11)

/-- `Image<double>`, main.h 4425. -/
def tyDouble : Ty := .image (.num .double)

/-- `std::filesystem::path::stem` and `extension` of a file name: split at the last dot, unless that dot is
the first character. Used at main.h 3503-3504. -/
def splitExt (f : Str) : Str × Str :=
  let tail := f.reverse.takeWhile (· != '.')
  match f.reverse.dropWhile (· != '.') with
  | [] => (f, [])
  | [_] => (f, [])
  | _ :: stemRev => (stemRev.reverse, '.' :: tail.reverse)

/-- `std::filesystem::path(s).extension()` in lower case. main.h 632-640, 757-763. -/
def pathExt (s : Str) : Str :=
  let f := (s.reverse.takeWhile (· != '/')).reverse
  (if f = ['.', '.'] then [] else (splitExt f).2).map Char.toLower

/-- main.h 765-776: the type that is read from a path, by its extension. -/
def fileTy (s : Str) : Ty :=
  if pathExt s = extDbmp ∨ pathExt s = extCsv then tyDouble
  else if pathExt s = extHsv then tyHsv
  else tyRgb

/-- main.h 732-783 `dispatch_data_operation` and main.h 620-668 `Loader`: the value handed to the
processor. `.ok none` is the return value `false`; `.error ()` an exception. The loader is called with the text
without quotes and blanks, and looks for a `$` once more: of a quoted variable it takes an image of the type that
the extension asks for. -/
def loadArg {P F : Type} (io : FileIO P F) (check : Ty → Bool) (w : World P F) (arg : Str) :
    Except Unit (Option (Val P)) :=
  if isVar arg then
    match w.ws.find (sanitize (varName arg)) with
    | some v => if check v.ty then .ok (some v) else .ok none
    | none => .ok none
  else if isVar (sanitize arg) then
    match w.ws.retrieve (fileTy (sanitize arg)) (varName (sanitize arg)) with
    | some v => .ok (some v)
    | none => .error ()
  else
    match io.load w.fs (sanitize arg) with
    | some v => .ok (some v)
    | none => .error ()

/-- main.h 672-727 `Saver`. -/
def saveArg {P F : Type} (io : FileIO P F) (w : World P F) (arg : Str) (v : Val P) :
    World P F × Ctl :=
  if isVar arg then ({ w with ws := w.ws.put (varName arg) v }, .returned)
  else
    match io.save w.fs (sanitize arg) v with
    | some fs => ({ w with fs := fs }, .returned)
    | none => (w, .threw)

/-- main.h 1393-1476 `MetaTransformHandler`. `setup` parses the trailing arguments (`none` is an
exception) and gives the operation (again `none` is an exception). -/
def metaTransform {P F : Type} (io : FileIO P F) (minArgs : Nat) (check : Ty → Bool)
    (setup : List Str → Str → Option (Val P → Option (Val P))) : Handler (World P F) :=
  fun w args =>
    let policy := extractPolicy args
    let filtered := argsFilter args
    if filtered.length < minArgs then (w, .returned)
    else
      match filtered with
      | inArg :: outArg :: _ =>
        match setup filtered policy with
        | none => (w, .threw)
        | some core =>
          match loadArg io check w inArg with
          | .error () => (w, .threw)
          | .ok none => (w, .returned)
          | .ok (some v) =>
            match core v with
            | none => (w, .threw)
            | some r => if check r.ty then saveArg io w outArg r else (w, .returned)
      | _ => (w, .threw)

/-- `std::from_chars` on an unsigned decimal number: the longest prefix of digits; `none` when
there is none or the value does not fit 64 bits. Used by main.h 78-118 `parse_arg<std::size_t>`,
for which `none` is the exception. -/
def parseSize (s : Str) : Option Nat :=
  let ds := (sanitize s).takeWhile Char.isDigit
  if ds = [] then none
  else if Nat.ofDigitChars 10 ds 0 < 2 ^ 64 then some (Nat.ofDigitChars 10 ds 0) else none

/-- `std::to_string` on a `std::size_t`. Used at main.h 4803 and main.cpp 1262. -/
def toStr (n : Nat) : Str := Nat.toDigits 10 n

end TinyDIP.Cli
