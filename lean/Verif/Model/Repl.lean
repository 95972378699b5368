import Verif.Model.Cli

/-!
# Model of the pipeline optimiser and the interactive loop

Files: `main.h` (PeepholeOptimizer 872-1131), `main.cpp` (run_interactive_mode 1178-1311).
-/

namespace TinyDIP.Cli

/-- main.h 876-881 `QueuedCommand`. -/
structure Cmd where
  name : Str
  args : List Str
  deriving DecidableEq, Repr

/-- Command names the optimiser knows. main.h 1045-1108. -/
def sCopy : Str := ['c', 'o', 'p', 'y']

/-- main.h 1046. -/
def sMultiply : Str := ['m', 'u', 'l', 't', 'i', 'p', 'l', 'y']

/-- main.h 1081. -/
def sDct2 : Str := ['d', 'c', 't', '2']

/-- main.h 1081. -/
def sIdct2 : Str := ['i', 'd', 'c', 't', '2']

/-- The prefix of pipe variables, main.h 1096, 1108 and main.cpp 1262. -/
def pipePrefix : Str := ['$', '_', '_', 'p', 'i', 'p', 'e', '_']

/-- `s.find("$__pipe_") == 0`. main.h 1096, 1108. -/
def isPipe (s : Str) : Bool := pipePrefix.isPrefixOf s

/-- main.h 947-968: the argument at logical index `i`, not counting policy words; empty when there
is none. -/
def logicalArg (args : List Str) (i : Nat) : Str := (argsFilter args)[i]?.getD []

/-- main.h 937-976 `get_io`. -/
def getIo (schemas : Str → Option Schema) (c : Cmd) : Str × Str :=
  if c.name = sCopy ∧ 2 ≤ c.args.length then (c.args[0]?.getD [], c.args[1]?.getD [])
  else
    match schemas c.name with
    | some ⟨some i, some o⟩ =>
      if logicalArg c.args i ≠ [] ∧ logicalArg c.args o ≠ [] then
        (logicalArg c.args i, logicalArg c.args o)
      else ([], [])
    | _ => ([], [])

/-- main.h 978-997 `update_arg_by_schema`. -/
def updateArg : List Str → Nat → Str → Option (List Str)
  | [], _, _ => none
  | a :: as, i, v =>
    if isPolicy a then (updateArg as i v).map (a :: ·)
    else
      match i with
      | 0 => some (v :: as)
      | i + 1 => (updateArg as i v).map (a :: ·)

/-- main.h 999-1013 `update_in`. -/
def updateIn (schemas : Str → Option Schema) (c : Cmd) (v : Str) : Option Cmd :=
  if c.name = sCopy ∧ 2 ≤ c.args.length then some { c with args := c.args.set 0 v }
  else
    match schemas c.name with
    | some ⟨some i, _⟩ => (updateArg c.args i v).map fun a => { c with args := a }
    | _ => none

/-- main.h 1015-1029 `update_out`. -/
def updateOut (schemas : Str → Option Schema) (c : Cmd) (v : Str) : Option Cmd :=
  if c.name = sCopy ∧ 2 ≤ c.args.length then some { c with args := c.args.set 1 v }
  else
    match schemas c.name with
    | some ⟨_, some o⟩ => (updateArg c.args o v).map fun a => { c with args := a }
    | _ => none

/-- main.h 1045-1067: a product with a factor equal to one becomes a copy. `isOne` decides whether
`std::from_chars` on the sanitised text succeeds with the value 1.0. The flag tells whether the
command was changed. -/
def rule1 (isOne : Str → Bool) (schemas : Str → Option Schema) (c : Cmd) : Cmd × Bool :=
  if c.name = sMultiply ∧ 3 ≤ c.args.length ∧ isOne (sanitize (c.args.getLast?.getD [])) then
    (⟨sCopy, [(getIo schemas c).1, (getIo schemas c).2]⟩, true)
  else (c, false)

/-- main.h 1081-1082: an inverse pair. -/
def inversePair (a b : Str) : Bool := (a == sDct2 && b == sIdct2) || (a == sIdct2 && b == sDct2)

/-- What main.h 1075-1121 does with two adjacent commands. -/
inductive Pair
  | collapse (copy : Cmd)
  | keep (pending : Cmd)
  | none

/-- main.h 1075-1121: rules A, B and C for adjacent commands. -/
def pairRule (schemas : Str → Option Schema) (c1 c2 : Cmd) : Pair :=
  let io1 := getIo schemas c1
  let io2 := getIo schemas c2
  if io1.2 ≠ [] ∧ io1.2 = io2.1 then
    if inversePair c1.name c2.name then .collapse ⟨sCopy, [io1.1, io2.2]⟩
    else
      match (if c1.name = sCopy ∧ isPipe io1.2 then updateIn schemas c2 io1.1 else Option.none) with
      | some c2' => .keep c2'
      | Option.none =>
        match (if c2.name = sCopy ∧ isPipe io2.1 then updateOut schemas c1 io2.2
            else Option.none) with
        | some c1' => .keep c1'
        | Option.none => .none
  else .none

/-- main.h 1031-1126: one pass, with the pending command and the remaining pipeline; gives the new
pipeline and whether something changed. -/
def pass (isOne : Str → Bool) (schemas : Str → Option Schema) :
    Option Cmd → List Cmd → List Cmd × Bool
  | Option.none, [] => ([], false)
  | some c, [] => ([(rule1 isOne schemas c).1], (rule1 isOne schemas c).2)
  | Option.none, c :: cs => pass isOne schemas (some c) cs
  | some c, c2 :: cs =>
    let c1 := (rule1 isOne schemas c).1
    let ch := (rule1 isOne schemas c).2
    match pairRule schemas c1 c2 with
    | .collapse copy => (copy :: (pass isOne schemas Option.none cs).1, true)
    | .keep p => ((pass isOne schemas (some p) cs).1, true)
    | .none => (c1 :: (pass isOne schemas (some c2) cs).1, ch || (pass isOne schemas (some c2) cs).2)

/-- main.h 908-912, 1128-1129: the loop `while (changed)`; `fuel` bounds the number of passes and
`none` means that more passes would be needed. -/
def optimizeFuel (isOne : Str → Bool) (schemas : Str → Option Schema) :
    Nat → List Cmd → Option (List Cmd)
  | 0, _ => Option.none
  | n + 1, p =>
    if (pass isOne schemas Option.none p).2 then
      optimizeFuel isOne schemas n (pass isOne schemas Option.none p).1
    else some (pass isOne schemas Option.none p).1

/-- main.h 901-1130 `optimize`. The number of passes allowed here is shown to be enough for every
pipeline (`optimizeFuel_total`, used by property C63). -/
def optimize (isOne : Str → Bool) (schemas : Str → Option Schema) (p : List Cmd) : List Cmd :=
  (optimizeFuel isOne schemas (2 * p.length + 1) p).getD p

/-! ## The interactive loop -/

/-- Split at a separator, as repeated `std::getline(ss, segment, '|')`. A trailing empty segment that
`getline` would not deliver is delivered here; empty segments are dropped next. main.cpp 1201-1204. -/
def splitAtSep (sep : Char → Bool) : Str → List Str
  | [] => [[]]
  | c :: cs =>
    if sep c then [] :: splitAtSep sep cs
    else
      match splitAtSep sep cs with
      | [] => [[c]]
      | s :: ss => (c :: s) :: ss

/-- main.cpp 1212-1218: `iss >> token` until the end. -/
def tokenize (s : Str) : List Str := (splitAtSep isSpace s).filter (· ≠ [])

/-- main.cpp 1197-1225: the stages of a line. -/
def parseLine (line : Str) : List (List Str) :=
  ((splitAtSep (· == '|') line).map tokenize).filter (· ≠ [])

/-- main.cpp 1227-1234: the final output variable and the remaining stages. -/
def splitFinal (segs : List (List Str)) : List (List Str) × Str :=
  match segs.getLast? with
  | some [v] => if 1 < segs.length ∧ isVar v then (segs.dropLast, v) else (segs, [])
  | _ => (segs, [])

/-- `args.insert(begin + min(pos, size), x)`. main.cpp 1277-1285. -/
def insertAt (l : List Str) (pos : Nat) (x : Str) : List Str :=
  l.take (min pos l.length) ++ x :: l.drop (min pos l.length)

/-- main.cpp 1262: name of the variable between stage `i` and stage `i + 1`. -/
def pipeVar (i : Nat) : Str := pipePrefix ++ toStr i

/-- main.cpp 1269-1286: the arguments of a stage after injecting the variables. -/
def wireArgs (s : Schema) (prev next : Str) (typed : List Str) : List Str :=
  let a1 := match s.inIdx with
    | some i => if prev ≠ [] then insertAt typed i prev else typed
    | none => typed
  match s.outIdx with
  | some o => if next ≠ [] then insertAt a1 o next else a1
  | none => a1

/-- Result of reading a line. main.cpp 1240-1290. -/
inductive Built
  | exit
  | unknown (name : Str)
  | ok (cmds : List Cmd)
  deriving DecidableEq, Repr

/-- Commands that end the session. main.cpp 1245. -/
def sExit : Str := ['e', 'x', 'i', 't']

/-- main.cpp 1245. -/
def sQuit : Str := ['q', 'u', 'i', 't']

/-- main.cpp 1240-1290: build the pipeline from stage `i` on; `final` is the variable that the
last stage writes. -/
def build (schemas : Str → Option Schema) (final : Str) :
    List (List Str) → Nat → Str → Built
  | [], _, _ => .ok []
  | seg :: segs, i, prev =>
    let name := seg.head?.getD []
    if name = sExit ∨ name = sQuit then .exit
    else
      match schemas name with
      | none => .unknown name
      | some s =>
        let next := if segs ≠ [] then pipeVar i else final
        match build schemas final segs (i + 1) next with
        | .ok cmds => .ok (⟨name, wireArgs s prev next (seg.drop 1)⟩ :: cmds)
        | r => r

/-- main.cpp 1299-1309: execute the commands in order, whatever they report. The flag tells whether
the process was terminated. -/
def runCmds {σ : Type} (reg : Registry σ) : List Cmd → σ → σ × Bool
  | [], s => (s, false)
  | c :: cs, s =>
    match reg.execute s c.name c.args with
    | (s', .terminated) => (s', true)
    | (s', _) => runCmds reg cs s'

/-- How the session goes on after a line. main.cpp 1185-1309. -/
inductive Next
  | goOn | quit | terminated
  deriving DecidableEq, Repr

/-- main.cpp 1192-1309: one line of the interactive loop. -/
def runLine {σ : Type} (isOne : Str → Bool) (reg : Registry σ) (line : Str) (s : σ) : σ × Next :=
  let segs := parseLine line
  if segs = [] then (s, .goOn)
  else
    match build reg.getSchema (splitFinal segs).2 (splitFinal segs).1 0 [] with
    | .exit => (s, .quit)
    | .unknown _ => (s, .goOn)
    | .ok cmds =>
      match runCmds reg (optimize isOne reg.getSchema cmds) s with
      | (s', true) => (s', .terminated)
      | (s', false) => (s', .goOn)

end TinyDIP.Cli
