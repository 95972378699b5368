import Verif.Model.Cli

/-!
# Model of the workspace command handlers

Files: `main.h` (append_element 1764-1841, create_container 2195-2242,
create_image_with_initial_value 2244-2296, copy 2406-2441, erase_element 2443-2509, get_element
2633-2697, load_workspace 3476-3539, multiply 3838-3990, read 4125-4181, save_workspace 4388-4469,
transform_container 4737-4964), `main.cpp` (remove 560-597, rename 600-632).
-/

namespace TinyDIP.Cli

variable {P F : Type}

/-- main.h 2406-2441 `handlers::copy`. -/
def copyCmd : Handler (World P F) := fun w args =>
  match args with
  | src :: dst :: _ =>
    if !isVar src || !isVar dst then (w, .returned)
    else
      match w.ws.retrieveAny (varName src) with
      | some v => ({ w with ws := w.ws.put (varName dst) v }, .returned)
      | none => (w, .returned)
  | _ => (w, .returned)

/-- main.cpp 579-595: the loop of `handlers::remove`. -/
def removeAll (ws : Workspace (Val P)) : List Str → Workspace (Val P)
  | [] => ws
  | a :: as => removeAll (if isVar a then (ws.remove (varName a)).1 else ws) as

/-- The word `all`. main.cpp 571. -/
def sAll : Str := ['a', 'l', 'l']

/-- main.cpp 560-597 `handlers::remove`. -/
def removeCmd : Handler (World P F) := fun w args =>
  if args = [sAll] then ({ w with ws := w.ws.clear }, .returned)
  else ({ w with ws := removeAll w.ws args }, .returned)

/-- main.cpp 600-632 `handlers::rename`. -/
def renameCmd : Handler (World P F) := fun w args =>
  match args with
  | old :: new :: _ =>
    if !isVar old || !isVar new then (w, .returned)
    else ({ w with ws := (w.ws.rename (varName old) (varName new)).1 }, .returned)
  | _ => (w, .returned)

/-- `*it` on a container element: for `std::vector<bool>` this is a `std::vector<bool>::reference`, and
`Workspace::store` stores an object of that type. main.h 2633-2697. -/
def elementStored (k : Kind) (e : Ty) (x : Val P) : Val P :=
  match k, e, x with
  | .vector, .num .bool, .atom _ p => .atom .boolRef p
  | _, _, x => x

/-- main.h 2633-2697 `handlers::get_element`. -/
def getElement (io : FileIO P F) : Handler (World P F) := fun w args =>
  match args with
  | inArg :: outArg :: idxArg :: _ =>
    if !isVar outArg then (w, .returned)
    else
      match parseSize idxArg with
      | none => (w, .threw)
      | some index =>
        match loadArg io isAllContainer w inArg with
        | .error () => (w, .threw)
        | .ok none => (w, .returned)
        | .ok (some (.atom _ _)) => (w, .returned)
        | .ok (some (.cont k e items)) =>
          match items[index]? with
          | none => (w, .returned)
          | some x => ({ w with ws := w.ws.put (varName outArg) (elementStored k e x) }, .returned)
  | _ => (w, .returned)

/-- `is_vector_v || is_deque_v || is_list_v`, main.h 1799. -/
def Kind.resizable : Kind → Bool
  | .array _ => false
  | _ => true

/-- main.h 1764-1841 `handlers::append_element`. -/
def appendElement (io : FileIO P F) : Handler (World P F) := fun w args =>
  match args with
  | inArg :: elemArg :: outArg :: _ =>
    if !isVar outArg then (w, .returned)
    else
      match loadArg io isAllContainer w inArg with
      | .error () => (w, .threw)
      | .ok none => (w, .returned)
      | .ok (some (.atom _ _)) => (w, .returned)
      | .ok (some (.cont k e items)) =>
        if !k.resizable || !isVar elemArg then (w, .returned)
        else
          match w.ws.retrieve e (varName elemArg) with
          | none => (w, .returned)
          | some x => ({ w with ws := w.ws.put (varName outArg) (.cont k e (items ++ [x])) }, .returned)
  | _ => (w, .returned)

/-- main.h 2443-2509 `handlers::erase_element`. -/
def eraseElement (io : FileIO P F) : Handler (World P F) := fun w args =>
  match args with
  | inArg :: outArg :: idxArg :: _ =>
    if !isVar outArg then (w, .returned)
    else
      match parseSize idxArg with
      | none => (w, .threw)
      | some index =>
        match loadArg io isAllContainer w inArg with
        | .error () => (w, .threw)
        | .ok none => (w, .returned)
        | .ok (some (.atom _ _)) => (w, .returned)
        | .ok (some (.cont k e items)) =>
          if !k.resizable || items.length ≤ index then (w, .returned)
          else ({ w with ws := w.ws.put (varName outArg) (.cont k e (items.eraseIdx index)) },
            .returned)
  | _ => (w, .returned)

/-- main.h 2195-2242 `handlers::create_container`. -/
def createContainer (io : FileIO P F) : Handler (World P F) := fun w args =>
  match args with
  | inArg :: outArg :: _ =>
    if !isVar outArg then (w, .returned)
    else
      match loadArg io isMasterData w inArg with
      | .error () => (w, .threw)
      | .ok none => (w, .returned)
      | .ok (some v) => ({ w with ws := w.ws.put (varName outArg) (.cont .vector v.ty [v]) }, .returned)
  | _ => (w, .returned)

/-- Parse every argument as a size, main.h 2267-2272. -/
def parseSizes : List Str → Option (List Nat)
  | [] => some []
  | a :: as =>
    match parseSize a, parseSizes as with
    | some n, some ns => some (n :: ns)
    | _, _ => none

/-- main.h 2244-2296 `handlers::create_image_with_initial_value`, used by `zeros` (main.cpp
1050-1063) and `ones`. `mk sizes` is the constructed image, `none` when the constructor throws. -/
def createImage (io : FileIO P F) (mk : List Nat → Option (Val P)) : Handler (World P F) :=
  fun w args =>
    match args with
    | outArg :: d :: ds =>
      match parseSizes (d :: ds) with
      | none => (w, .threw)
      | some sizes =>
        match mk sizes with
        | none => (w, .threw)
        | some v => saveArg io w outArg v
    | _ => (w, .returned)

/-- main.h 4125-4181 `handlers::read`. `stem` is `std::filesystem::path::stem` of the input path, used
when no output variable is given; the program's is `pathStem` below. -/
def readCmd (io : FileIO P F) (stem : Str → Str) : Handler (World P F) := fun w args =>
  let go (inArg outArg : Str) : World P F × Ctl :=
    match loadArg io isMasterImage w inArg with
    | .error () => (w, .threw)
    | .ok none => (w, .returned)
    | .ok (some v) => saveArg io w outArg v
  match args with
  | [] => (w, .returned)
  | [inArg] => go inArg ('$' :: stem (sanitize inArg))
  | inArg :: outArg :: _ => if !isVar outArg then (w, .returned) else go inArg outArg

/-- main.h 3838-3990 `handlers::multiply`: `mul s v` is the product of `v` with the number that
the sanitised text `s` denotes; `none` when the text is no number or the type has no product. -/
def multiplyCmd (io : FileIO P F) (mul : Str → Option (Val P → Option (Val P))) :
    Handler (World P F) :=
  metaTransform io 3 isMasterData fun filtered _ =>
    match filtered with
    | _ :: _ :: s :: _ => mul (sanitize s)
    | _ => none

/-! ## transform_container -/

/-- The temporary names of main.h 4802-4803. -/
def tcIn (i : Nat) : Str := ['_', '_', 't', 'c', '_', 'i', 'n', '_'] ++ toStr i

/-- main.h 4805: name of the output variable of element `i`. -/
def tcOut (i : Nat) : Str := ['_', '_', 't', 'c', '_', 'o', 'u', 't', '_'] ++ toStr i

/-- main.h 4807-4817: arguments of the element command. -/
def tcArgs (policy : Str) (sub : List Str) (i : Nat) : List Str :=
  (if policy = [] then [] else [policy]) ++ ['$' :: tcIn i, '$' :: tcOut i] ++ sub

/-- main.h 4750-4763: the last policy word, or the empty string. -/
def lastPolicy (args : List Str) : Str := (args.filter isPolicy).getLast?.getD []

/-- Outcome of running the element commands. main.h 4797-4910. -/
inductive TcRes (P : Type)
  | done (results : List (Val P))
  | threw
  | terminated

/-- main.h 4797-4842 `exec_default`: one element after the other; stops at the first element for
which the command leaves no output variable. -/
def tcDefault (reg : Registry (World P F)) (cmd policy : Str) (sub : List Str) :
    List (Val P) → Nat → World P F → List (Val P) → World P F × TcRes P
  | [], _, w, acc => (w, .done acc)
  | x :: xs, i, w, acc =>
    let w1 : World P F := { w with ws := w.ws.put (tcIn i) x }
    match reg.execute w1 cmd (tcArgs policy sub i) with
    | (w2, .terminated) => (w2, .terminated)
    | (w2, _) =>
      match w2.ws.retrieveAny (tcOut i) with
      | none => (w2, .threw)
      | some r =>
        let w3 : World P F := { w2 with ws := (w2.ws.remove (tcIn i)).1 }
        let w4 : World P F := { w3 with ws := (w3.ws.remove (tcOut i)).1 }
        tcDefault reg cmd policy sub xs (i + 1) w4 (acc ++ [r])

/-- State of the parallel `std::for_each` of main.h 4847-4897: every element has a position in
its own sequence of five atomic steps (store input, run the command, take the output, remove the
input, remove the output). Running the command is one step here. -/
structure TcState (P F : Type) where
  world : World P F
  pc : Nat → Nat
  results : Nat → Option (Val P)
  dead : Bool

/-- One step of element `i`. A missing output throws inside a parallel algorithm, which calls
`std::terminate`. main.h 4854-4896. -/
def tcStep (reg : Registry (World P F)) (cmd policy : Str) (sub : List Str) (elems : List (Val P))
    (s : TcState P F) (i : Nat) : TcState P F :=
  if s.dead then s
  else
    match elems[i]? with
    | none => s
    | some x =>
      let next := fun j => if j = i then s.pc i + 1 else s.pc j
      match s.pc i with
      | 0 => { s with world := { s.world with ws := s.world.ws.put (tcIn i) x }, pc := next }
      | 1 =>
        match reg.execute s.world cmd (tcArgs policy sub i) with
        | (w, .terminated) => { s with world := w, dead := true }
        | (w, _) => { s with world := w, pc := next }
      | 2 =>
        match s.world.ws.retrieveAny (tcOut i) with
        | none => { s with dead := true }
        | some r => { s with results := fun j => if j = i then some r else s.results j, pc := next }
      | 3 => { s with world := { s.world with ws := (s.world.ws.remove (tcIn i)).1 }, pc := next }
      | 4 => { s with world := { s.world with ws := (s.world.ws.remove (tcOut i)).1 }, pc := next }
      | _ => s

/-- The parallel run: `sched` lists which element makes its next step. main.h 4847-4900. -/
def tcParallel (reg : Registry (World P F)) (cmd policy : Str) (sub : List Str)
    (elems : List (Val P)) (sched : List Nat) (w : World P F) : World P F × TcRes P :=
  let s := sched.foldl (tcStep reg cmd policy sub elems) ⟨w, fun _ => 0, fun _ => none, false⟩
  if s.dead then (s.world, .terminated)
  else (s.world, .done ((List.range elems.length).filterMap s.results))

/-- main.h 4941 `ReconstructibleTypes`; `scalar 0`, `1`, `2` stand for
`GaussianParameters2D<float>`, `<double>`, `<long double>`. -/
def isReconstructible : Ty → Bool
  | .scalar n => n < 3
  | t => isMasterData t

/-- main.h 4912-4950: build the result container. -/
def tcStore (w : World P F) (outArg : Str) (results : List (Val P)) : World P F × Ctl :=
  match results with
  | [] => (w, .returned)
  | r :: rs =>
    if isReconstructible r.ty then
      if outArg = [] then (w, .threw)
      else if rs.all (fun x => x.ty = r.ty) then
        ({ w with ws := w.ws.put (varName outArg) (.cont .vector r.ty (r :: rs)) }, .returned)
      else (w, .threw)
    else (w, .returned)

/-- main.h 4737-4964 `handlers::transform_container`. `sched` is the schedule used when a policy
is given. The elements are stored as `element` of the container (main.h 4800-4805) or, with a policy, as
`elements[idx]` of a vector (main.h 4846, 4858): references for `bool`. `output_arg.substr(1)` of an empty argument
throws. -/
def transformContainer (io : FileIO P F) (reg : Registry (World P F)) (sched : List Nat) :
    Handler (World P F) := fun w args =>
  let policy := lastPolicy args
  match argsFilter args with
  | inArg :: outArg :: cmd :: sub =>
    match loadArg io isAllContainer w inArg with
    | .error () => (w, .threw)
    | .ok none => (w, .returned)
    | .ok (some (.atom _ _)) => (w, .returned)
    | .ok (some (.cont k e items)) =>
      if !k.resizable then (w, .returned)
      else if items = [] then
        if outArg = [] then (w, .threw)
        else ({ w with ws := w.ws.put (varName outArg) (.cont .vector e []) }, .returned)
      else
        match dispatchPolicy policy
            (fun _ => tcParallel reg cmd policy sub (items.map (elementStored .vector e)) sched w)
            (tcDefault reg cmd policy sub (items.map (elementStored k e)) 0 w []) with
        | (w', .terminated) => (w', .terminated)
        | (w', .threw) => (w', .returned)
        | (w', .done results) => tcStore w' outArg results
  | _ => (w, .returned)

/-! ## Saving and loading a workspace -/

/-- main.h 4420-4446: extension of the file a value is saved to; `none` for types that are
skipped. -/
def saveExt (t : Ty) : Option Str :=
  if t = tyRgb then some extBmp
  else if t = tyDouble then some extDbmp
  else if t = tyHsv then some extHsv
  else none

/-- Image file formats: `enc v` are the bytes written for `v`, `dec ext bytes` the image read from a file
with that extension (`none`: the reader throws). image_io.h 31-610 as called at main.h 3508-3532 and
4422-4434. -/
structure Codec (P B : Type) where
  enc : Val P → B
  dec : Str → B → Option (Val P)

/-- main.h 4388-4469 `save_workspace` into a directory given as a map from file names to contents.
`vars` are the variables in the order of iteration. A name with a `/` denotes a file outside the
directory and is skipped. -/
def saveBundle {B : Type} (c : Codec P B) (vars : List (Str × Val P)) (dir : Workspace B) :
    Workspace B :=
  vars.foldl (fun d p =>
    match saveExt p.2.ty with
    | some ext => if p.1.contains '/' then d else d.assign (p.1 ++ ext) (c.enc p.2)
    | none => d) dir

/-- `std::filesystem::path(s).stem().string()` with `/` as separator: the file name without its extension; `..`
has none. Used at main.h 4157-4158. -/
def pathStem (s : Str) : Str :=
  let f := (s.reverse.takeWhile (· != '/')).reverse
  if f = ['.', '.'] then f else (splitExt f).1

/-- main.h 3504-3534: the extensions `load_workspace` reads. -/
def isLoadable (ext : Str) : Bool :=
  ext == extBmp || ext == extDbmp || ext == extHsv || ext == extCsv || ext == extPpm

/-- main.h 3476-3539 `load_workspace` from a directory whose entries are visited in the given
order; `none` when a reader throws. -/
def loadBundle {B : Type} (c : Codec P B) : List (Str × B) → Workspace (Val P) →
    Option (Workspace (Val P))
  | [], ws => some ws
  | (f, b) :: es, ws =>
    if isLoadable (splitExt f).2 then
      match c.dec (splitExt f).2 b with
      | some v => loadBundle c es (ws.put (splitExt f).1 v)
      | none => none
    else loadBundle c es ws

/-- The same with the workspace that is left when a reader throws: the exception leaves the loop (main.h 3498-3537)
and `execute` reports it (main.h 851-869). The second component says whether the loop ended. -/
def loadEntries {B : Type} (c : Codec P B) : List (Str × B) → Workspace (Val P) → Workspace (Val P) × Bool
  | [], ws => (ws, true)
  | (f, b) :: es, ws =>
    if isLoadable (splitExt f).2 then
      match c.dec (splitExt f).2 b with
      | some v => loadEntries c es (ws.put (splitExt f).1 v)
      | none => (ws, false)
    else loadEntries c es ws

end TinyDIP.Cli
