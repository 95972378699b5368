import Verif.Model.CliDistance
import Verif.Model.CliAbs
import Verif.Model.CliImage
import Verif.Model.CliSift
import Verif.Model.CliFit
import Verif.Model.Repl
import Verif.Model.CliHandlers

/-!
# The commands together, and sessions of several lines

Files: `main.cpp` (registration 1461-1650, run_interactive_mode 1178-1311) and the plugins (abs, max, min, sum, add,
subtract, replace). `manhattan_distance` and `estimate_gaussian_params_2d` are handlers of main.h (3541-3705, 2488-2530)
that the program offers to plugins and does not register itself.

The commands are modelled over two kinds of stored values (`Pay` with exact rational pixels and `PayR` with real
ones), so there are two tables. `none` is the state after undefined behaviour.
-/

namespace TinyDIP.Cli

variable {P F : Type}

/-- A command as entry of the registry, main.h 787, when its body may run into undefined behaviour. -/
def ofU (h : HandlerU P F) : Handler (Option (World P F)) := fun s args =>
  match s with
  | none => (none, .terminated)
  | some w =>
    match h w args with
    | .ok out => (some out.world, out.ctl)
    | .throw _ => (none, .terminated)
    | .ub => (none, .terminated)

/-- A command as entry of the registry, main.h 787, when its body is defined for all arguments. -/
def ofPlain (h : Handler (World P F)) : Handler (Option (World P F)) := fun s args =>
  match s with
  | none => (none, .terminated)
  | some w => (some (h w args).1, (h w args).2)

/-- A command that prints a report. main.cpp 224-257. -/
def ofTold (h : World P F → List Str → Res (Told P F)) : Handler (Option (World P F)) := fun s args =>
  match s with
  | none => (none, .terminated)
  | some w =>
    match h w args with
    | .ok t => (some t.world, t.ctl)
    | .throw _ => (none, .terminated)
    | .ub => (none, .terminated)

/-- What the models of the commands leave open: reading of numbers, operations on types that are not modelled, orders
of parallel loops, the random engine. Parameters of the commands of main.h and main.cpp. -/
structure Open (F : Type) where
  io : FileIO Pay F
  dbl : Str → Option ℚ
  toScalar : Val Pay → Res (Val Pay)
  toPair : Val Pay → Val Pay → Res (Val Pay)
  toAct : Val Pay → Act (Val Pay)
  toSizes : Val Pay → Nat × Nat
  mul : Str → Option (Val Pay → Option (Val Pay))
  order : List Nat
  orders : Nat → List Nat
  group : Str → Grouping
  seeds : Type
  gen : Str → seeds → ℚ × seeds
  seed : seeds

/-- The commands modelled over rational pixels, with the names of main.cpp 1461-1650 and of the plugins. -/
def numberTable (o : Open F) : List (Str × Handler (Option (World Pay F))) :=
  [("append_element".toList, ofPlain (appendElement o.io)),
    ("constructRGB".toList, ofU (constructRgbCmd o.io o.order)),
    ("copy".toList, ofPlain copyCmd),
    ("create_container".toList, ofPlain (createContainer o.io)),
    ("erase_element".toList, ofPlain (eraseElement o.io)),
    ("get_element".toList, ofPlain (getElement o.io)),
    ("grid".toList, ofU (gridCmd o.io o.order)),
    ("info".toList, ofTold (infoCmd o.io o.toSizes)),
    ("multiply".toList, ofPlain (multiplyCmd o.io o.mul)),
    ("ones".toList, ofPlain (onesCmd o.io)),
    ("print".toList, ofTold fun w args => .ok (printCmd o.io w args)),
    ("rand".toList, ofPlain (randCmd o.io o.gen o.seed)),
    ("read".toList, ofPlain (readCmd o.io pathStem)),
    ("remove".toList, ofPlain removeCmd),
    ("rename".toList, ofPlain renameCmd),
    ("subimage".toList, ofU (subimageCmd o.io o.toAct o.order)),
    ("vars".toList, ofTold fun w _ => .ok (varsCmd w)),
    ("write".toList, ofPlain (writeCmd o.io)),
    ("zeros".toList, ofPlain (zerosCmd o.io)),
    ("count".toList, ofU (countCmd o.io o.dbl)),
    ("abs".toList, ofU (absCmd o.io o.toAct o.orders)),
    ("max".toList, ofU (maxCmd o.io o.toScalar)),
    ("min".toList, ofU (minCmd o.io o.toScalar)),
    ("sum".toList, ofU (sumCmd o.io o.toScalar o.group)),
    ("add".toList, ofU (addCmd o.io o.toPair)),
    ("subtract".toList, ofU (subtractCmd o.io o.toPair)),
    ("replace".toList, ofU (replaceCmd o.io o.dbl)),
    ("manhattan_distance".toList, ofU (manhattanCmd o.io o.toPair))]

/-- The same for the commands over real pixels. Parameters of the commands of main.h and main.cpp. -/
structure OpenR (F : Type) where
  io : FileIO PayR F
  dbl : Str → Option ℝ
  quot : ℝ → ℝ → ℝ
  toAct : Val PayR → Act (Val PayR)
  toOption : Val PayR → Act (Option (Val PayR))
  toScalar : Val PayR → Res (Val PayR)
  order : List Nat
  sched : Sched
  orderFit : Str → List Nat
  ordersFit : Str → Nat → List Nat × List Nat

/-- The commands modelled over real pixels, with the names of main.cpp 1461-1650 and of the plugins. -/
noncomputable def imageTable (o : OpenR F) : List (Str × Handler (Option (World PayR F))) :=
  [("bicubic_resize".toList, ofU (bicubicCmd o.io o.toAct)),
    ("copy".toList, ofPlain copyCmd),
    ("dct2".toList, ofU (dct2Cmd o.io o.toAct)),
    ("dct3".toList, ofU (dct3Cmd o.io o.toAct)),
    ("gaussian_figure_2d".toList, ofU (gaussianCmd o.io o.dbl)),
    ("getBplane".toList, ofU (planeCmd 2 o.io o.toAct)),
    ("getGplane".toList, ofU (planeCmd 1 o.io o.toAct)),
    ("getRplane".toList, ofU (planeCmd 0 o.io o.toAct)),
    ("get_sift_potential_keypoint".toList, ofU (siftCmd o.io o.dbl o.sched o.toOption)),
    ("hsv2rgb".toList, ofU (hsv2rgbCmd o.io o.toAct)),
    ("idct2".toList, ofU (idct2Cmd o.io o.toAct)),
    ("im2double".toList, ofU (im2doubleCmd o.io o.toAct)),
    ("im2uint8".toList, ofU (im2uint8Cmd o.io o.toAct)),
    ("lanczos_resample".toList, ofU (lanczosCmd o.io o.toAct o.order)),
    ("normalize".toList, ofU (normalizeCmd o.io o.quot o.toAct)),
    ("read".toList, ofPlain (readCmd o.io pathStem)),
    ("remove".toList, ofPlain removeCmd),
    ("rename".toList, ofPlain renameCmd),
    ("rotate".toList, ofU (rotateCmd o.io o.dbl o.toAct)),
    ("sift_generate_octave".toList, ofU (octaveCmd o.io o.dbl o.order)),
    ("to_complex".toList, ofU (toComplexCmd o.io o.toAct)),
    ("write".toList, ofPlain (writeCmd o.io)),
    ("estimate_gaussian_params_2d".toList, ofU (fitCmd o.io o.dbl o.toScalar o.orderFit o.ordersFit))]

/-- main.cpp 1185-1310: the lines of a session one after the other, until one of them ends it. -/
def runLines {σ : Type} (isOne : Str → Bool) (reg : Registry σ) : List Str → σ → σ × Next
  | [], s => (s, .goOn)
  | l :: ls, s =>
    match runLine isOne reg l s with
    | (s', .goOn) => runLines isOne reg ls s'
    | r => r

/-! ## transform_container as entry of the registry

`transformContainer` runs commands that are defined for all arguments. To run commands that may have undefined
behaviour, the state carries a mark that such behaviour occurred; the mark ends the run. -/

/-- The files with the mark. main.h 632-668, 684-725. -/
def markedIO (io : FileIO P F) : FileIO P (F × Bool) :=
  ⟨fun f p => io.load f.1 p, fun f p v => (io.save f.1 p v).map fun g => (g, f.2)⟩

/-- A command of the registry in a state with a mark. main.h 787. -/
def marked (h : Handler (Option (World P F))) : Handler (World P (F × Bool)) := fun w args =>
  match h (some ⟨w.ws, w.fs.1⟩) args with
  | (some w', c) => (⟨w'.ws, (w'.fs, w.fs.2)⟩, c)
  | (none, _) => (⟨w.ws, (w.fs.1, true)⟩, .terminated)

/-- main.cpp 1654-1660 with main.h 4737-4964: `transform_container` over the commands `reg`. -/
def containerCmd (io : FileIO P F) (reg : Registry (Option (World P F))) (sched : List Nat) :
    Handler (Option (World P F)) := fun s args =>
  match s with
  | none => (none, .terminated)
  | some w =>
    match transformContainer (markedIO io) (reg.map fun e => (e.1, ⟨e.2.schema, marked e.2.handler⟩)) sched
        ⟨w.ws, (w.fs, false)⟩ args with
    | (w', c) => if w'.fs.2 then (none, .terminated) else (some ⟨w'.ws, w'.fs.1⟩, c)

/-- The registry with `transform_container`. The command it runs on the elements may again be
`transform_container`: each time that takes one more word of the line, so that `n` levels are enough for lines of
`n` words. main.cpp 1654-1660. -/
def withContainers (io : FileIO P F) (sched : List Nat) (base : Registry (Option (World P F))) :
    Nat → Registry (Option (World P F))
  | 0 => base
  | n + 1 => base.register "transform_container".toList
      ⟨independentSchema, containerCmd io (withContainers io sched base n) sched⟩

end TinyDIP.Cli
