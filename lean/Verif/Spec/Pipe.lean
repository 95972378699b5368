import Verif.Spec.Cli
import Verif.Model.Repl

/-!
# Specification vocabulary for pipelines
-/

namespace TinyDIP.Cli

/-- The words joined by single spaces. -/
def joinWords : List Str → Str
  | [] => []
  | [w] => w
  | w :: ws => w ++ ' ' :: joinWords ws

/-- The stages joined by ` | `. -/
def joinStages : List (List Str) → Str
  | [] => []
  | [s] => joinWords s
  | s :: ss => joinWords s ++ ' ' :: '|' :: ' ' :: joinStages ss

/-- The text of the pipe variable with number `i`. -/
def pipeName (i : Nat) : Str := "$__pipe_".toList ++ Nat.toDigits 10 i

/-- A transform command without its input and output variable: name, policy words, further
arguments. -/
structure Stage where
  name : Str
  pol : List Str
  sub : List Str
  deriving DecidableEq

/-- The command `name pol... $x $y sub...`. -/
def Stage.cmd (s : Stage) (x y : Str) : Cmd := ⟨s.name, s.pol ++ ['$' :: x, '$' :: y] ++ s.sub⟩

/-- The commands `cs` run the stages one after the other from variable `x` to variable `y`; the
variables between them are pipe variables. -/
inductive Chain : Str → List Stage → Str → List Cmd → Prop
  | one (x : Str) (s : Stage) (y : Str) : Chain x [s] y [s.cmd x y]
  | cons (x : Str) (s : Stage) (z : Str) {ss : List Stage} {y : Str} {cs : List Cmd}
      (hz : "__pipe_".toList <+: z) (h : Chain z ss y cs) : Chain x (s :: ss) y (s.cmd x z :: cs)

/-- A command of a pipeline that is no stage: a copy that does not name pipe variables, or a command other than `copy`
and `multiply` that has no input or no output variable. -/
def Bystander {P F : Type} (reg : Registry (World P F)) (c : Cmd) : Prop :=
  (c.name = "copy".toList ∧ ∀ t ∈ c.args, ¬ "$__pipe_".toList <+: t) ∨
    (c.name ≠ "copy".toList ∧ c.name ≠ "multiply".toList ∧
      ∀ s, reg.getSchema c.name = some s → s.inIdx = none ∨ s.outIdx = none)

/-- The text `m` does not name a pipe variable. -/
def UserVar (m : Str) : Prop := ∀ n, Means m n → ¬ "__pipe_".toList <+: n

/-- Same files, and the same values in `b` and in every variable that is no pipe variable. -/
def Agree {P F : Type} (b : Str) (w w' : World P F) : Prop :=
  w'.fs = w.fs ∧ ∀ m, UserVar m ∨ SameVar m b → w'.ws.retrieveAny m = w.ws.retrieveAny m

/-- Apply the stages to a value. -/
def applyAll {V : Type} (den : Stage → V → Option V) : List Stage → V → Option V
  | [], v => some v
  | s :: ss, v => (den s v).bind (applyAll den ss)

/-- As `Chain`, with the pipe variables numbered from `i` on as in a typed line. -/
inductive PipeChain : Nat → Str → List Stage → Str → List Cmd → Prop
  | one (i : Nat) (x : Str) (s : Stage) (y : Str) : PipeChain i x [s] y [s.cmd x y]
  | cons (i : Nat) (x : Str) (s : Stage) {ss : List Stage} {y : Str} {cs : List Cmd}
      (h : PipeChain (i + 1) ("__pipe_".toList ++ Nat.toDigits 10 i) ss y cs) :
      PipeChain i x (s :: ss) y (s.cmd x ("__pipe_".toList ++ Nat.toDigits 10 i) :: cs)

/-- Executing `cmd pol... $a $b sub...` while there is no variable `a` changes nothing. -/
def SkipsMissing {P F : Type} (reg : Registry (World P F)) (cmd : Str) (pol sub : List Str) : Prop :=
  ∀ w a b, w.ws.retrieveAny a = none →
    ∃ rep, rep ≠ Registry.Report.terminated ∧
      reg.execute w cmd (pol ++ ['$' :: a, '$' :: b] ++ sub) = (w, rep)

end TinyDIP.Cli
