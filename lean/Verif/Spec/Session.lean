import Verif.Model.Session
import Verif.Spec.Cli

/-!
# Specification vocabulary for sessions
-/

namespace TinyDIP.Cli

variable {P F : Type}

/-- `s` is the name of the file at the path `p` without its directory and its last extension. -/
def StemOf (p s : Str) : Prop :=
  ∃ dir ext, p = dir ++ s ++ ext ∧ '/' ∉ s ++ ext ∧ (dir = [] ∨ ∃ d, dir = d ++ ['/']) ∧
    (ext = [] ∨ ∃ e, ext = '.' :: e ∧ '.' ∉ e)

/-- The word `a` may refer to the variable `x`: it is `$x`, or a file whose name is `x` (the variable that `read`
fills when it is given none), or the word `all` of `remove`. -/
def MayName (a x : Str) : Prop :=
  a = "all".toList ∨ (∃ v, a = '$' :: v ∧ SameVar v x) ∨ ∃ p s, Means a p ∧ StemOf p s ∧ SameVar s x

/-- A name that is none of the program's own: not empty, not beginning with `$`, not `__pipe_…`. -/
def Ordinary (x : Str) : Prop := ∀ t, Means x t → t ≠ [] ∧ t.head? ≠ some '$' ∧ ¬ "__pipe_".toList <+: t

/-- The command changes no variable that none of its words may refer to. -/
def Discreet (h : Handler (Option (World P F))) : Prop :=
  (∀ args, (h none args).1 = none) ∧
    ∀ w args w' c, h (some w) args = (some w', c) → ∀ x, (∀ a ∈ args, ¬ MayName a x) →
      w'.ws.retrieveAny x = w.ws.retrieveAny x

/-- Saving a value at the path `p` does not change what `see` shows of the files; `see` can be the content of one
file. -/
def Spares {D : Type} (io : FileIO P F) (see : F → D) (p : Str) : Prop :=
  ∀ fs v fs', io.save fs p v = some fs' → see fs' = see fs

/-- The word `a` is a variable, or the path of a file that is not looked at. -/
def Elsewhere {D : Type} (io : FileIO P F) (see : F → D) (a : Str) : Prop :=
  a.head? = some '$' ∨ ∀ p, Means a p → Spares io see p

/-- The command writes no file that is not one of its words. -/
def Tidy (io : FileIO P F) (h : Handler (Option (World P F))) : Prop :=
  (∀ args, (h none args).1 = none) ∧
    ∀ w args w' c, h (some w) args = (some w', c) → ∀ (D : Type) (see : F → D), (∀ a ∈ args, Elsewhere io see a) →
      see w'.fs = see w.fs

/-- White space, or the bar between the stages of a line. -/
def Separator (c : Char) : Prop := c ∈ [' ', '\t', '\n', '\x0b', '\x0c', '\r', '|']

/-- `a` is a word of the line: a longest piece without separators. -/
def WordOf (line a : Str) : Prop :=
  ∃ pre suf, line = pre ++ a ++ suf ∧ a ≠ [] ∧ (∀ c ∈ a, ¬ Separator c) ∧
    (∀ c, pre.getLast? = some c → Separator c) ∧ ∀ c, suf.head? = some c → Separator c

/-- The word `a` may refer to the variable `x` when `transform_container` is among the commands: that command takes
the first character off the word for its result without looking at it. -/
def MayNameAny (a x : Str) : Prop := MayName a x ∨ ∃ c v, a = c :: v ∧ SameVar v x

/-- A name that is none of those `transform_container` uses for the elements: `__tc_in_0`, `__tc_out_0`, ... -/
def NotTemporary (x : Str) : Prop :=
  ∀ i : Nat, ¬ SameVar ("__tc_in_".toList ++ Nat.toDigits 10 i) x ∧ ¬ SameVar ("__tc_out_".toList ++ Nat.toDigits 10 i) x

end TinyDIP.Cli
