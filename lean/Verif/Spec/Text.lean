import Verif.Model.Text

/-!
# Specification of the text image files
-/

namespace TinyDIP.Text

open TinyDIP TinyDIP.Cli

/-- White space. -/
def Blank (c : Char) : Prop :=
  c = ' ' ∨ c = '\t' ∨ c = '\n' ∨ c = '\r' ∨ c = Char.ofNat 11 ∨ c = Char.ofNat 12

/-- White space and complete comments, in any number and order. -/
inductive Sep : Str → Prop
  | nil : Sep []
  | blank (c : Char) (s : Str) : Blank c → Sep s → Sep (c :: s)
  | comment (body s : Str) : '\n' ∉ body → Sep s → Sep ('#' :: (body ++ '\n' :: s))

/-- A token: not empty, no white space, not the beginning of a comment. -/
def Word (t : Str) : Prop := t ≠ [] ∧ (∀ c ∈ t, ¬ Blank c) ∧ t.head? ≠ some '#'

/-- The text contains exactly these tokens: before each of them any separator, after each of them
white space or the end of the file, and perhaps an unfinished comment at the end. -/
inductive PnmText : List Str → Str → Prop
  | nil (s : Str) : Sep s → PnmText [] s
  | openComment (s body : Str) : Sep s → '\n' ∉ body → PnmText [] (s ++ '#' :: body)
  | cons (s t rest : Str) (ts : List Str) : Sep s → Word t → PnmText ts rest →
      (rest = [] ∨ ∃ c r, rest = c :: r ∧ Blank c) → PnmText (t :: ts) (s ++ (t ++ rest))

/-- A scheduler may reorder the iterations of a loop, nothing else. -/
def Fair (sched : List Nat → List Nat) : Prop := ∀ l, (sched l).Perm l

end TinyDIP.Text
