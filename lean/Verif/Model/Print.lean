import Verif.Model.Text
import Verif.Model.Recursive

/-!
# Printing an image (image.h) and a nested container (basic_functions.h)

The text of one element (`element_printer`, image.h 442-489: `std::print` or `operator<<` of the element, of
`+value` for fundamental types, of the channels between brackets for `MultiChannel`) is the parameter `el`.
-/

namespace TinyDIP.Print

open TinyDIP TinyDIP.Cli

variable {α : Type}

/-- image.h 796-824, `print_recursive_helper`. The vector of indices is shared by all the calls; the state is
this vector and what has been written. -/
def helper (im : Image α) (el : α → Str) (sep : Str) : Nat → List Nat × Str → Res (List Nat × Str)
  | 0, st => do
    let n ← vget im.size 0
    forUp n (fun st i => do
      let ix ← vset st.1 0 i
      let v ← im.atRangeUnchecked ix
      .ok (ix, st.2 ++ el v ++ sep)) st
  | d + 1, st => do
    let n ← vget im.size (d + 1)
    let st ← forUp n (fun st i => do
      let ix ← vset st.1 (d + 1) i
      let st ← helper im el sep d (ix, st.2)
      .ok (st.1, st.2 ++ ['\n'])) st
    .ok (st.1, st.2 ++ ['\n'])

/-- image.h 433-492, `print(separator, os)`: what is written to the stream. -/
def print (im : Image α) (el : α → Str) (sep : Str) : Res Str :=
  if im.dim = 0 then .ok []
  else do
    let st ← helper im el sep (im.dim - 1) (List.replicate im.dim 0, [])
    .ok st.2

/-- image.h 511-516, `operator<<`. -/
def insert (im : Image α) (el : α → Str) : Res Str := print im el ['\t']

/-- basic_functions.h 836-855, both overloads of `recursive_print`: what is written. `el` is the text of an
element. -/
def recPrint (el : α → Str) : (n : Nat) → (level : Nat) → Rec.Nest α n → Str
  | 0, level, v => List.replicate level ' ' ++ el v ++ ['\n']
  | n + 1, level, l =>
    List.replicate level ' ' ++ "Level ".toList ++ toStr level ++ [':', '\n'] ++
      List.flatMap (fun e => recPrint el n (level + 1) e) l

end TinyDIP.Print
