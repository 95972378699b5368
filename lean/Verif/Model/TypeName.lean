import Verif.Model.Cli
import Verif.Model.Res

/-!
# Model: names of types shown to the user (main.h 315-340)

`get_type_name<T>()` cuts the name of `T` out of the text the compiler gives for the signature of the function. That text
is an argument here; the texts of the three compilers are in the specification.
-/

namespace TinyDIP.Cli

open TinyDIP

/-- `std::string_view::npos`. Used at main.h 329. -/
def npos : Nat := 2 ^ 64 - 1

/-- First place where `pat` begins in the text. Used by `svFind`, main.h 322. -/
def firstPlace (pat : Str) : Str → Option Nat
  | [] => if pat.isEmpty then some 0 else none
  | c :: s => if pat.isPrefixOf (c :: s) then some 0 else (firstPlace pat s).map (· + 1)

/-- Last place where `pat` begins in the text. Used by `svRfind`, main.h 335. -/
def lastPlace (pat : Str) : Str → Option Nat
  | [] => if pat.isEmpty then some 0 else none
  | c :: s =>
    match lastPlace pat s with
    | some i => some (i + 1)
    | none => if pat.isPrefixOf (c :: s) then some 0 else none

/-- `std::string_view::find(pat, pos)`. Used at main.h 322, 327, 328, 334. -/
def svFind (s pat : Str) (pos : Nat) : Nat :=
  if pos ≤ s.length then match firstPlace pat (s.drop pos) with
    | some i => pos + i
    | none => npos
  else npos

/-- `std::string_view::rfind(pat)` and `find_last_of(c)` for one character. Used at main.h 323, 329, 335. -/
def svRfind (s pat : Str) : Nat := (lastPlace pat s).getD npos

/-- `std::string_view::substr(pos, n)`. Used at main.h 324, 330, 336. -/
def svSubstr (s : Str) (pos n : Nat) : Res Str :=
  if s.length < pos then .throw .outOfRange else .ok ((s.drop pos).take n)

/-- main.h 320-324 `get_type_name`, clang. -/
def typeNameClang (name : Str) : Res Str :=
  let start := wadd (svFind name "T = ".toList 0) 4
  let «end» := svRfind name [']']
  svSubstr name start (wsub «end» start)

/-- main.h 325-330 `get_type_name`, gcc. -/
def typeNameGcc (name : Str) : Res Str :=
  let start := wadd (svFind name "with T = ".toList 0) 9
  let semi_colon_pos := svFind name [';'] start
  let «end» := if semi_colon_pos ≠ npos then semi_colon_pos else svRfind name [']']
  svSubstr name start (wsub «end» start)

/-- main.h 331-336 `get_type_name`, Visual C++. -/
def typeNameMsvc (name : Str) : Res Str :=
  let start := wadd (svFind name "get_type_name<".toList 0) 14
  let «end» := svRfind name ">(void)".toList
  svSubstr name start (wsub «end» start)

end TinyDIP.Cli
