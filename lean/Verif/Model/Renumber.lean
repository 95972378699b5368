import Verif.Model.Io
import Verif.Model.Cli

/-!
# Pictures with leading zeros in their names (main.cpp)

The command `batch_add_zeros` (main.cpp 1160-1171) prints a line and returns: it does not call this function, and
nothing else does.
-/

namespace TinyDIP.Renumber

open TinyDIP TinyDIP.Cli

/-- `%05ld` of a number that is not negative. main.cpp 1749. -/
def pad5 (i : Nat) : List Char := List.replicate (5 - (toStr i).length) '0' ++ toStr i

/-- The name in `buff[100]`: `snprintf` writes at most 99 characters. Simplification: the path holds no null
character. main.cpp 1748-1749. -/
def outName (output : List Char) (i : Nat) : List Char := (output ++ pad5 i).take 99

/-- main.cpp 1741-1752 `addLeadingZeros`: the files afterwards. The value `bmp_write` returns is not looked
at; an exception (a picture that cannot be opened) ends the function, the files written by then are not part
of this result. -/
def addLeadingZeros (fs : Files) (input output : List Char) : Res Files :=
  loop (fun fs i => do
    let im ← bmpRead fs (input ++ toStr i ++ bmpExt) true
    let r ← bmpWrite fs (outName output i) im
    .ok r.1) (List.range' 1 96) fs

end TinyDIP.Renumber
