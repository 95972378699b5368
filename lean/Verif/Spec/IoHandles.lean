import Verif.Model.IoHandles
import Verif.Spec.Io

/-!
# Specification for open files

What the calls give when any number of files can be open: the functions of Model/Io.lean, which know no
limit.
-/

namespace TinyDIP

/-- A write whose file can be opened whenever the name is writable. -/
def written (fs : Files) (r : Res (Files × Int)) : FileResult × Files :=
  match r with
  | .ok (fs', status) => (.status (.ok status), fs')
  | .throw e => (.status (.throw e), fs)
  | .ub => (.status .ub, fs)

/-- One call without a limit. -/
def FileCall.run (fs : Files) : FileCall → FileResult × Files
  | .readBmp n e => (.rgb (bmpRead fs n e), fs)
  | .writeBmp n im => written fs (bmpWrite fs n im)
  | .readDbl n e => (.dbl (dblRead fs n e), fs)
  | .writeDbl n junk im => written fs (dblWrite fs junk n im)
  | .readHsv n e => (.hsv (hsvRead fs n e), fs)
  | .writeHsv n junk im => written fs (hsvWrite fs junk n im)

/-- A sequence of calls without a limit. -/
def runCalls (fs : Files) : List FileCall → List FileResult × Files
  | [] => ([], fs)
  | c :: cs => ((c.run fs).1 :: (runCalls (c.run fs).2 cs).1, (runCalls (c.run fs).2 cs).2)

/-- The call reads a file. -/
def FileCall.reads : FileCall → Bool
  | .readBmp _ _ | .readDbl _ _ | .readHsv _ _ => true
  | _ => false

/-- A file whose two size fields are there and neither is the number 2^32 - 1. -/
def SizedFile (file : List Byte) : Prop :=
  26 ≤ file.length ∧ leAt file 18 4 ≠ 2 ^ 32 - 1 ∧ leAt file 22 4 ≠ 2 ^ 32 - 1

end TinyDIP
