import Verif.Model.Crash

/-!
# Two programs write pictures at the same time (image_io.cpp)

Two processes, each making the calls of one writer; their steps come in any order. Each stream has its own position
in its file. `fopen` with mode `"wb"` empties the file also while the other process has it open; a write past the
end of the file fills the gap with zero bytes (as POSIX says). Simplifications: as in `Model/Crash`; a write of
one piece is not divided by the other process (the pieces the stream passes on are of any size).
-/

namespace TinyDIP.Crash

open TinyDIP TinyDIP.Cli

/-- The content `c` of a file after `bytes` were written at position `pos`. The `fwrite` of image_io.cpp 355-356,
461-462, 591-592. -/
def writtenAt (c : List Byte) (pos : Nat) (bytes : List Byte) : List Byte :=
  c.take pos ++ List.replicate (pos - c.length) 0 ++ bytes ++ c.drop (pos + bytes.length)

/-- The file `name` after `bytes` were written at position `pos`. image_io.cpp 355-356, 461-462, 591-592. -/
def Disk.writeAt (d : Disk Byte) (name : List Char) (pos : Nat) (bytes : List Byte) : Disk Byte := fun n =>
  if n = name then some (writtenAt ((d n).getD []) pos bytes) else d n

/-- One process: the open stream (its file, its position, the bytes it still holds) and the calls not made yet. Used
for image_io.cpp 351-358, 457-463, 587-593. -/
structure Run where
  stream : Option (List Char × Nat × List Byte)
  todo : List (Op Byte)

/-- One step of one process: `Step` of `Model/Crash`, with the position of the stream. image_io.cpp 351-358, 457-463,
587-593. -/
inductive RunStep : Disk Byte → Run → Disk Byte → Run → Prop
  | fopen (d : Disk Byte) (name : List Char) (todo : List (Op Byte)) :
      RunStep d ⟨none, .fopen name :: todo⟩ (d.empty name) ⟨some (name, 0, []), todo⟩
  | fwrite (d : Disk Byte) (name : List Char) (pos : Nat) (held bytes : List Byte) (todo : List (Op Byte)) :
      RunStep d ⟨some (name, pos, held), .fwrite bytes :: todo⟩ d ⟨some (name, pos, held ++ bytes), todo⟩
  | pass (d : Disk Byte) (name : List Char) (pos : Nat) (a b : List Byte) (todo : List (Op Byte)) :
      RunStep d ⟨some (name, pos, a ++ b), todo⟩
        (d.writeAt name pos a) ⟨some (name, pos + a.length, b), todo⟩
  | fclose (d : Disk Byte) (name : List Char) (pos : Nat) (held : List Byte) (todo : List (Op Byte)) :
      RunStep d ⟨some (name, pos, held), .fclose :: todo⟩ (d.writeAt name pos held) ⟨none, todo⟩

/-- What two processes that began with the files `d` and the calls `ops1` and `ops2` can reach: the steps come in
any order. Not from the repository: the executions of image_io.cpp 351-358 in two processes. -/
inductive Both (d : Disk Byte) (ops1 ops2 : List (Op Byte)) : Disk Byte → Run → Run → Prop
  | start : Both d ops1 ops2 d ⟨none, ops1⟩ ⟨none, ops2⟩
  | first {d' d'' : Disk Byte} {r1 r1' r2 : Run} : Both d ops1 ops2 d' r1 r2 → RunStep d' r1 d'' r1' →
      Both d ops1 ops2 d'' r1' r2
  | second {d' d'' : Disk Byte} {r1 r2 r2' : Run} : Both d ops1 ops2 d' r1 r2 → RunStep d' r2 d'' r2' →
      Both d ops1 ops2 d'' r1 r2'

/-- The files can be `d'` when both processes stop somewhere. Not from the repository: the crash points of two
processes in image_io.cpp 351-358. -/
def BothLeave (d : Disk Byte) (ops1 ops2 : List (Op Byte)) (d' : Disk Byte) : Prop :=
  ∃ r1 r2, Both d ops1 ops2 d' r1 r2

/-- The files can be `d'` when both processes have made all their calls. Not from the repository: the end of two
processes in image_io.cpp 351-358. -/
def BothEnd (d : Disk Byte) (ops1 ops2 : List (Op Byte)) (d' : Disk Byte) : Prop :=
  ∃ r1 r2, Both d ops1 ops2 d' r1 r2 ∧ r1.todo = [] ∧ r2.todo = []

end TinyDIP.Crash
