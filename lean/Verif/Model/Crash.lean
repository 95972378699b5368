import Verif.Model.Text

/-!
# The program stops while it writes a picture (image_io.cpp, image_io.h)

A writer opens its file, hands bytes to a buffered stream and closes the stream. Opening empties the
file at once; the stream passes bytes on to the file in order, at moments the program does not control;
closing passes on the rest. When the program stops (a crash, a killed process) the bytes still in the
stream are lost. Simplifications: the file system keeps the bytes it was given, in order (no loss of power
below the operating system), and the device is never full.
-/

namespace TinyDIP.Crash

open TinyDIP TinyDIP.Cli

variable {B : Type}

/-- The content of each file; the names are those given to `fopen` or `std::ofstream`, for example at
image_io.cpp 351 and image_io.h 547. -/
abbrev Disk (B : Type) := List Char → Option (List B)

/-- The calls on a stream: `fopen(name, "wb")` or `std::ofstream file(name)`; `fwrite` or `file <<`; `fclose`
or the destructor of the stream. image_io.cpp 351-358, 457-463, 587-593, image_io.h 61-101, 116-152,
547-597. -/
inductive Op (B : Type)
  | fopen (name : List Char)
  | fwrite (bytes : List B)
  | fclose

/-- The files, the open stream (its file and the bytes it still holds) and the calls not made yet. Used for
image_io.cpp 351-358, image_io.h 547-597. -/
structure Proc (B : Type) where
  disk : Disk B
  stream : Option (List Char × List B)
  todo : List (Op B)

/-- The file `name` with the bytes appended. image_io.cpp 355-356. -/
def Disk.append (d : Disk B) (name : List Char) (bytes : List B) : Disk B := fun n =>
  if n = name then some ((d n).getD [] ++ bytes) else d n

/-- The file `name` emptied (and created). image_io.cpp 351, image_io.h 61, 116, 547. -/
def Disk.empty (d : Disk B) (name : List Char) : Disk B := fun n => if n = name then some [] else d n

/-- One step: the next call of the program, or the stream passing on some of the bytes it holds.
image_io.cpp 351-358, 457-463, 587-593, image_io.h 61-101, 547-597. -/
inductive Step : Proc B → Proc B → Prop
  | fopen (d : Disk B) (name : List Char) (todo : List (Op B)) :
      Step ⟨d, none, .fopen name :: todo⟩ ⟨d.empty name, some (name, []), todo⟩
  | fwrite (d : Disk B) (name : List Char) (held bytes : List B) (todo : List (Op B)) :
      Step ⟨d, some (name, held), .fwrite bytes :: todo⟩ ⟨d, some (name, held ++ bytes), todo⟩
  | pass (d : Disk B) (name : List Char) (a b : List B) (todo : List (Op B)) :
      Step ⟨d, some (name, a ++ b), todo⟩ ⟨d.append name a, some (name, b), todo⟩
  | fclose (d : Disk B) (name : List Char) (held : List B) (todo : List (Op B)) :
      Step ⟨d, some (name, held), .fclose :: todo⟩ ⟨d.append name held, none, todo⟩

/-- The states the program can reach. Not from the repository: the executions of image_io.cpp 351-358 and
of the other writers. -/
inductive Reaches (p : Proc B) : Proc B → Prop
  | refl : Reaches p p
  | step {q r : Proc B} : Reaches p q → Step q r → Reaches p r

/-- The files can be `d'` when the program stops during the calls `ops`. Not from the repository: the crash
points of image_io.cpp 351-358 and of the other writers. -/
def CanLeave (d : Disk B) (ops : List (Op B)) (d' : Disk B) : Prop :=
  ∃ q, Reaches ⟨d, none, ops⟩ q ∧ q.disk = d'

/-- The files can be `d'` when the calls `ops` are over. Not from the repository: the end of
image_io.cpp 351-358 and of the other writers. -/
def Ends (d : Disk B) (ops : List (Op B)) (d' : Disk B) : Prop :=
  ∃ q, Reaches ⟨d, none, ops⟩ q ∧ q.todo = [] ∧ q.disk = d'

/-- image_io.cpp 351-358 (457-463, 587-593): the calls for a file with a header of 54 bytes, and the value
returned. -/
def twoWrites (fs : Files) (name : List Char) (bytes : List Byte) : List (Op Byte) × Int :=
  if fs.writable name then
    ([.fopen name, .fwrite (bytes.take 54), .fwrite (bytes.drop 54), .fclose], 0)
  else ([], -1)

/-- image_io.cpp 309-359 `bmp_write`: the calls on the file, and the value returned. -/
def bmpOps (fs : Files) (filename : List Char) (im : Image RGB) : Res (List (Op Byte) × Int) := do
  let bytes ← bmpBytes im
  .ok (twoWrites fs (filename ++ bmpExt) bytes)

/-- image_io.cpp 427-477 `double_image::write`. -/
def dblOps (fs : Files) (junk : List (BitVec 64)) (filename : List Char) (im : Image (BitVec 64)) :
    Res (List (Op Byte) × Int) := do
  let bytes ← dblFile junk im
  .ok (twoWrites fs (filename ++ dbmpExt) bytes)

/-- image_io.cpp 556-605 `hsv_write`. -/
def hsvOps (fs : Files) (junk : List (BitVec 64)) (filename : List Char) (im : Image (Px3 (BitVec 64))) :
    Res (List (Op Byte) × Int) := do
  let bytes ← hsvFile junk im
  .ok (twoWrites fs (filename ++ hsvExt) bytes)

/-- image_io.h 541-599 `pnm::write`: the calls on the file, and how the function ends. The magic number is
looked at after the file was opened. Simplification: the text is handed over in one piece (the stream
can pass on any part of it at any time). -/
def pnmOps (canOpen : Bool) (name : List Char) (im : Image RGB) (magic : Str) (max : Int) :
    List (Op Char) × Res Unit :=
  if canOpen = false then ([], .throw .runtime)
  else
    match Text.pnmWrite im magic max with
    | .ok text => ([.fopen name, .fwrite text, .fclose], .ok ())
    | .throw e => ([.fopen name, .fclose], .throw e)
    | .ub => ([], .ub)

/-- image_io.h 51-102 and 107-153 `write_to_csv`: the calls on the file, and how the function ends. The
dimension is looked at before the file is opened. Same simplification as `pnmOps`. -/
def csvOps {α : Type} (canOpen : Bool) (name : List Char) (sched : List Nat → List Nat) (fmt : α → Str)
    (im : Image α) : List (Op Char) × Res Unit :=
  if im.dim ≠ 2 then ([], .throw .runtime)
  else if canOpen = false then ([], .throw .runtime)
  else
    match Text.csvWrite sched fmt im with
    | .ok text => ([.fopen name, .fwrite text, .fclose], .ok ())
    | .throw e => ([.fopen name, .fclose], .throw e)
    | .ub => ([], .ub)

/-- The values `save_workspace` finds in the memory store: the three picture types it can save, and the rest
(main.h 4440-4444). The memory `malloc` returns for a picture of doubles is part of the value here. -/
inductive Stored
  | rgb (im : Image RGB)
  | double (junk : List (BitVec 64)) (im : Image (BitVec 64))
  | hsv (junk : List (BitVec 64)) (im : Image (Px3 (BitVec 64)))
  | other

/-- main.h 4418 `dir_path / name`. Simplification: the directory is not empty and does not end with a slash, and
the name does not begin with one. -/
def inDir (dir name : List Char) : List Char := dir ++ '/' :: name

/-- main.h 4413-4466: the calls for one variable. The values the writers return are not looked at. -/
def storedOps (fs : Files) (dir : List Char) : List Char × Stored → Res (List (Op Byte))
  | (name, .rgb im) => do let r ← bmpOps fs (inDir dir name) im; .ok r.1
  | (name, .double junk im) => do let r ← dblOps fs junk (inDir dir name) im; .ok r.1
  | (name, .hsv junk im) => do let r ← hsvOps fs junk (inDir dir name) im; .ok r.1
  | (_, .other) => .ok []

/-- main.h 4394-4469 `save_workspace`: the calls on files, the variables in the order in which the memory store
lists them. Whether a file can be opened does not change meanwhile. -/
def saveOps (fs : Files) (dir : List Char) : List (List Char × Stored) → Res (List (Op Byte))
  | [] => .ok []
  | v :: vs => do
    let a ← storedOps fs dir v
    let b ← saveOps fs dir vs
    .ok (a ++ b)

end TinyDIP.Crash
