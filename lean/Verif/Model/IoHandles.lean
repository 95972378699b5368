import Verif.Model.Io

/-!
# Open files (image_io.cpp)

A process can have only a limited number of files open at a time. `Proc` is the file system together with
the number of files that can still be opened; `fopen` fails when it is zero. The bytes of a file do not
change during a call.
-/

namespace TinyDIP

/-- The files, and how many more the process can open (the limit `fopen` meets at image_io.cpp 38, 69, 101,
201, 351, 459, 492, 587, 620). -/
structure Proc where
  files : Files
  free : Nat

/-- image_io.cpp 26-54 and 57-85, `bmp_read_x_size` (`k = 18`) and `bmp_read_y_size` (`k = 22`), and the
conversion of the result to `int` (209-210): -1 when the file cannot be opened; the file is closed again. -/
def readSizeH (free : Nat) (file : List Byte) (k : Nat) : Res Int :=
  if free = 0 then .ok (-1)
  else do
    let v ← le32At file k
    .ok (toInt32 v)

/-- image_io.cpp 88-177 `bmp_read_detail`: the buffer is left alone when the file cannot be opened; the
file is closed again. -/
def bmpReadDetailH (free : Nat) (file : List Byte) (xsize ysize : Nat) (image : List Byte) : Res (List Byte) :=
  if free = 0 then .ok image else bmpReadDetail file xsize ysize image

/-- image_io.cpp 208-287, the part of `bmp_file_read` after the file has been opened; `free` counts the
files that can be opened besides. Same simplifications as `bmpFileRead`. -/
def bmpFileReadH (free : Nat) (file : List Byte) : Res (Nat × Nat × List Byte) := do
  let originX ← readSizeH free file 18
  let originY ← readSizeH free file 22
  if originX = -1 ∨ originY = -1 then .ok (0, 0, [])
  else if originX < 0 ∨ originY = -(2 ^ 31) then .ub
  else do
    let xs := originX.toNat
    let ys := originY.natAbs
    let fb := fillingBytes xs 4
    let size := (xs * 3 + fb) * ys
    if size % 2 ^ 32 ≥ 2 ^ 31 then .ub
    else if size ≥ 2 ^ 32 then .ub
    else do
      let data ← bmpReadDetailH free file xs ys (List.replicate size 255)
      if originY < 0 then do
        let data ← flipRaw xs ys fb data
        .ok (xs, ys, data)
      else .ok (xs, ys, data)

/-- image_io.cpp 180-296 `bmp_read`, with the file opened at line 201. No path closes it. -/
def bmpReadH (p : Proc) (filename : List Char) (extension : Bool) : Res (Image RGB) × Proc :=
  match p.files.content (pathOf filename bmpExt extension) with
  | none => (.throw .runtime, p)
  | some file =>
    if p.free = 0 then (.throw .runtime, p)
    else
      (do
        let (xs, ys, data) ← bmpFileReadH (p.free - 1) file
        rawToImage xs ys data, { p with free := p.free - 1 })

/-- image_io.cpp 480-527 `double_image::read`: the file is closed at 525, not on the path of lines
500-504. The rest of the function is `dblRead`. -/
def dblReadH (p : Proc) (filename : List Char) (extension : Bool) : Res (Image (BitVec 64)) × Proc :=
  match p.files.content (pathOf filename dbmpExt extension) with
  | none => (.ok (Image.ofInts 0 [0, 0]), p)
  | some file =>
    if p.free = 0 then (.ok (Image.ofInts 0 [0, 0]), p)
    else
      match readSizeH (p.free - 1) file 18, readSizeH (p.free - 1) file 22 with
      | .ok x, .ok y =>
        if x = -1 ∨ y = -1 then (.ok (Image.ofInts 0 [0, 0]), { p with free := p.free - 1 })
        else (dblRead p.files filename extension, p)
      | _, _ => (.ub, p)

/-- image_io.cpp 608-657 `hsv_read`: the file is closed at 643, not on the path of lines 628-632. The rest
of the function is `hsvRead`. -/
def hsvReadH (p : Proc) (filename : List Char) (extension : Bool) : Res (Image (Px3 (BitVec 64))) × Proc :=
  match p.files.content (pathOf filename hsvExt extension) with
  | none => (.ok (Image.ofInts ⟨0, 0, 0⟩ [0, 0]), p)
  | some file =>
    if p.free = 0 then (.ok (Image.ofInts ⟨0, 0, 0⟩ [0, 0]), p)
    else
      match readSizeH (p.free - 1) file 18, readSizeH (p.free - 1) file 22 with
      | .ok x, .ok y =>
        if x = -1 ∨ y = -1 then (.ok (Image.ofInts ⟨0, 0, 0⟩ [0, 0]), { p with free := p.free - 1 })
        else (hsvRead p.files filename extension, p)
      | _, _ => (.ub, p)

/-- image_io.cpp 349-358, 457-466, 585-594: the file is opened, written and closed; -1 when it cannot be
opened. `bytes` is the content computed before. -/
def putH (p : Proc) (name : List Char) (bytes : Res (List Byte)) : Res Int × Proc :=
  match bytes with
  | .ok b =>
    if p.free = 0 then (.ok (-1), p)
    else (.ok (p.files.put name b).2, { p with files := (p.files.put name b).1 })
  | .throw e => (.throw e, p)
  | .ub => (.ub, p)

/-- One call of a reading or writing function of image_io.h (24-30, 41-45, 601-605). -/
inductive FileCall
  | readBmp (name : List Char) (extension : Bool)
  | writeBmp (name : List Char) (im : Image RGB)
  | readDbl (name : List Char) (extension : Bool)
  | writeDbl (name : List Char) (junk : List (BitVec 64)) (im : Image (BitVec 64))
  | readHsv (name : List Char) (extension : Bool)
  | writeHsv (name : List Char) (junk : List (BitVec 64)) (im : Image (Px3 (BitVec 64)))

/-- What the caller of image_io.cpp 290-656 gets back: an image, or the status of a write. -/
inductive FileResult
  | rgb (r : Res (Image RGB))
  | dbl (r : Res (Image (BitVec 64)))
  | hsv (r : Res (Image (Px3 (BitVec 64))))
  | status (r : Res Int)

/-- One call in a process with a limited number of open files. image_io.cpp 290-656. -/
def FileCall.runH (p : Proc) : FileCall → FileResult × Proc
  | .readBmp n e => let r := bmpReadH p n e; (.rgb r.1, r.2)
  | .writeBmp n im => let r := putH p (n ++ bmpExt) (bmpBytes im); (.status r.1, r.2)
  | .readDbl n e => let r := dblReadH p n e; (.dbl r.1, r.2)
  | .writeDbl n junk im => let r := putH p (n ++ dbmpExt) (dblFile junk im); (.status r.1, r.2)
  | .readHsv n e => let r := hsvReadH p n e; (.hsv r.1, r.2)
  | .writeHsv n junk im => let r := putH p (n ++ hsvExt) (hsvFile junk im); (.status r.1, r.2)

/-- A sequence of calls, each made after the previous one has returned. image_io.cpp 290-656. -/
def runCallsH (p : Proc) : List FileCall → List FileResult × Proc
  | [] => ([], p)
  | c :: cs =>
    let r := c.runH p
    let rs := runCallsH r.2 cs
    (r.1 :: rs.1, rs.2)

end TinyDIP
