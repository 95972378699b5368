import Verif.Model.Io

/-!
# A BMP file that another program replaces while it is read (image_io.cpp)

`bmp_read` opens its file four times: to see that it exists, for the width, for the height and for the data. What the
file holds can differ each time. Simplification: while the file is open once, its content does not change.
-/

namespace TinyDIP

/-- image_io.cpp 26-54 and 57-85 `bmp_read_x_size` and `bmp_read_y_size`, converted to `int` (209, 210): the field at
byte `k`, or -1 when there is no file. -/
def sizeField (file : Option (List Byte)) (k : Nat) : Res Int :=
  match file with
  | none => .ok (-1)
  | some f => do let v ← le32At f k; .ok (toInt32 v)

/-- image_io.cpp 88-177 `bmp_read_detail`: without a file the buffer stays as it is (103-107). -/
def bmpReadDetailOpt (file : Option (List Byte)) (xsize ysize : Nat) (image : List Byte) : Res (List Byte) :=
  match file with
  | none => .ok image
  | some f => bmpReadDetail f xsize ysize image

/-- image_io.cpp 180-288 `bmp_file_read`, with what the file holds when its width, its height and its data are read
(209, 210, 243 and 286). Simplifications as in `bmpFileRead`. -/
def bmpFileReadDuring (atX atY atData : Option (List Byte)) : Res (Nat × Nat × List Byte) := do
  let originX ← sizeField atX 18
  let originY ← sizeField atY 22
  if originX = -1 ∨ originY = -1 then .ok (0, 0, [])
  else if originX < 0 ∨ originY = -(2 ^ 31) then .ub
  else do
    let xs := originX.toNat
    let ys := originY.natAbs
    let fb := fillingBytes xs 4
    let size := (xs * 3 + fb) * ys
    if size % 2 ^ 32 ≥ 2 ^ 31 then .ub
    else if size ≥ 2 ^ 32 then .ub
    else do
      let data ← bmpReadDetailOpt atData xs ys (List.replicate size 255)
      if originY < 0 then do
        let data ← flipRaw xs ys fb data
        .ok (xs, ys, data)
      else .ok (xs, ys, data)

/-- image_io.cpp 290-301 `bmp_read`, with what the file holds each time it is opened (201, 38, 69, 101). -/
def bmpReadDuring (atOpen atX atY atData : Option (List Byte)) : Res (Image RGB) :=
  match atOpen with
  | none => .throw .runtime
  | some _ => do
    let (xs, ys, data) ← bmpFileReadDuring atX atY atData
    rawToImage xs ys data

end TinyDIP
