import Verif.Model.Pixelwise
import Verif.Model.Draw

/-!
# Binary image files (image_io.cpp)

Files are lists of bytes. `malloc` and stream errors other than a missing or unwritable file are not
modelled. Console output (`printf`, `std::cerr`) has no effect here, but the integer arithmetic of
its arguments is checked.
-/

namespace TinyDIP

/-- `unsigned char`, for example at image_io.cpp 8-11. -/
abbrev Byte := BitVec 8

/-- `int` arithmetic: undefined behaviour when the result does not fit. Used throughout image_io.cpp, e.g.
at 122. -/
def chkInt (v : Int) : Res Int := if -(2 ^ 31) ≤ v ∧ v < 2 ^ 31 then .ok v else .ub

/-- Conversion to `int` (modulo 2^32, two's complement). Used throughout image_io.cpp, e.g. at 322. -/
def toInt32 (v : Int) : Int := Int.bmod v (2 ^ 32)

/-- `for (int i = 0; i < n; i++)` with a `size_t` bound: the counter overflows when the bound is larger than
the largest `int`. The loops of image_io.cpp, e.g. 385-388. -/
def forInt {σ : Type} (n : Nat) (body : σ → Nat → Res σ) (s : σ) : Res σ :=
  if n < 2 ^ 31 then forUp n body s else .ub

/-- The files: the content of each name, and the names that can be opened for writing. image_io.cpp 38, 69,
101. -/
structure Files where
  content : List Char → Option (List Byte)
  writable : List Char → Bool

/-- `fopen(name, "wb")`, writing all bytes, `fclose`; `-1` when the file cannot be opened. image_io.cpp
349-360, 457-475, 585-600. -/
def Files.put (fs : Files) (name : List Char) (bytes : List Byte) : Files × Int :=
  if fs.writable name then
    ({ fs with content := fun n => if n = name then some bytes else fs.content n }, 0)
  else (fs, -1)

/-- The name built from `filename` and the flag `extension` (image_io.cpp 28-36 and elsewhere). -/
def pathOf (filename ext : List Char) (extension : Bool) : List Char :=
  if extension then filename else filename ++ ext

/-- `fread` into a buffer: the bytes that are available replace the beginning of the buffer; writing past
its end is undefined behaviour. image_io.cpp 122, 136, 150. -/
def freadInto (buf : List Byte) (file : List Byte) (pos n : Nat) : Res (List Byte) :=
  let data := (file.drop pos).take n
  if data.length ≤ buf.length then .ok (data ++ buf.drop data.length) else .ub

/-- image_io.cpp 394-399 `bmp_filling_byte_calc`; the argument is converted to `unsigned int`. -/
def fillingBytes (xsize : Int) (mod_num : Nat) : Nat := (xsize % 2 ^ 32).toNat % mod_num

/-- `(n >> 8 * k) & 0xff`. image_io.cpp 329-346. -/
def byteOf (n k : Nat) : Byte := BitVec.ofNat 8 (n / 256 ^ k)

/-- The four bytes of a header field (image_io.cpp 329-346). -/
def fieldBytes (n : Nat) : List Byte := [byteOf n 0, byteOf n 1, byteOf n 2, byteOf n 3]

/-- image_io.cpp 322-346 (and 431-455, 559-583): the 54 header bytes. -/
def bmpHeader (file_size width height : Nat) : List Byte :=
  [0x42#8, 0x4d#8] ++ fieldBytes file_size ++ [0, 0, 0, 0] ++ [54, 0, 0, 0] ++ [40, 0, 0, 0] ++
    fieldBytes width ++ fieldBytes height ++ [1, 0, 24, 0] ++ List.replicate 24 0

/-- image_io.cpp 47-50, 76-79, 117: a little-endian field of the header. The header array is not
initialised, so a file that is too short makes this undefined behaviour. -/
def le32At (file : List Byte) (k : Nat) : Res Nat := do
  let b0 ← vget file k
  let b1 ← vget file (k + 1)
  let b2 ← vget file (k + 2)
  let b3 ← vget file (k + 3)
  .ok (b0.toNat + b1.toNat * 2 ^ 8 + b2.toNat * 2 ^ 16 + b3.toNat * 2 ^ 24)

/-! ### 24-bit and 8-bit BMP -/

/-- The position of channel `color` of pixel `(x, y)` in a raw image with rows of `3 * xsize`
samples and `fb` filling samples (image_io.cpp 18, 386, 547, 651). -/
def rawIdx (xsize fb x y color : Nat) : Nat := 3 * (y * xsize + x) + y * fb + (2 - color)

/-- image_io.cpp 385-388: the three samples of one pixel. -/
def putPx3 {C : Type} (xsize fb : Nat) (buf : List C) (x y : Nat) (p : Px3 C) : Res (List C) :=
  forUp 3 (fun buf color => do
    let v ← p.channel color
    vset buf (rawIdx xsize fb x y color) v) buf

/-- image_io.cpp 361-392 `array_to_raw_image(Image<RGB>)`. The buffer is zeroed first (374-380, with
an `int` counter up to the row length); widths and heights are below 2^31 whenever the loops end, so
the `size_t` index computations do not wrap. -/
def bmpRaw (im : Image RGB) : Res (List Byte) :=
  let xsize := im.width
  let ysize := im.height
  let fb := fillingBytes xsize 4
  if ysize ≥ 2 ^ 31 ∨ (ysize > 0 ∧ xsize * 3 + fb ≥ 2 ^ 31) then .ub
  else
    forInt ysize (fun buf y =>
      forInt xsize (fun buf x => do
        let p ← im.at2 x y
        putPx3 xsize fb buf x y p) buf) (List.replicate ((xsize * 3 + fb) * ysize) 0)

/-- image_io.cpp 304-359 `bmp_write`. The content of the file. -/
def bmpBytes (im : Image RGB) : Res (List Byte) := do
  let image ← bmpRaw im
  let xsize := toInt32 im.width
  let ysize := toInt32 im.height
  let file_size ← chkLong (xsize * ysize * 3 + 54)
  let row ← chkInt (xsize * 3 + fillingBytes xsize 4)
  let n := ((row * ysize) % 2 ^ 64).toNat
  if n ≤ image.length then
    .ok (bmpHeader (file_size % 2 ^ 64).toNat (xsize % 2 ^ 64).toNat (ysize % 2 ^ 64).toNat ++
      image.take n)
  else .ub

/-- `.bmp`. image_io.cpp 31, 349. -/
def bmpExt : List Char := ['.', 'b', 'm', 'p']

/-- image_io.cpp 304-359 `bmp_write(filename, image)`: `.bmp` is always appended. -/
def bmpWrite (fs : Files) (filename : List Char) (im : Image RGB) : Res (Files × Int) := do
  let bytes ← bmpBytes im
  .ok (fs.put (filename ++ bmpExt) bytes)

/-- image_io.cpp 127-137: the palette of an 8-bit image; `14 + header_size` and the palette size are
`unsigned int` computations, the palette size is converted to `int`. -/
def readPalette (file : List Byte) (off header_size : Nat) : Res (List Byte) :=
  let start : Nat := (14 + header_size) % 2 ^ 32
  let palette_size := toInt32 ((off : Int) - (start : Int))
  let palette_size := if palette_size > 1024 then 1024 else palette_size
  if palette_size > 0 then freadInto (List.replicate 1024 0) file start palette_size.toNat
  else .ok (List.replicate 1024 0)

/-- image_io.cpp 147-168: one row of an 8-bit image; returns the new file position and buffer. -/
def row8 (file palette : List Byte) (xsize fb pad : Nat) (s : Nat × List Byte) (y : Nat) :
    Res (Nat × List Byte) := do
  let row ← freadInto (List.replicate (xsize + pad) 0) file s.1 (xsize + pad)
  let pos := s.1 + ((file.drop s.1).take (xsize + pad)).length
  let image ← forUp xsize (fun image x => do
    let index ← vget row x
    let at0 ← chkInt ((y : Int) * ((xsize : Int) * 3 + fb) + (x : Int) * 3 + 2)
    let b ← vget palette (index.toNat * 4 + 0)
    let image ← vset image (at0.toNat - 2) b
    let g ← vget palette (index.toNat * 4 + 1)
    let image ← vset image (at0.toNat - 1) g
    let r ← vget palette (index.toNat * 4 + 2)
    vset image at0.toNat r) s.2
  let image ← forUp fb (fun image p => do
    let at0 ← chkInt ((y : Int) * ((xsize : Int) * 3 + fb) + (xsize : Int) * 3 + p)
    vset image at0.toNat 0) image
  .ok (pos, image)

/-- image_io.cpp 88-177 `bmp_read_detail` for a file that could be opened, `0 <= xsize`,
`0 <= ysize`. -/
def bmpReadDetail (file : List Byte) (xsize ysize : Nat) (image : List Byte) : Res (List Byte) :=
  if file.length < 54 then .ok image
  else do
    let fb := fillingBytes xsize 4
    let c0 ← vget file 28
    let c1 ← vget file 29
    let bit_count := c0.toNat + c1.toNat * 2 ^ 8
    let off ← le32At file 10
    if bit_count = 24 then do
      let row ← chkInt ((xsize : Int) * 3 + fb)
      freadInto image file off (row.toNat * ysize)
    else if bit_count = 8 then do
      let header_size ← le32At file 14
      let palette ← readPalette file off header_size
      let pad := (4 - xsize % 4) % 4
      let _ ← chkInt ((xsize : Int) + pad)
      let s ← forUp ysize (row8 file palette xsize fb pad) (off, image)
      .ok s.2
    else .ok image

/-- image_io.cpp 250-258: a top-down image (negative height) is copied with its rows reversed. The
padding of the copy stays uninitialised and is never read (zero here). -/
def flipRaw (xsize ysize fb : Nat) (origin : List Byte) : Res (List Byte) :=
  pixFor (iterYX xsize ysize) (fun out x y =>
    forUp 3 (fun out color => do
      let v ← vget origin (rawIdx xsize fb x (ysize - y - 1) color)
      vset out (rawIdx xsize fb x y color) v) out) (List.replicate ((xsize * 3 + fb) * ysize) 0)

/-- image_io.cpp 180-288 `bmp_file_read` for a file that could be opened: width, height and raw
data. The counter of the loop that fills the buffer (239-242, 282-285) is an `int` compared with an
`unsigned int` product. Simplifications: a negative width, and a buffer of 2^32 bytes and more, are
reported as undefined behaviour; the key presses the top-down branch waits for (244-249, 259-265)
are ignored. -/
def bmpFileRead (file : List Byte) : Res (Nat × Nat × List Byte) := do
  let x ← le32At file 18
  let y ← le32At file 22
  let originX := toInt32 x
  let originY := toInt32 y
  if originX = -1 ∨ originY = -1 then .ok (0, 0, [])
  else if originX < 0 ∨ originY = -(2 ^ 31) then .ub
  else do
    let xs := originX.toNat
    let ys := originY.natAbs
    let fb := fillingBytes xs 4
    let size := (xs * 3 + fb) * ys
    if size % 2 ^ 32 ≥ 2 ^ 31 then .ub
    else if size ≥ 2 ^ 32 then .ub
    else do
      let data ← bmpReadDetail file xs ys (List.replicate size 255)
      if originY < 0 then do
        let data ← flipRaw xs ys fb data
        .ok (xs, ys, data)
      else .ok (xs, ys, data)

/-- Reading the three samples of one pixel of a raw image. image_io.cpp 651. -/
def getPx3 {C : Type} (xsize fb : Nat) (buf : List C) (x y : Nat) : Res (Px3 C) := do
  let c0 ← vget buf (rawIdx xsize fb x y 0)
  let c1 ← vget buf (rawIdx xsize fb x y 1)
  let c2 ← vget buf (rawIdx xsize fb x y 2)
  .ok ⟨c0, c1, c2⟩

/-- image_io.cpp 8-23 `raw_image_to_array`; the three channel assignments of a pixel are one
write. -/
def rawToImage (xsize ysize : Nat) (image : List Byte) : Res (Image RGB) :=
  pixFor (iterYX xsize ysize) (fun out x y => do
    let p ← getPx3 xsize (fillingBytes xsize 4) image x y
    out.set2 x y p) (Image.ofInts ⟨0, 0, 0⟩ [(xsize : Int), (ysize : Int)])

/-- image_io.cpp 290-301 `bmp_read`. -/
def bmpRead (fs : Files) (filename : List Char) (extension : Bool) : Res (Image RGB) :=
  match fs.content (pathOf filename bmpExt extension) with
  | none => .throw .runtime
  | some file => do
    let (xs, ys, data) ← bmpFileRead file
    rawToImage xs ys data

/-! ### Raw double and HSV files -/

/-- The eight bytes of a `double` in memory (little-endian machine). Not from the repository: the
representation written at image_io.cpp 457-475. -/
def dblBytes (d : BitVec 64) : List Byte := (List.range 8).map fun k => d.extractLsb' (8 * k) 8

/-- The `double` with the given eight bytes. Not from the repository: the representation read by
image_io.cpp 480-525. -/
def dblOfBytes (l : List Byte) : BitVec 64 :=
  BitVec.ofNat 64 ((List.range 8).foldl (fun n k => n + (l.getD k 0).toNat * 256 ^ k) 0)

/-- `fread(image, sizeof(double), n, fp)`: the complete elements read; elements that were not read stay
uninitialised (reading them is undefined behaviour, as is reading past this list). image_io.cpp 480-525. -/
def readDoubles (file : List Byte) (pos n : Nat) : List (BitVec 64) :=
  let data := (file.drop pos).take (8 * n)
  (List.range (data.length / 8)).map fun i => dblOfBytes ((data.drop (8 * i)).take 8)

/-- image_io.cpp 403-425 `array_to_raw_image(Image<double>)`; `junk` is the content of the memory
returned by `malloc` (the filling is never written). -/
def dblRaw (junk : List (BitVec 64)) (im : Image (BitVec 64)) : Res (List (BitVec 64)) :=
  let xsize := im.width
  let ysize := im.height
  let fb := fillingBytes xsize 8
  forInt ysize (fun buf y =>
    forInt xsize (fun buf x => do
      let v ← im.at2 x y
      vset buf (y * xsize + x + y * fb) v) buf) junk

/-- image_io.cpp 427-477 `double_image::write`: the content of the file. -/
def dblFile (junk : List (BitVec 64)) (im : Image (BitVec 64)) : Res (List Byte) := do
  let image ← dblRaw junk im
  let xsize := toInt32 im.width
  let ysize := toInt32 im.height
  let file_size ← chkLong (xsize * ysize + 54)
  let row ← chkInt (xsize + fillingBytes xsize 8)
  let n := ((row * ysize) % 2 ^ 64).toNat
  if n ≤ image.length then
    .ok (bmpHeader (file_size % 2 ^ 64).toNat (xsize % 2 ^ 64).toNat (ysize % 2 ^ 64).toNat ++
      (image.take n).flatMap dblBytes)
  else .ub

/-- `.dbmp` and `.hsv`. image_io.cpp 457, 585. -/
def dbmpExt : List Char := ['.', 'd', 'b', 'm', 'p']

/-- image_io.cpp 585. -/
def hsvExt : List Char := ['.', 'h', 's', 'v']

/-- image_io.cpp 469-477 `double_image::write(filename, image)`. -/
def dblWrite (fs : Files) (junk : List (BitVec 64)) (filename : List Char) (im : Image (BitVec 64)) :
    Res (Files × Int) := do
  let bytes ← dblFile junk im
  .ok (fs.put (filename ++ dbmpExt) bytes)

/-- image_io.cpp 480-527 `double_image::read`; a missing file gives a 0 × 0 image. Line 507
multiplies the sizes as `int`, line 521 computes the index as `int`. Simplification: negative sizes
are reported as undefined behaviour. -/
def dblRead (fs : Files) (filename : List Char) (extension : Bool) : Res (Image (BitVec 64)) :=
  match fs.content (pathOf filename dbmpExt extension) with
  | none => .ok (Image.ofInts 0 [0, 0])
  | some file => do
    let x ← le32At file 18
    let y ← le32At file 22
    let originX := toInt32 x
    let originY := toInt32 y
    if originX = -1 ∨ originY = -1 then .ok (Image.ofInts 0 [0, 0])
    else if originX < 0 ∨ originY < 0 then .ub
    else do
      let _ ← chkInt (originX * originY)
      let xs := originX.toNat
      let ys := originY.toNat
      let fb := fillingBytes originX 8
      let _ ← chkInt (originX + fb)
      let image := readDoubles file 54 ((xs + fb) * ys)
      pixFor (iterYX xs ys) (fun out x y => do
        let i ← chkInt (((y : Int) * originX + x) + y * fb)
        let v ← vget image i.toNat
        out.set2 x y v) (Image.ofInts 0 [originX, originY])

/-- image_io.cpp 529-553 `array_to_raw_image(Image<HSV>)`. -/
def hsvRaw (junk : List (BitVec 64)) (im : Image (Px3 (BitVec 64))) : Res (List (BitVec 64)) :=
  let xsize := im.width
  let ysize := im.height
  let fb := fillingBytes xsize 8
  forInt ysize (fun buf y =>
    forInt xsize (fun buf x => do
      let p ← im.at2 x y
      putPx3 xsize fb buf x y p) buf) junk

/-- image_io.cpp 556-605 `hsv_write`: the content of the file. -/
def hsvFile (junk : List (BitVec 64)) (im : Image (Px3 (BitVec 64))) : Res (List Byte) := do
  let image ← hsvRaw junk im
  let xsize := toInt32 im.width
  let ysize := toInt32 im.height
  let file_size ← chkLong (xsize * ysize * 3 + 54)
  let row ← chkInt (xsize * 3 + fillingBytes xsize 8)
  let n := ((row * ysize) % 2 ^ 64).toNat
  if n ≤ image.length then
    .ok (bmpHeader (file_size % 2 ^ 64).toNat (xsize % 2 ^ 64).toNat (ysize % 2 ^ 64).toNat ++
      (image.take n).flatMap dblBytes)
  else .ub

/-- image_io.cpp 597-605 `hsv_write(filename, image)`. -/
def hsvWrite (fs : Files) (junk : List (BitVec 64)) (filename : List Char)
    (im : Image (Px3 (BitVec 64))) : Res (Files × Int) := do
  let bytes ← hsvFile junk im
  .ok (fs.put (filename ++ hsvExt) bytes)

/-- image_io.cpp 608-657 `hsv_read`. Same simplification as `dblRead`. -/
def hsvRead (fs : Files) (filename : List Char) (extension : Bool) :
    Res (Image (Px3 (BitVec 64))) :=
  match fs.content (pathOf filename hsvExt extension) with
  | none => .ok (Image.ofInts ⟨0, 0, 0⟩ [0, 0])
  | some file => do
    let x ← le32At file 18
    let y ← le32At file 22
    let originX := toInt32 x
    let originY := toInt32 y
    if originX = -1 ∨ originY = -1 then .ok (Image.ofInts ⟨0, 0, 0⟩ [0, 0])
    else if originX < 0 ∨ originY < 0 then .ub
    else do
      let _ ← chkInt (originX * originY * 3)
      let xs := originX.toNat
      let ys := originY.toNat
      let fb := fillingBytes originX 8
      let _ ← chkInt (originX * 3 + fb)
      let image := readDoubles file 54 ((xs * 3 + fb) * ys)
      pixFor (iterYX xs ys) (fun out x y => do
        let _ ← chkInt (3 * ((y : Int) * originX + x) + y * fb + 2)
        let p ← getPx3 xs fb image x y
        out.set2 x y p) (Image.ofInts ⟨0, 0, 0⟩ [originX, originY])

end TinyDIP
