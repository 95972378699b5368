import Verif.Model.Io
import Verif.Model.Cli
import Mathlib.Data.Rat.Floor

/-!
# Text image files (image_io.h): PNM and CSV

The content of a file is a list of characters. Memory exhaustion (`reserve`) is not modelled.
-/

namespace TinyDIP.Text

open TinyDIP TinyDIP.Cli

/-! ### Numbers -/

/-- The sign and the digits that `strtol`, `strtoull` and stream extraction read. Used for image_io.h
439-464. -/
def signDigits (s : Str) : Bool × Str :=
  let s := s.dropWhile isSpace
  match s with
  | '-' :: r => (true, r.takeWhile Char.isDigit)
  | '+' :: r => (false, r.takeWhile Char.isDigit)
  | r => (false, r.takeWhile Char.isDigit)

/-- The value of a string of decimal digits. Used for image_io.h 439-464. -/
def digitsVal (s : Str) : Nat := Nat.ofDigitChars 10 s 0

/-- `std::stoull`: trailing characters are ignored, a minus sign negates modulo 2^64. image_io.h 439-440,
496-497. -/
def stoull (s : Str) : Res Nat :=
  let p := signDigits s
  if p.2 = [] then .throw .invalidArg
  else if digitsVal p.2 ≥ 2 ^ 64 then .throw .outOfRange
  else .ok (if p.1 then (2 ^ 64 - digitsVal p.2) % 2 ^ 64 else digitsVal p.2)

/-- `std::stoi`. image_io.h 445, 464, 502, 520. -/
def stoi (s : Str) : Res Int :=
  let p := signDigits s
  if p.2 = [] then .throw .invalidArg
  else
    let v : Int := if p.1 then -(digitsVal p.2 : Int) else digitsVal p.2
    if -(2 ^ 31) ≤ v ∧ v < 2 ^ 31 then .ok v else .throw .outOfRange

/-- `stream << n` for a signed integer. image_io.h 564-566. -/
def intStr (n : Int) : Str := if n < 0 then '-' :: toStr n.natAbs else toStr n.natAbs

/-! ### PNM -/

theorem length_dropWhile_le {α : Type} (p : α → Bool) (l : List α) : (l.dropWhile p).length ≤ l.length :=
  (List.dropWhile_suffix p).length_le

/-- image_io.h 309-330 `read_pnm_token`: the token and the unread rest of the file; the empty token
at the end of the file. -/
def pnmToken (s : Str) : Str × Str :=
  match _h : s.dropWhile isSpace with
  | [] => ([], [])
  | c :: r =>
    if c = '#' then
      pnmToken (((r.dropWhile fun c => !isSpace c).dropWhile fun c => c != '\n').drop 1)
    else (c :: r.takeWhile fun c => !isSpace c, r.dropWhile fun c => !isSpace c)
termination_by s.length
decreasing_by
  have h1 := length_dropWhile_le isSpace s
  have h2 := length_dropWhile_le (fun c => !isSpace c) r
  have h3 := length_dropWhile_le (fun c => c != '\n') (r.dropWhile fun c => !isSpace c)
  rw [_h] at h1
  simp only [List.length_drop, List.length_cons] at *
  omega

/-- image_io.h 336-346 `shift_color_value`: shifts of 32 and more are undefined. -/
def shiftColor (value shift : Int) : Res Byte :=
  if 0 ≤ shift then
    if shift < 32 then .ok (BitVec.ofInt 8 (value * 2 ^ shift.toNat)) else .ub
  else if -shift < 32 then .ok (BitVec.ofInt 8 (value / 2 ^ (-shift).toNat)) else .ub

/-- image_io.h 448: `static_cast<int>(std::log2(max_value + 1))`; the conversion of the infinity or
NaN obtained for a non-positive argument is undefined. -/
def inBits (max : Int) : Res Int := do
  let m ← chkInt (max + 1)
  if m ≤ 0 then .ub else .ok (Nat.log2 m.toNat)

/-- The three accepted magic numbers. image_io.h 434, 491, 553. -/
def sP1 : Str := ['P', '1']

/-- image_io.h 434. -/
def sP2 : Str := ['P', '2']

/-- image_io.h 434. -/
def sP3 : Str := ['P', '3']

/-- image_io.h 364-391: the colour `ProcessPPMData` computes for index `i`. -/
def ppmColour (raw : List Int) (magic : Str) (shift : Int) (i : Nat) : Res RGB :=
  if magic = sP1 then do
    let v ← vget raw i
    let b : Byte := if v = 0 then 1 else 0
    .ok ⟨b, b, b⟩
  else if magic = sP2 then do
    let v ← vget raw i
    let b ← shiftColor v shift
    .ok ⟨b, b, b⟩
  else if magic = sP3 then do
    let base := wmul i 3
    let v0 ← vget raw base
    let c0 ← shiftColor v0 shift
    let v1 ← vget raw (wadd base 1)
    let c1 ← shiftColor v1 shift
    let v2 ← vget raw (wadd base 2)
    let c2 ← shiftColor v2 shift
    .ok ⟨c0, c1, c2⟩
  else .ok ⟨0, 0, 0⟩

/-- image_io.h 351-394 `ProcessPPMData::operator()`. -/
def ppmPixel (raw : List Int) (magic : Str) (shift : Int) (width height : Nat) (image : Image RGB)
    (i : Nat) : Res (Image RGB) := do
  let x ← umod i width
  let y ← udiv i width
  let fy := wsub (wsub height 1) y
  let pixel ← ppmColour raw magic shift i
  image.set2u x fy pixel

/-- image_io.h 456-465: the samples, as `int`s. -/
def pnmSamples : Nat → Str → List Int → Res (List Int)
  | 0, _, raw => .ok raw
  | n + 1, s, raw =>
    let t := pnmToken s
    if t.1 = [] then .throw .runtime
    else do
      let v ← stoi t.1
      pnmSamples n t.2 (raw ++ [v])

/-- image_io.h 423-480 and 484-534 `pnm::read` (with a policy, and with OpenMP): `none` is a file
that cannot be opened; the pixels are processed in the order `sched` gives to their indices. -/
def pnmRead (sched : List Nat → List Nat) (file : Option Str) (outbits : Int) : Res (Image RGB) :=
  match file with
  | none => .throw .runtime
  | some s =>
    let m := pnmToken s
    if m.1 ≠ sP1 ∧ m.1 ≠ sP2 ∧ m.1 ≠ sP3 then .throw .runtime
    else do
      let tw := pnmToken m.2
      let width ← stoull tw.1
      let th := pnmToken tw.2
      let height ← stoull th.1
      let (max, rest) ← (if m.1 ≠ sP1 then do
          let v ← stoi (pnmToken th.2).1
          .ok (v, (pnmToken th.2).2)
        else .ok (1, th.2) : Res (Int × Str))
      let bits ← inBits max
      let shift ← chkInt (outbits - bits)
      let count := wmul width height
      let expected := if m.1 = sP3 then wmul count 3 else count
      let raw ← pnmSamples expected rest []
      loop (ppmPixel raw m.1 shift width height) (sched (List.range count))
        (Image.ofSizes ⟨0, 0, 0⟩ [width, height])

/-- image_io.h 577-595: the text of one pixel. -/
def pnmPixelText (magic : Str) (p : RGB) : Str :=
  if magic = sP1 then (if p.c0 = 0 then ['1'] else ['0']) ++ ['\n']
  else if magic = sP2 then toStr p.c0.toNat ++ ['\n']
  else if magic = sP3 then
    toStr p.c0.toNat ++ [' '] ++ toStr p.c1.toNat ++ [' '] ++ toStr p.c2.toNat ++ ['\n']
  else []

/-- image_io.h 541-599 `pnm::write` to a file that could be opened: the content of the file. -/
def pnmWrite (im : Image RGB) (magic : Str) (max : Int) : Res Str :=
  if magic ≠ sP1 ∧ magic ≠ sP2 ∧ magic ≠ sP3 then .throw .invalidArg
  else
    let width := im.width
    let height := im.height
    let header := magic ++ ['\n'] ++ toStr width ++ [' '] ++ toStr height ++ ['\n'] ++
      (if magic ≠ sP1 then intStr max ++ ['\n'] else [])
    pixFor (iterYX width height) (fun out x y => do
      let p ← im.at2u x (wsub (wsub height 1) y)
      .ok (out ++ pnmPixelText magic p)) header

/-! ### CSV -/

/-- Repeated `std::getline(stream, piece, sep)`: the pieces; no piece after a final separator. image_io.h
179, 215, 234. -/
def getlines (sep : Char) : Str → List Str
  | [] => []
  | c :: r =>
    if c = sep then [] :: getlines sep r
    else
      match r with
      | [] => [[c]]
      | d :: r' =>
        if d = sep then [c] :: getlines sep r'
        else
          match getlines sep (d :: r') with
          | [] => [[c]]
          | p :: ps => (c :: p) :: ps

variable {α : Type}

/-- image_io.h 79-94, 131-145: the text of row `y`. -/
def csvRow (fmt : α → Str) (im : Image α) (y : Nat) : Res Str :=
  forUp im.width (fun oss x => do
    let v ← im.at2u x y
    .ok (oss ++ fmt v ++ (if x < wsub im.width 1 then [','] else []))) []

/-- image_io.h 51-102 and 107-153 `write_to_csv` to a file that could be opened: the content of the
file. `fmt` is `oss << value`; the rows are formatted in the order `sched` gives to them. -/
def csvWrite (sched : List Nat → List Nat) (fmt : α → Str) (im : Image α) : Res Str :=
  if im.dim ≠ 2 then .throw .runtime
  else do
    let rows ← loop (fun rows y => do
      let r ← csvRow fmt im y
      vset rows y r) (sched (List.range im.height)) (List.replicate im.height [])
    .ok (rows.flatMap fun r => r ++ ['\n'])

/-- image_io.h 173-194 `ParseCSVRow::operator()`: `x` counts the cells; surplus cells are read but
ignored. -/
def csvCells (parse : Str → Res α) (width y : Nat) : List Str → Nat → Image α → Res (Image α)
  | [], _, im => .ok im
  | c :: cs, x, im =>
    if x < width then do
      let v ← parse c
      let im ← im.set2u x y v
      csvCells parse width y cs (x + 1) im
    else .ok im

/-- image_io.h 200-249 and 254-300 `read_from_csv`; `none` is a file that cannot be opened, `parse`
converts one cell. An exception thrown for a cell ends the call here (with a policy the program is
terminated instead). -/
def csvRead (sched : List Nat → List Nat) (parse : Str → Res α) (zero : α) (file : Option Str) :
    Res (Image α) :=
  match file with
  | none => .throw .runtime
  | some s =>
    let lines := (getlines '\n' s).filter (· ≠ [])
    match lines with
    | [] => .ok Image.default
    | first :: _ =>
      let width := (getlines ',' first).length
      loop (fun im y => do
        let line ← vget lines y
        csvCells parse width y (getlines ',' line) 0 im) (sched (List.range lines.length))
        (Image.ofSizes zero [width, lines.length])

/-- image_io.h 187-189: `cell_stream >> val` for a signed integer type with the given limits (not a
character type): no digits give 0, a value out of range the nearest limit. -/
def parseIntCell (lo hi : Int) (s : Str) : Res Int :=
  let p := signDigits s
  if p.2 = [] then .ok 0
  else
    let v : Int := if p.1 then -(digitsVal p.2 : Int) else digitsVal p.2
    .ok (max lo (min hi v))

/-- `oss << value` for `uint8_t` (a character type): the character itself. image_io.h 87, 139. -/
def fmtU8 (b : Byte) : Str := [Char.ofNat b.toNat]

/-- image_io.h 187-189: `cell_stream >> val` for `uint8_t`: the first character that is not white
space; zero when there is none. -/
def parseU8Cell (s : Str) : Res Byte :=
  match s.dropWhile isSpace with
  | [] => .ok 0
  | c :: _ => .ok (BitVec.ofNat 8 c.toNat)

/-- Nearest integer, ties to even. Used for image_io.h 82, 134. -/
def roundEven (q : ℚ) : Int :=
  let f := ⌊q⌋
  let d := q - f
  if d < 1 / 2 then f else if 1 / 2 < d then f + 1 else if f % 2 = 0 then f else f + 1

/-- `n` digits with leading zeros. Used for image_io.h 82, 134. -/
def padDigits (n k : Nat) : Str := List.replicate (n - (toStr k).length) '0' ++ toStr k

/-- `oss << std::fixed << std::setprecision(p) << value`: `p` digits after the point, the value rounded to
the nearest number with that many digits. image_io.h 82, 134. -/
def fmtFixed (p : Nat) (q : ℚ) : Str :=
  let m := (roundEven (|q| * 10 ^ p)).toNat
  (if q < 0 then ['-'] else []) ++ toStr (m / 10 ^ p) ++
    (if p = 0 then [] else '.' :: padDigits p (m % 10 ^ p))

/-- The mantissa digits of the scientific notation: the first digit, then the others without trailing zeros.
Used for image_io.h 87, 139. -/
def sciMantissa (ds : Str) : Str :=
  match ds with
  | [] => []
  | d :: r =>
    let r := (r.reverse.dropWhile (· == '0')).reverse
    if r = [] then [d] else d :: '.' :: r

/-- `oss << value` with the default precision 6 (`%g`) for a non-negative whole value: up to six digits
exactly, larger values rounded to six digits in scientific notation. image_io.h 87, 139. -/
def fmtNatDefault (n : Nat) : Str :=
  if n < 10 ^ 6 then toStr n
  else
    let e := (toStr n).length - 1
    let m := (roundEven ((n : ℚ) / 10 ^ (e - 5))).toNat
    let (m, e) := if m = 10 ^ 6 then (10 ^ 5, e + 1) else (m, e)
    sciMantissa (toStr m) ++ ['e', '+'] ++ padDigits 2 e

/-- `oss << value` with the default precision 6 for a whole value. Simplification: other values are not
modelled with this format (their whole numerator is used). image_io.h 87, 139. -/
def fmtDefault (q : ℚ) : Str :=
  if q < 0 then '-' :: fmtNatDefault q.num.natAbs else fmtNatDefault q.num.natAbs

/-- The optional fraction of a decimal number: its digits and the rest. Used for image_io.h 183. -/
def fracPart (s : Str) : Str × Str :=
  match s with
  | '.' :: r => (r.takeWhile Char.isDigit, r.dropWhile Char.isDigit)
  | _ => ([], s)

/-- The optional exponent of a decimal number. Used for image_io.h 183. -/
def expPart (s : Str) : Int :=
  match s with
  | 'e' :: '+' :: r => digitsVal (r.takeWhile Char.isDigit)
  | 'e' :: '-' :: r => -(digitsVal (r.takeWhile Char.isDigit) : Int)
  | 'e' :: r => digitsVal (r.takeWhile Char.isDigit)
  | _ => 0

/-- The value of an unsigned decimal number at the beginning of a text. image_io.h 183. -/
def stodMag (s : Str) : Res ℚ :=
  let int := s.takeWhile Char.isDigit
  let fr := fracPart (s.dropWhile Char.isDigit)
  if int = [] ∧ fr.1 = [] then .throw .invalidArg
  else .ok (((digitsVal int : ℚ) + (digitsVal fr.1 : ℚ) / 10 ^ fr.1.length) * (10 : ℚ) ^ expPart fr.2)

/-- image_io.h 183: `std::stod` for decimal numbers, without the rounding to a `double`.
Simplification: hexadecimal numbers, infinities and NaN are not modelled. -/
def stod (s : Str) : Res ℚ :=
  match s.dropWhile isSpace with
  | '-' :: r => do
    let v ← stodMag r
    .ok (-v)
  | '+' :: r => stodMag r
  | r => stodMag r

end TinyDIP.Text
