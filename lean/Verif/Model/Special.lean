import Verif.Model.Rounded
import Verif.Model.CliSignal

/-!
# Infinities and NaN

Sampling, rotation and the perspective warp with all values a `double` can have: numbers, the two infinities and
NaN. Every operation rounds (`Rounding`); a result of magnitude `2 ^ 1024` or more is an infinity. There is one
zero; a quotient by zero takes the sign of the dividend (no statement depends on this). There is no underflow.
-/

namespace TinyDIP.Sp

open TinyDIP Image Rnd Cli

variable {α F : Type}

/-- A value of type `double`. Not from the repository: IEEE 754, used at image_operations.h 4785. -/
inductive Dbl
  | num (x : ℝ)
  | pinf
  | ninf
  | nan

namespace Dbl

/-- The result of an operation whose exact result is `x`. Not from the repository: IEEE 754, used at
image_operations.h 4818. -/
noncomputable def rnd (x : ℝ) : Dbl :=
  if 2 ^ 1024 ≤ dbl x then .pinf else if dbl x ≤ -2 ^ 1024 then .ninf else .num (dbl x)

/-- `-a`. image_operations.h 5054. -/
def neg : Dbl → Dbl
  | .num x => .num (-x)
  | .pinf => .ninf
  | .ninf => .pinf
  | .nan => .nan

/-- `std::abs(a)`. image_operations.h 4874, 5032-5033, 7836. -/
noncomputable def abs : Dbl → Dbl
  | .num x => .num |x|
  | .pinf => .pinf
  | .ninf => .pinf
  | .nan => .nan

/-- `a + b`. image_operations.h 4830. -/
noncomputable def add : Dbl → Dbl → Dbl
  | .nan, _ => .nan
  | _, .nan => .nan
  | .pinf, .ninf => .nan
  | .ninf, .pinf => .nan
  | .pinf, _ => .pinf
  | _, .pinf => .pinf
  | .ninf, _ => .ninf
  | _, .ninf => .ninf
  | .num x, .num y => rnd (x + y)

/-- `a - b`. image_operations.h 4818. -/
noncomputable def sub (a b : Dbl) : Dbl := a.add b.neg

/-- Infinity of the sign of `x`, NaN for zero: an infinity times a number. Not from the repository: IEEE 754,
used at image_operations.h 7833. -/
noncomputable def infTimes (x : ℝ) : Dbl := if x = 0 then .nan else if 0 < x then .pinf else .ninf

/-- `a * b`. image_operations.h 4830. -/
noncomputable def mul : Dbl → Dbl → Dbl
  | .nan, _ => .nan
  | _, .nan => .nan
  | .num x, .num y => rnd (x * y)
  | .num x, .pinf => infTimes x
  | .num x, .ninf => infTimes (-x)
  | .pinf, .num y => infTimes y
  | .ninf, .num y => infTimes (-y)
  | .pinf, .pinf => .pinf
  | .ninf, .ninf => .pinf
  | _, _ => .ninf

/-- `a / b`. image_operations.h 7838-7839. -/
noncomputable def div : Dbl → Dbl → Dbl
  | .nan, _ => .nan
  | _, .nan => .nan
  | .num x, .num y => if y = 0 then infTimes x else rnd (x / y)
  | .num _, _ => .num 0
  | .pinf, .num y => if y < 0 then .ninf else .pinf
  | .ninf, .num y => if y < 0 then .pinf else .ninf
  | _, _ => .nan

/-- `a < b`: false when one of them is NaN. image_operations.h 4791. -/
def lt : Dbl → Dbl → Prop
  | .num x, .num y => x < y
  | .ninf, .num _ => True
  | .ninf, .pinf => True
  | .num _, .pinf => True
  | _, _ => False

/-- `a <= b`: false when one of them is NaN. image_operations.h 4878, 4921. -/
def le : Dbl → Dbl → Prop
  | .num x, .num y => x ≤ y
  | .ninf, .ninf => True
  | .pinf, .pinf => True
  | a, b => a.lt b

/-- `a == b`: false when one of them is NaN. image_operations.h 5003, 5008. -/
def eq : Dbl → Dbl → Prop
  | .num x, .num y => x = y
  | .pinf, .pinf => True
  | .ninf, .ninf => True
  | _, _ => False

/-- The value of a `size_t` as a `double`. image_operations.h 4787-4788. -/
noncomputable def ofNat (n : Nat) : Dbl := rnd n

/-- `static_cast<std::size_t>(a)`: undefined for infinities and NaN. image_operations.h 4797-4798. -/
noncomputable def toIndex : Dbl → Res Nat
  | .num x => toSize x
  | _ => .ub

/-- `std::ceil(a)`. image_operations.h 5034-5035. -/
noncomputable def ceil : Dbl → Dbl
  | .num x => .num ⌈x⌉
  | a => a

end Dbl

open Dbl

/-- The element types of the samplers: `static_cast<AccumulatorType>(pixel)` and the final conversion to the
element type. image_operations.h 4829-4850, 4956-4970. -/
structure Elem (α : Type) where
  toD : α → Dbl
  fromD : Dbl → Res α

open Classical in
/-- 8-bit elements: values above 255 give 255, negative ones 0, others are truncated; the conversion of NaN is
undefined. image_operations.h 4837-4850, 4957-4970. -/
noncomputable def Elem.u8 : Elem (BitVec 8) where
  toD b := .num b.toNat
  fromD v :=
    if (Dbl.num 255).lt v then .ok 255#8 else if v.lt (.num 0) then .ok 0#8
    else match v with
      | .num x => .ok (BitVec.ofNat 8 ⌊x⌋₊)
      | _ => .ub

/-- Elements of type `double`. image_operations.h 4837-4850, 4957-4970. -/
def Elem.dbl : Elem Dbl := ⟨id, .ok⟩

open Classical in
/-- image_operations.h 4785-4850 `bilinear_interpolate`. -/
noncomputable def bilinear (ev : Elem α) (zero : α) (im : Image α) (x y : Dbl) : Res α :=
  let width := Dbl.ofNat im.width
  let height := Dbl.ofNat im.height
  if x.lt (.num 0) ∨ (width.sub (.num 1)).lt x ∨ y.lt (.num 0) ∨ (height.sub (.num 1)).lt y then .ok zero
  else do
    let x1 ← x.toIndex
    let y1 ← y.toIndex
    let x2 := if wadd x1 1 ≥ im.width then x1 else wadd x1 1
    let y2 := if wadd y1 1 ≥ im.height then y1 else wadd y1 1
    let q11 ← im.at2 x1 y1
    let q21 ← im.at2 x2 y1
    let q12 ← im.at2 x1 y2
    let q22 ← im.at2 x2 y2
    let dx := x.sub (Dbl.ofNat x1)
    let dy := y.sub (Dbl.ofNat y1)
    let r1 := ((ev.toD q11).mul ((Dbl.num 1).sub dx)).add ((ev.toD q21).mul dx)
    let r2 := ((ev.toD q12).mul ((Dbl.num 1).sub dx)).add ((ev.toD q22).mul dx)
    ev.fromD ((r1.mul ((Dbl.num 1).sub dy)).add (r2.mul dy))

open Classical in
/-- image_operations.h 4872-4887 `cubic_kernel` with the default `a = -0.5`: `a + 2.0` is 1.5, `a + 3.0` is 2.5,
`5.0 * a` is -2.5, `8.0 * a` is -4 and `4.0 * a` is -2. -/
noncomputable def kernel (x : Dbl) : Dbl :=
  let t := x.abs
  let t2 := t.mul t
  let t3 := t2.mul t
  if t.le (.num 1) then (((Dbl.num 1.5).mul t3).sub ((Dbl.num 2.5).mul t2)).add (.num 1)
  else if t.lt (.num 2) then
    ((((Dbl.num (-0.5)).mul t3).sub ((Dbl.num (-2.5)).mul t2)).add ((Dbl.num (-4)).mul t)).sub (.num (-2))
  else .num 0

open Classical in
/-- image_operations.h 4891-4973 `default_bicubic_interpolator::operator()`. -/
noncomputable def bicubic (ev : Elem α) (zero : α) (im : Image α) (x y : Dbl) : Res α :=
  let width := Dbl.ofNat im.width
  let height := Dbl.ofNat im.height
  if x.lt (.num 1) ∨ (width.sub (.num 2)).le x ∨ y.lt (.num 1) ∨ (height.sub (.num 2)).le y then
    bilinear ev zero im x y
  else do
    let xf ← x.toIndex
    let yf ← y.toIndex
    let total ← forUp 4 (fun total j => do
      let v := wadd (wsub yf 1) j
      let row ← forUp 4 (fun row i => do
        let u := wadd (wsub xf 1) i
        let q ← im.at2 u v
        .ok (row.add ((ev.toD q).mul (kernel (x.sub (Dbl.ofNat u)))))) (Dbl.num 0)
      .ok (total.add (row.mul (kernel (y.sub (Dbl.ofNat v)))))) (Dbl.num 0)
    ev.fromD total

/-! ### Rotation -/

/-- The library functions of the rotation: `std::fmod` by a full turn (as `long double`, the result converted to
`double`), `std::cos` and `std::sin`. image_operations.h 4997, 5022-5023. -/
structure Trig where
  fmod : Dbl → Dbl
  cosine : Dbl → Dbl
  sine : Dbl → Dbl

/-- image_operations.h 4998-5001: a negative remainder is increased by a full turn; `p` is the precision of
`long double`, the sum is converted to `double`. -/
noncomputable def fullTurn (p : Nat) : Dbl → Dbl
  | .num r => if r < 0 then rnd (fl p (r + fl p (2 * fl p Real.pi))) else .num r
  | .ninf => .ninf
  | a => a

/-- image_operations.h 5028-5035: one side of the turned image. -/
noncomputable def side (a b cosine sine : Dbl) : Res Nat :=
  (Dbl.ceil ((a.mul cosine).abs.add (b.mul sine).abs)).toIndex

/-- image_operations.h 5026-5027, 5041-5042: half of a size less one. -/
noncomputable def centre (size : Dbl) : Dbl := (size.sub (.num 1)).div (.num 2)

open Classical in
/-- image_operations.h 4975-5072 `rotate_detail_shear_transformation`; `p` is the precision of `long double`,
`interp` the interpolator. -/
noncomputable def rotate (p : Nat) (trig : Trig) (zero : α) (interp : Image α → Dbl → Dbl → Res α)
    (im : Image α) (radians : Dbl) : Res (Image α) :=
  if im.dim ≠ 2 then .throw .runtime
  else
    let r := fullTurn p (trig.fmod radians)
    if r.eq (.num 0) then .ok im
    else if r.eq (.num (fl p (fl p Real.pi / 2))) then quarterTurnBranch zero im
    else do
      let c := trig.cosine r
      let s := trig.sine r
      let height := Dbl.ofNat im.height
      let width := Dbl.ofNat im.width
      let newHeight ← side height width c s
      let newWidth ← side width height c s
      pixFor (iterYX newWidth newHeight) (fun out x y => do
        let x' := (Dbl.ofNat x).sub (centre (Dbl.ofNat newWidth))
        let y' := (Dbl.ofNat y).sub (centre (Dbl.ofNat newHeight))
        let xs := ((x'.mul c).add (y'.mul s)).add (centre width)
        let ys := ((x'.neg.mul s).add (y'.mul c)).add (centre height)
        let v ← interp im xs ys
        out.set2 x y v) (Image.ofSizes zero [newWidth, newHeight])

/-! ### The perspective warp -/

/-- The entries of a homography. image_operations.h 7825-7828. -/
structure Hom where
  (h11 h12 h13 h21 h22 h23 h31 h32 h33 : Dbl)

/-- `a * x + b * y + c`. image_operations.h 7834, 7838-7839. -/
noncomputable def lin (a b c : Dbl) (x y : Nat) : Dbl :=
  ((a.mul (Dbl.ofNat x)).add (b.mul (Dbl.ofNat y))).add c

open Classical in
/-- image_operations.h 7807-7851 `warp_perspective` without an execution policy, for a matrix that is not empty;
`order` is the order in which the pixels are computed. -/
noncomputable def warp (zero : α) (interp : Dbl → Dbl → Res α) (m : Hom) (w h : Nat) (order : List (Nat × Nat)) :
    Res (Image α) :=
  loop (fun out q => do
    let d := lin m.h31 m.h32 m.h33 q.1 q.2
    if d.abs.lt (.num (1 / 2 ^ 52)) then .ok out
    else do
      let v ← interp ((lin m.h11 m.h12 m.h13 q.1 q.2).div d) ((lin m.h21 m.h22 m.h23 q.1 q.2).div d)
      out.set2 q.1 q.2 v) order (Image.ofSizes zero [w, h])

/-! ### Numbers on the command line -/

/-- A letter in lower case. Not from the repository: `std::from_chars` ignores the case of `INF` and `NAN`, main.h 95.
-/
def lower (c : Char) : Char := if 'A' ≤ c ∧ c ≤ 'Z' then Char.ofNat (c.toNat + 32) else c

/-- main.h 95: `std::from_chars` for `double` accepts `nan`, `inf` and `infinity` in any case, possibly after a
minus sign (and ignores what follows); everything else is read by `finite`. -/
noncomputable def fromChars (finite : Str → Option ℝ) (s : Str) : Option Dbl :=
  let t := s.map lower
  if t.take 3 = "nan".toList ∨ t.take 4 = "-nan".toList then some .nan
  else if t.take 3 = "inf".toList then some .pinf
  else if t.take 4 = "-inf".toList then some .ninf
  else (finite s).map .num

/-- main.cpp 655-667: the rotation on a stored 8-bit image; other values are left to `ext`. -/
noncomputable def rotateVal (p : Nat) (trig : Trig) (ext : Val PayR → Act (Val PayR)) (angle : Dbl) (v : Val PayR) :
    Act (Val PayR) :=
  match v with
  | .atom (.image (.num .uchar)) (.bytes im) =>
    if planar im then .ofImage tyByte .bytes (rotate p trig 0 (bicubic .u8 0) im angle) else ext v
  | _ => ext v

/-- main.cpp 634-690 `handlers::rotate`. -/
noncomputable def rotateCmd (io : FileIO PayR F) (p : Nat) (trig : Trig) (finite : Str → Option ℝ)
    (ext : Val PayR → Act (Val PayR)) : HandlerU PayR F :=
  transformU io 3 isMasterImage fun filtered policy =>
    match filtered with
    | _ :: _ :: a :: _ =>
      match fromChars finite (sanitize a) with
      | some angle => some fun v =>
        dispatchPolicy policy (fun _ => rotateVal p trig ext angle v) (rotateVal p trig ext angle v)
      | none => none
    | _ => none

end TinyDIP.Sp
