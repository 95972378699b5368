import Verif.Model.CliHandlers
import Verif.Model.Arith
import Mathlib.Data.Rat.Floor

/-!
# Model of the data commands of the command line

File: `main.h` (parse_arg 77-118, MetaScalarHandler 1239-1379, add 1597-1763, construct_rgb 1896-2027,
count 2030-2194, grid_generator 2931-3048, max 3706-3767, min 3769-3830, replace 4184-4386, subtract
4472-4638, sum 4640-4735).

Numbers are exact rationals; arithmetic on `bool`, `unsigned char`, `int` and `std::size_t` follows
the C++ rules (reduction modulo 2^8 and 2^64, undefined behaviour when `int` overflows), `double` is
exact. Images of `MultiChannel` and complex pixels are not modelled in detail: what the library does
with them is the parameter `ext` of the commands.
-/

namespace TinyDIP.Cli

variable {F : Type}

/-- Payload of stored values: a number, an image of numbers, an image with three channels per pixel (`RGB`,
`HSV`, `RGB_DOUBLE`), or one such pixel. The `std::any` of main.h 369. -/
inductive Pay
  | num (q : ℚ)
  | image (im : Image ℚ)
  | image3 (im : Image (Px3 ℚ))
  | px (p : Px3 ℚ)

/-- Type number of `RGB_DOUBLE` (10 and 11 stand for `RGB` and `HSV`). base_types.h 76; a label of the
model. -/
def rgbDouble : Nat := 12

/-- Conversion of the exact result of an arithmetic operation to the operand type: `bool` and `unsigned
char` operands are promoted to `int` and the result converted back. Not from the repository: C++ integer
promotions and conversions, for the sums and differences at image.h 517-531. -/
def Num.wrap (n : Num) (q : ℚ) : Res ℚ :=
  match n with
  | .bool => .ok (if q = 0 then 0 else 1)
  | .uchar => .ok ((⌊q⌋ % 2 ^ 8 : ℤ) : ℚ)
  | .int => if -2 ^ 31 ≤ q ∧ q < 2 ^ 31 then .ok q else .ub
  | .sizeT => .ok ((⌊q⌋ % 2 ^ 64 : ℤ) : ℚ)
  | .double => .ok q

/-- `std::plus` on two numbers of type `n`. image.h 521, image_operations.h 4289-4294. -/
def Num.plus (n : Num) (a b : ℚ) : Res ℚ := n.wrap (a + b)

/-- `std::minus` on two numbers of type `n`. image.h 529. -/
def Num.minus (n : Num) (a b : ℚ) : Res ℚ := n.wrap (a - b)

/-- Truncation toward zero. Not from the repository: C++ conversion of a floating-point value to an integer
type. -/
def truncQ (q : ℚ) : ℤ := if 0 ≤ q then ⌊q⌋ else ⌈q⌉

/-- Implicit conversion of a number of type `n` to type `m`. Simplification: the conversion of large
`std::size_t` values to `double` is exact. Not from the repository: C++ conversions, at image_operations.h
4388-4426 and main.h 4236-4268. -/
def Num.conv (n m : Num) (q : ℚ) : Res ℚ :=
  match m with
  | .double => .ok q
  | .bool => .ok (if q = 0 then 0 else 1)
  | .uchar =>
    if n = .double then
      if 0 ≤ truncQ q ∧ truncQ q < 2 ^ 8 then .ok (truncQ q) else .ub
    else .ok ((⌊q⌋ % 2 ^ 8 : ℤ) : ℚ)
  | .int =>
    if n = .double then
      if -2 ^ 31 ≤ truncQ q ∧ truncQ q < 2 ^ 31 then .ok (truncQ q) else .ub
    else .ok (((⌊q⌋ + 2 ^ 31) % 2 ^ 32 - 2 ^ 31 : ℤ) : ℚ)
  | .sizeT =>
    if n = .double then
      if 0 ≤ truncQ q ∧ truncQ q < 2 ^ 64 then .ok (truncQ q) else .ub
    else .ok ((⌊q⌋ % 2 ^ 64 : ℤ) : ℚ)

/-- `a == b` for numbers of types `n` and `m`: the usual arithmetic conversions compare an `int` and a
`std::size_t` modulo 2^64. Not from the repository: C++ comparison, at main.h 2077 and 4236. -/
def Num.eq (n m : Num) (a b : ℚ) : Bool :=
  if n = .double ∨ m = .double then a = b
  else if n = .sizeT ∨ m = .sizeT then ⌊a⌋ % 2 ^ 64 = ⌊b⌋ % 2 ^ 64
  else a = b

/-- main.h 258-269 `master_scalar_types`: numbers, custom scalars, containers of numbers. -/
def isMasterScalar : Ty → Bool
  | .num _ => true
  | .scalar _ => true
  | .cont _ (.num _) => true
  | _ => false

/-- What a command leaves behind: the session, how the call ended, and the value it printed. Effects of a
handler of main.h. -/
structure Out (P F : Type) where
  world : World P F
  ctl : Ctl
  shown : Option (Val P)

/-- A command that may run into undefined behaviour. main.h 787 `CommandHandler`. -/
abbrev HandlerU (P F : Type) := World P F → List Str → Res (Out P F)

/-- The command returns after printing a message. The `return` after `os << "Error…"` in the handlers of
main.h. -/
def quiet {P : Type} (w : World P F) : Res (Out P F) := .ok ⟨w, .returned, none⟩

/-- The command throws. A `throw` that leaves the handlers of main.h. -/
def raise {P : Type} (w : World P F) : Res (Out P F) := .ok ⟨w, .threw, none⟩

/-- main.h 1315-1378: a scalar result is stored in a variable or printed. -/
def deliver {P : Type} (w : World P F) (outArg : Str) (r : Val P) : Res (Out P F) :=
  if isMasterScalar r.ty then
    if outArg = [] then .ok ⟨w, .returned, some r⟩
    else if isVar outArg then .ok ⟨{ w with ws := w.ws.put (varName outArg) r }, .returned, none⟩
    else quiet w
  else quiet w

/-- main.h 1239-1379 `MetaScalarHandler`; `core policy v` is the operation. -/
def metaScalar {P : Type} (io : FileIO P F) (minArgs : Nat) (core : Str → Val P → Res (Val P)) :
    HandlerU P F := fun w args =>
  let policy := lastPolicy args
  let filtered := argsFilter args
  if filtered.length < minArgs then quiet w
  else
    match filtered with
    | [] => .ub
    | inArg :: rest =>
      match loadArg io isMasterData w inArg with
      | .error () => raise w
      | .ok none => quiet w
      | .ok (some v) =>
        match core policy v with
        | .ub => .ub
        | .throw _ => raise w
        | .ok r => deliver w (rest.headD []) r

/-- The number stored in a container element. Elements of the containers of main.h 250-253. -/
def itemNum : Val Pay → Option ℚ
  | .atom (.num _) (.num q) => some q
  | _ => none

/-- The numbers in an image or container of numbers, and their type. main.h 250-253, 273. -/
def numData : Val Pay → Option (Num × List ℚ)
  | .atom (.image (.num n)) (.image im) => some (n, im.data)
  | .cont _ (.num n) items => (items.mapM itemNum).map fun l => (n, l)
  | _ => none

/-- The channel type of the three-channel pixel types. base_types.h 46, 76, 106. -/
def channelNum (k : Nat) : Option Num :=
  if k = 10 then some .uchar else if k = 11 ∨ k = rgbDouble then some .double else none

/-- An image with three channels, its type number and its channel type. base_types.h 46, 76, 106; main.h
274. -/
def px3Data : Val Pay → Option (Nat × Num × Image (Px3 ℚ))
  | .atom (.image (.scalar k)) (.image3 im) => (channelNum k).map fun n => (k, n, im)
  | _ => none

/-- A number of type `n` as a stored value. main.h 259. -/
def numVal (n : Num) (q : ℚ) : Val Pay := .atom (.num n) (.num q)

/-- main.h 3729-3762 (`max`) and 3792-3825 (`min`): `pick` is `std::ranges::max` or
`std::ranges::min`; three-channel images plane by plane (image_operations.h 4331-4352). -/
def extremeCore (ext : Val Pay → Res (Val Pay)) (pick : List ℚ → Res ℚ) (v : Val Pay) :
    Res (Val Pay) :=
  match numData v with
  | some (n, l) => do
    let q ← pick l
    .ok (numVal n q)
  | none =>
    match px3Data v with
    | some (_, n, im) => do
      let l ← Arith.applyEachSingle 0 3 (fun p => pick p.data) im
      .ok (.cont .vector (.num n) (l.map (numVal n)))
    | none => ext v

/-- main.h 3706-3767 `handlers::max`. -/
def maxCmd (io : FileIO Pay F) (ext : Val Pay → Res (Val Pay)) : HandlerU Pay F :=
  metaScalar io 1 fun _ v => extremeCore ext stdMax v

/-- main.h 3769-3830 `handlers::min`. -/
def minCmd (io : FileIO Pay F) (ext : Val Pay → Res (Val Pay)) : HandlerU Pay F :=
  metaScalar io 1 fun _ v => extremeCore ext stdMin v

/-- A grouping of the operands of `std::reduce`. Used for image_operations.h 4294, 4304 and main.h
4682-4706. -/
inductive RedTree (α : Type)
  | leaf (a : α)
  | node (l r : RedTree α)

/-- The operands from left to right. Part of the description of image_operations.h 4294, 4304. -/
def RedTree.leaves {α : Type} : RedTree α → List α
  | .leaf a => [a]
  | .node l r => l.leaves ++ r.leaves

/-- Evaluation of a grouping. Part of the description of image_operations.h 4294, 4304. -/
def RedTree.eval {α : Type} (f : α → α → Res α) : RedTree α → Res α
  | .leaf a => .ok a
  | .node l r => do
    let a ← l.eval f
    let b ← r.eval f
    f a b

/-- How the library groups the operands: `group α init l` for `std::reduce` (and `std::accumulate`) of `l`
from `init`. image_operations.h 4294, 4304, main.h 4682-4706. -/
abbrev Grouping := (α : Type) → α → List α → RedTree α

/-- main.h 4658-4730: `sum` of an image (image_operations.h 4289-4305) or container; `RGB` images are
converted to `RGB_DOUBLE` first (main.h 4721-4725). -/
def sumCore (ext : Val Pay → Res (Val Pay)) (group : Grouping) (v : Val Pay) : Res (Val Pay) :=
  match numData v with
  | some (n, l) => do
    let q ← (group ℚ 0 l).eval n.plus
    .ok (numVal n q)
  | none =>
    match px3Data v with
    | some (k, _, im) => do
      let p ← (group (Px3 ℚ) ⟨0, 0, 0⟩ im.data).eval fun a b => .ok (Px3.map2 (· + ·) a b)
      .ok (.atom (.scalar (if k = 11 then 11 else rgbDouble)) (.px p))
    | none => ext v

/-- main.h 4640-4735 `handlers::sum`; the grouping may depend on the execution policy. -/
def sumCmd (io : FileIO Pay F) (ext : Val Pay → Res (Val Pay)) (group : Str → Grouping) :
    HandlerU Pay F :=
  metaScalar io 1 fun policy v => sumCore ext (group policy) v

/-! ## add and subtract -/

/-- main.h 1722-1746 and 4600-4626: the types accepted as second operand. -/
def family : Ty → Ty → Bool
  | .image _, t => isMasterImage t
  | .cont .vector _, .cont .vector (.num _) => true
  | .cont .deque _, .cont .deque (.num _) => true
  | .cont .list _, .cont .list (.num _) => true
  | .cont (.array _) _, .cont (.array _) (.num _) => true
  | _, _ => false

/-- `std::transform` over two ranges, to the end of the first. image.h 520, 528; main.h 1651-1653. -/
def zipRes {α β γ : Type} (f : α → β → Res γ) : List α → List β → Res (List γ)
  | [], _ => .ok []
  | _ :: _, [] => .ub
  | a :: as, b :: bs => do
    let c ← f a b
    let cs ← zipRes f as bs
    .ok (c :: cs)

/-- image.h 517-531 `operator+=`, `operator-=` and 553-561 `operator+`, `operator-`. -/
def combine {α : Type} (f : α → α → Res α) (lhs rhs : Image α) : Res (Image α) := do
  Image.checkSizeSame rhs lhs
  let d ← zipRes f lhs.data rhs.data
  .ok ⟨lhs.size, d⟩

/-- base_types.h 50-64 (80-94, 110-124): channel by channel. -/
def px3Op (f : ℚ → ℚ → Res ℚ) (p q : Px3 ℚ) : Res (Px3 ℚ) := do
  let a ← f p.c0 q.c0
  let b ← f p.c1 q.c1
  let c ← f p.c2 q.c2
  .ok ⟨a, b, c⟩

/-- basic_functions.h 155-165 `is_bool_data_v` (for the modelled types). -/
def isBoolData : Ty → Bool
  | .image (.num .bool) => true
  | .cont _ (.num .bool) => true
  | _ => false

/-- main.h 1644-1690 and 4519-4565: the sum or difference of two values. There is no
`add(policy, image, image)` and no `subtract(policy, ...)`, so with an execution policy the operator
is used as well. Containers have no `operator+`. -/
def binaryCore (ext : Val Pay → Val Pay → Res (Val Pay)) (f : Num → ℚ → ℚ → Res ℚ)
    (a b : Val Pay) : Res (Val Pay) :=
  if isBoolData a.ty || isBoolData b.ty then .throw .invalidArg
  else
    match a, b with
    | .atom (.image (.num n)) (.image x), .atom (.image (.num m)) (.image y) =>
      if n = m then do
        let r ← combine (f n) x y
        .ok (.atom (.image (.num n)) (.image r))
      else .throw .invalidArg
    | .atom (.image (.scalar k)) (.image3 x), .atom (.image (.scalar j)) (.image3 y) =>
      match channelNum k with
      | some n =>
        if k = j then do
          let r ← combine (px3Op (f n)) x y
          .ok (.atom (.image (.scalar k)) (.image3 r))
        else .throw .invalidArg
      | none => ext a b
    | .cont _ _ _, _ => .throw .invalidArg
    | _, _ => ext a b

/-- main.h 1597-1763 and 4472-4638: exceptions of the operation and of saving are caught. -/
def binaryCmd {P : Type} (io : FileIO P F) (core : Val P → Val P → Res (Val P)) : HandlerU P F :=
  fun w args =>
    match argsFilter args with
    | in1 :: in2 :: outArg :: _ =>
      match loadArg io isMasterData w in1 with
      | .error () => raise w
      | .ok none => quiet w
      | .ok (some a) =>
        match loadArg io (family a.ty) w in2 with
        | .error () => raise w
        | .ok none => quiet w
        | .ok (some b) =>
          match core a b with
          | .ub => .ub
          | .throw _ => quiet w
          | .ok r => if isMasterData r.ty then .ok ⟨(saveArg io w outArg r).1, .returned, none⟩ else quiet w
    | _ => quiet w

/-- main.h 1597-1763 `handlers::add`. -/
def addCmd (io : FileIO Pay F) (ext : Val Pay → Val Pay → Res (Val Pay)) : HandlerU Pay F :=
  binaryCmd io (binaryCore ext Num.plus)

/-- main.h 4472-4638 `handlers::subtract`. -/
def subtractCmd (io : FileIO Pay F) (ext : Val Pay → Val Pay → Res (Val Pay)) : HandlerU Pay F :=
  binaryCmd io (binaryCore ext Num.minus)

/-! ## zeros and ones -/

/-- main.h 2285-2292: a vector of `total_elements` copies (the product of the sizes, modulo 2^64), an image made
of it, and `setAllValue`. `none` is the exception of the constructor. -/
def filledImage (v : ℚ) (sizes : List Nat) : Option (Val Pay) :=
  match Image.ofData (List.replicate (Image.prodW sizes) v) sizes with
  | .ok im => some (.atom tyDouble (.image (im.setAllValue v)))
  | _ => none

/-- main.cpp 1050-1063 `handlers::zeros`. -/
def zerosCmd (io : FileIO Pay F) : Handler (World Pay F) := createImage io (filledImage 0)

/-- main.cpp 317-330 `handlers::ones`. -/
def onesCmd (io : FileIO Pay F) : Handler (World Pay F) := createImage io (filledImage 1)

/-! ## count and replace -/

/-- ASCII lower case, main.h 65-72 `iequals`. -/
def lower (s : Str) : Str := s.map fun c => if 'A' ≤ c ∧ c ≤ 'Z' then Char.ofNat (c.toNat + 32) else c

/-- main.h 77-118 `parse_arg` for the numeric types. `dbl` is `std::from_chars` for `double`. For the
integer types the longest prefix of digits is read, with a leading minus sign for `int` only. -/
def parseLit (dbl : Str → Option ℚ) (n : Num) (s : Str) : Option ℚ :=
  match n with
  | .bool =>
    if sanitize s = ['1'] ∨ lower (sanitize s) = ['t', 'r', 'u', 'e'] then some 1
    else if sanitize s = ['0'] ∨ lower (sanitize s) = ['f', 'a', 'l', 's', 'e'] then some 0
    else none
  | .uchar => (parseSize s).bind fun v => if v < 2 ^ 8 then some (v : ℚ) else none
  | .int =>
    match sanitize s with
    | '-' :: ds =>
      if ds.takeWhile Char.isDigit = [] then none
      else if Nat.ofDigitChars 10 (ds.takeWhile Char.isDigit) 0 ≤ 2 ^ 31 then
        some (-(Nat.ofDigitChars 10 (ds.takeWhile Char.isDigit) 0 : ℚ))
      else none
    | _ => (parseSize s).bind fun v => if v < 2 ^ 31 then some (v : ℚ) else none
  | .sizeT => (parseSize s).map fun v => (v : ℚ)
  | .double => dbl (sanitize s)

/-- basic_functions.h 178-187 `get_deep_scalar_t` for the modelled types. -/
def elemTy : Ty → Ty
  | .image t => t
  | .cont _ t => t
  | t => t

/-- main.h 2158-2185, 4315-4378: the value of an operand given as variable or literal; `none` when a
message is printed instead. -/
def operand (dbl : Str → Option ℚ) (w : World Pay F) (e : Ty) (arg : Str) : Option (Val Pay) :=
  if isVar arg then
    match w.ws.find (sanitize (varName arg)) with
    | some v => if isMasterScalar v.ty then some v else none
    | none => none
  else
    match e with
    | .num n => (parseLit dbl n arg).map (numVal n)
    | _ => none

/-- main.h 2077, 4236: `e == t` compiles. `RGB` and `HSV` have `operator==`, `RGB_DOUBLE` has not. -/
def comparable : Ty → Ty → Bool
  | .num _, .num _ => true
  | .scalar k, .scalar j => k = j && (k = 10 || k = 11)
  | _, _ => false

/-- main.h 2030-2194 `handlers::count`. For images `count` returns `std::ptrdiff_t` (`std::ranges::count`,
image_operations.h 4361-4382) and the `std::any_cast<std::size_t>` of main.h 2124 throws; the handler
catches the exception. Containers of other types than numbers do not pass the type check. -/
def countCmd (io : FileIO Pay F) (dbl : Str → Option ℚ) : HandlerU Pay F := fun w args =>
  match argsFilter args with
  | inArg :: targetArg :: rest =>
    match loadArg io isMasterData w inArg with
    | .error () => raise w
    | .ok none => quiet w
    | .ok (some v) =>
      match operand dbl w (elemTy v.ty) targetArg with
      | none => quiet w
      | some t =>
        if comparable (elemTy v.ty) t.ty then
          match v, t with
          | .cont _ (.num n) items, .atom (.num m) (.num q) =>
            let c := items.countP fun x => match itemNum x with
              | some a => n.eq m a q
              | none => false
            deliver w (rest.headD []) (numVal .sizeT c)
          | .atom (.image (.num n)) _, .atom (.num m) (.num q) =>
            if extractPolicy args = [] then
              match m.conv n q with
              | .ub => .ub
              | _ => quiet w
            else quiet w
          | _, _ => quiet w
        else if isVar targetArg then raise w
        else quiet w
  | _ => quiet w

/-- `std::replace` on a range of numbers of type `n`: `old` of type `m`, the new value of type `m'` is
converted when it is assigned. main.h 4245-4268, image_operations.h 4388-4426. -/
def replaceNums (n m m' : Num) (old new : ℚ) : List (Val Pay) → Res (List (Val Pay))
  | [] => .ok []
  | x :: xs => do
    let y ← match itemNum x with
      | some a => if n.eq m a old then (do
          let b ← m'.conv n new
          .ok (numVal n b)) else .ok x
      | none => .ok x
    let ys ← replaceNums n m m' old new xs
    .ok (y :: ys)

/-- main.h 4230-4312 `execute_replace`. Images: `TinyDIP::replace` converts both values to the pixel
type first (image_operations.h 4388-4426). Containers: `std::ranges::replace`; with an execution policy
`std::replace`, which needs both values to have one type. -/
def replaceCore (hasPolicy : Bool) (v t u : Val Pay) : Res (Val Pay) :=
  match v, t, u with
  | .atom (.image (.num n)) (.image im), .atom (.num m) (.num old), .atom (.num m') (.num new) => do
    let o ← m.conv n old
    let c ← m'.conv n new
    let r ← TinyDIP.replace im o c
    .ok (.atom (.image (.num n)) (.image r))
  | .atom (.image (.scalar k)) (.image3 im), .atom (.scalar _) (.px old), .atom (.scalar _) (.px new) => do
    let r ← TinyDIP.replace im old new
    .ok (.atom (.image (.scalar k)) (.image3 r))
  | .cont k (.num n) items, .atom (.num m) (.num old), .atom (.num m') (.num new) =>
    if hasPolicy && decide (m ≠ m') then .throw .invalidArg
    else do
      let r ← replaceNums n m m' old new items
      .ok (.cont k (.num n) r)
  | _, _, _ => .throw .invalidArg

/-- main.h 4184-4386 `handlers::replace`. -/
def replaceCmd (io : FileIO Pay F) (dbl : Str → Option ℚ) : HandlerU Pay F := fun w args =>
  match argsFilter args with
  | inArg :: targetArg :: newArg :: outArg :: _ =>
    match loadArg io isMasterData w inArg with
    | .error () => raise w
    | .ok none => quiet w
    | .ok (some v) =>
      match operand dbl w (elemTy v.ty) targetArg with
      | none => quiet w
      | some t =>
        match operand dbl w (elemTy v.ty) newArg with
        | none => quiet w
        | some u =>
          if comparable (elemTy v.ty) t.ty && comparable (elemTy v.ty) u.ty then
            match replaceCore (extractPolicy args != []) v t u with
            | .ub => .ub
            | .throw _ => quiet w
            | .ok r =>
              if isMasterData r.ty then .ok ⟨(saveArg io w outArg r).1, .returned, none⟩ else quiet w
          else quiet w
  | _ => quiet w

/-! ## constructRGB and grid -/

/-- main.h 1964-1977 (`pts` in row-major order) and 1979-2004 (with an execution policy: any order). -/
def mergePlanes (r g b : Image ℚ) (pts : List (Nat × Nat)) (out : Image (Px3 ℚ)) :
    Res (Image (Px3 ℚ)) :=
  loop (fun out p => do
    let x ← r.at' [p.1, p.2]
    let y ← g.at' [p.1, p.2]
    let z ← b.at' [p.1, p.2]
    out.setAt [p.1, p.2] ⟨x, y, z⟩) pts out

/-- `idx / width`, `idx % width` for the indices of main.h 1982-1990 and 3017-3025. -/
def splitIdx (w : Nat) (order : List Nat) : List (Nat × Nat) := order.map fun i => (i % w, i / w)

/-- main.h 1896-2027 `handlers::construct_rgb`; `order` is the order of the indices when an execution
policy is given. Files are never 8-bit single-channel images, so a file argument throws. -/
def constructRgbCmd (io : FileIO Pay F) (order : List Nat) : HandlerU Pay F := fun w args =>
  match argsFilter args with
  | rArg :: gArg :: bArg :: outArg :: _ =>
    match loadArg io (fun t => t = .image (.num .uchar)) w rArg with
    | .error () => raise w
    | .ok none => quiet w
    | .ok (some vr) =>
      match loadArg io (fun t => t = .image (.num .uchar)) w gArg with
      | .error () => raise w
      | .ok none => quiet w
      | .ok (some vg) =>
        match loadArg io (fun t => t = .image (.num .uchar)) w bArg with
        | .error () => raise w
        | .ok none => quiet w
        | .ok (some vb) =>
          match vr, vg, vb with
          | .atom (.image (.num .uchar)) (.image r), .atom (.image (.num .uchar)) (.image g),
              .atom (.image (.num .uchar)) (.image b) =>
            if r.width ≠ g.width ∨ r.height ≠ g.height ∨ r.width ≠ b.width ∨ r.height ≠ b.height then
              raise w
            else
              match mergePlanes r g b
                  (if extractPolicy args = [] then iterYX r.width r.height
                    else splitIdx r.width order)
                  (Image.ofSizes ⟨0, 0, 0⟩ [r.width, r.height]) with
              | .ub => .ub
              | .throw _ => raise w
              | .ok im =>
                let s := saveArg io w outArg (.atom tyRgb (.image3 im))
                .ok ⟨s.1, s.2, none⟩
          | _, _, _ => raise w
  | _ => quiet w

/-- main.h 2990-3003, 3027-3041: one pixel of the grid; `%` by zero is undefined. -/
def gridPixel (g x y : Nat) : Res (Px3 ℚ) :=
  if g = 0 then .ub
  else if x % g = 0 ∨ y % g = 0 then .ok ⟨0, 0, 0⟩ else .ok ⟨255, 255, 255⟩

/-- main.h 2981-3008 (row-major order) and 3010-3044 (any order). -/
def gridImage (width height g : Nat) (pts : List (Nat × Nat)) : Res (Image (Px3 ℚ)) :=
  loop (fun out p => do
    let px ← gridPixel g p.1 p.2
    out.setAt [p.1, p.2] px) pts (Image.ofSizes ⟨0, 0, 0⟩ [width, height])

/-- main.h 2931-3048 `handlers::grid_generator`; `order` is the order of the indices when an execution
policy is given. -/
def gridCmd (io : FileIO Pay F) (order : List Nat) : HandlerU Pay F := fun w args =>
  match argsFilter args with
  | outArg :: wArg :: hArg :: rest =>
    match parseSize wArg, parseSize hArg, (match rest with
        | [] => some 10
        | gArg :: _ => parseSize gArg) with
    | some width, some height, some g =>
      match gridImage width height g (if lastPolicy args = [] then iterYX width height
          else splitIdx width order) with
      | .ub => .ub
      | .throw _ => raise w
      | .ok im =>
        let s := saveArg io w outArg (.atom tyRgb (.image3 im))
        .ok ⟨s.1, s.2, none⟩
    | _, _, _ => raise w
  | _ => quiet w

end TinyDIP.Cli
