import Verif.Model.CliTransform

/-!
# Model of the command abs

Files: `main.h` (1491-1595), `image_operations.h` (3847-3885), `basic_functions.h` (1173-1305, 1872-1916).

Numbers are exact rationals, as in the other data commands. Images of `MultiChannel` and complex pixels
are not modelled in detail: what the library does with them is the parameter `ext`.
-/

namespace TinyDIP.Cli

variable {F : Type}

/-- basic_functions.h 1872-1885 `generic_abs`: unsigned types and `bool` are returned unchanged,
`std::abs` of the others; `std::abs` of the smallest `int` is undefined. -/
def absNum (n : Num) (q : ℚ) : Res ℚ :=
  match n with
  | .bool => .ok q
  | .uchar => .ok q
  | .sizeT => .ok q
  | .int => if q = -2 ^ 31 then .ub else .ok (if q < 0 then -q else q)
  | .double => .ok (if q < 0 then -q else q)

/-- basic_functions.h 1165-1190 (1202-1225 for arrays) at unwrap level 1: one element after the other. -/
def absEach (n : Num) : List ℚ → Res (List ℚ)
  | [] => .ok []
  | q :: l => do
    let a ← absNum n q
    let as ← absEach n l
    .ok (a :: as)

/-- basic_functions.h 1237-1258 (1268-1294 for arrays) at unwrap level 1: `std::transform` with an execution
policy into an output of the same length, elements in the order `order`. -/
def absOrder (n : Num) (order : List Nat) (l : List ℚ) : Res (List ℚ) :=
  loop (fun out i => do
    let q ← vget l i
    let a ← absNum n q
    vset out i a) order (List.replicate l.length 0)

/-- The output is a `std::vector<bool>` with at least two elements and the policy allows several threads.
Different elements share a memory location and the assignment is outside of the lock of
basic_functions.h 1250-1254: a data race. -/
def packedRace (packed : Bool) (n : Num) (p : Policy) (len : Nat) : Bool :=
  packed && decide (n = .bool) && (decide (p = .par) || decide (p = .parUnseq)) && decide (2 ≤ len)

/-- The absolute values of the numbers in a container; `order k` is the order of `k` elements under an
execution policy and `packed` tells whether the container is a `std::vector`. main.h 1536-1547, 1572-1582. -/
def absData (order : Nat → List Nat) (policy : Str) (packed : Bool) (n : Num) (l : List ℚ) : Res (List ℚ) :=
  dispatchPolicy policy
    (fun p => if packedRace packed n p l.length then .ub else absOrder n (order l.length) l)
    (absEach n l)

/-- image_operations.h 3847-3867 `abs` of an image of numbers: `pixelwise_transform` (2045-2070). The pixels
are in a `std::vector`. -/
def absImage (order : Nat → List Nat) (policy : Str) (n : Num) (im : Image ℚ) : Res (Image ℚ) := do
  let d ← absData order policy true n im.data
  Image.ofData d im.size

/-- main.h 1514-1588: `abs` on the stored value; three-channel images plane by plane (image_operations.h
3869-3885). Simplification: the three planes of an image are visited in the same order. -/
def absVal (ext : Val Pay → Act (Val Pay)) (order : Nat → List Nat) (policy : Str) (v : Val Pay) :
    Act (Val Pay) :=
  match v with
  | .atom (.image (.num n)) (.image im) =>
    match absImage order policy n im with
    | .ok r => .done (.atom (.image (.num n)) (.image r))
    | .throw _ => .threw
    | .ub => .ub
  | .atom (.image (.scalar k)) (.image3 im) =>
    match channelNum k with
    | some n =>
      match Arith.applyEach 0 0 (absImage order policy n) im with
      | .ok r => .done (.atom (.image (.scalar k)) (.image3 r))
      | .throw _ => .threw
      | .ub => .ub
    | none => ext v
  | .cont k (.num n) items =>
    match items.mapM itemNum with
    | some l =>
      match absData order policy (decide (k = .vector)) n l with
      | .ok r => .done (.cont k (.num n) (r.map (numVal n)))
      | .throw _ => .threw
      | .ub => .ub
    | none => ext v
  | _ => ext v

/-- main.h 1491-1595 `handlers::abs`. -/
def absCmd (io : FileIO Pay F) (ext : Val Pay → Act (Val Pay)) (order : Nat → List Nat) : HandlerU Pay F :=
  transformU io 2 isMasterData fun _ policy => some (absVal ext order policy)

end TinyDIP.Cli
