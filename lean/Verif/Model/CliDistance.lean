import Verif.Model.CliData

/-!
# Model of the command `manhattan_distance` (main.h 3541-3705)
-/

namespace TinyDIP.Cli

variable {F : Type}

/-- image_operations.h:3888-3896: the difference of two numbers of type `n`. The smaller number is
subtracted from the larger one in the promoted type; only `int` can overflow. -/
def Num.gap (n : Num) (a b : ℚ) : Res ℚ :=
  let d := if a > b then a - b else b - a
  if n = .int then Num.wrap .int d else .ok d

/-- image_operations.h:3947-3957, `manhattan_distance` of images of numbers of type `n`; the sum is a
`double`. -/
def manhattanNums (n : Num) (x y : Image ℚ) : Res ℚ :=
  if x.size ≠ y.size then .throw .runtime
  else do
    let d ← zipRes n.gap x.data y.data
    let im ← Image.ofData d x.size
    .ok (im.data.foldl (· + ·) 0)

/-- main.h 3585-3596: the distance of two values, if the library has one for their types. Image of
complex numbers: `ext`. There is no overload with an execution policy (3601-3612). -/
def manhattanCore (ext : Val Pay → Val Pay → Res (Val Pay)) (a b : Val Pay) : Res (Val Pay) :=
  match a, b with
  | .atom (.image (.num n)) (.image x), .atom (.image (.num m)) (.image y) =>
    if n = m then do
      let q ← manhattanNums n x y
      .ok (numVal .double q)
    else .throw .invalidArg
  | .atom (.image (.scalar k)) (.image3 x), .atom (.image (.scalar j)) (.image3 y) =>
    match channelNum k with
    | some n =>
      if k = j then
        if x.size ≠ y.size then .throw .runtime
        else do
          let l ← Arith.applyEachSingle2 0 3 (manhattanNums n) x y
          .ok (.cont .vector (.num .double) (l.map (numVal .double)))
      else .throw .invalidArg
    | none => ext a b
  | .cont _ _ _, _ => .throw .invalidArg
  | _, .cont _ _ _ => .throw .invalidArg
  | _, _ => ext a b

/-- main.h 3541-3705 `handlers::manhattan_distance`. -/
def manhattanCmd (io : FileIO Pay F) (ext : Val Pay → Val Pay → Res (Val Pay)) : HandlerU Pay F :=
  fun w args =>
    match argsFilter args with
    | in1 :: in2 :: rest =>
      match loadArg io isMasterData w in1 with
      | .error () => raise w
      | .ok none => quiet w
      | .ok (some a) =>
        match loadArg io isMasterData w in2 with
        | .error () => raise w
        | .ok none => quiet w
        | .ok (some b) =>
          match manhattanCore ext a b with
          | .ub => .ub
          | .throw _ => quiet w
          | .ok r => deliver w (rest.headD []) r
    | _ => quiet w

end TinyDIP.Cli
