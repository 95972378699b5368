import Verif.Model.Image
import Verif.Model.Pixelwise

/-!
# Images made from nothing (image_operations.h:292-477), sign and size tests (46-258)

A generator is a state machine `σ → α × σ`; random number engines with their distributions are such
machines.
-/

namespace TinyDIP.Gen

open TinyDIP

variable {α β σ : Type}

/-- image_operations.h:292-298, `zeros(sizes...)`. -/
def zeros (zero : α) (sizes : List Nat) : Image α := Image.ofSizes zero sizes

/-- image_operations.h:300-307, `zeros(range of sizes)`. -/
def zerosRange (zero : α) (sizes : List Nat) : Res (Image α) := Image.ofSizeRange zero sizes

/-- image_operations.h:309-316 `ones(sizes...)` and 318-325 `nan(sizes...)`; `v` is one or NaN. -/
def filled (zero v : α) (sizes : List Nat) : Image α := (zeros zero sizes).setAllValue v

/-- `int` arithmetic after the conversion from `size_t`: the value modulo 2^32 in the signed range. Used at
image_operations.h 369. -/
def toInt32 (n : Int) : Int := (n + 2 ^ 31) % 2 ^ 32 - 2 ^ 31

/-- image_operations.h:369, `std::reduce(sizes, 1, std::multiplies())`: the accumulator is an `int`, each
product is computed in `size_t` and converted back. (With four or more sizes a library may also multiply
two accumulators as `int`; the sequential order is modelled.) -/
def intCount (sizes : List Nat) : Int := sizes.foldl (fun acc (s : Nat) => toInt32 (acc * (s : Int))) 1

/-- `n` calls of a generator: the results in order and the state afterwards. `std::ranges::generate`,
image_operations.h 371. -/
def draws (gen : σ → α × σ) : Nat → σ → List α × σ
  | 0, s => ([], s)
  | n + 1, s =>
    let (v, s') := gen s
    let (vs, s'') := draws gen n s'
    (v :: vs, s'')

/-- image_operations.h:361-374, `generate(gen, sizes)`: a vector of `count` elements (a negative count
becomes a huge `size_t` and throws `std::length_error`, a `std::logic_error`), filled by a copy of the
generator. The second result is the state of that copy. -/
def generate (gen : σ → α × σ) (sizes : List Nat) (s : σ) : Res (Image α × σ) :=
  if intCount sizes < 0 then .throw .logic
  else do
    let (vs, s') := draws gen (intCount sizes).toNat s
    let im ← Image.ofData vs sizes
    .ok (im, s')

/-- image_operations.h:376-385, `generate(gen, sizes...)` for `int` sizes: each is converted to `size_t`. -/
def generateInts (gen : σ → α × σ) (sizes : List Int) (s : σ) : Res (Image α × σ) :=
  generate gen (sizes.map fun n => (n % (W : Int)).toNat) s

/-- image_operations.h:387-408, `rand(urbg, sizes...)`; `dist` is `uniform_real_distribution{}` on the
engine. -/
def rand (dist : σ → α × σ) (sizes : List Nat) (s : σ) : Res (Image α × σ) := generate dist sizes s

/-- image_operations.h:410-425, `rand(urbg)`: one pixel, 1 x 1. -/
def rand1 (dist : σ → α × σ) (s : σ) : Res (Image α × σ) := do
  let (v, s') := dist s
  let im ← Image.ofData [v] [1, 1]
  .ok (im, s')

/-- image_operations.h:427-445, `randi(urbg, {lo, hi}, sizes...)`: `uniform_int_distribution{lo, hi}`
requires `lo <= hi`. Without sizes the image is one-dimensional with one pixel. -/
def randi (dist : Int → Int → σ → Int × σ) (lo hi : Int) (sizes : List Nat) (s : σ) :
    Res (Image Int × σ) :=
  if hi < lo then .ub
  else if sizes.isEmpty then generate (dist lo hi) [1] s
  else generate (dist lo hi) sizes s

/-- image_operations.h:457-477, `randi(max, sizes...)` and `randi(urbg, max)`: the range starts at one. -/
def randiMax (dist : Int → Int → σ → Int × σ) (max : Int) (sizes : List Nat) (s : σ) :
    Res (Image Int × σ) := randi dist 1 max sizes s

/-! ### Sign tests, image_operations.h:53-164 -/

/-- The conditions on a pixel. image_operations.h 57-85, 99-127, 141-169. -/
inductive Sign
  | positive | nonNegative | zero | negative | nonPositive
  deriving DecidableEq, Repr

/-- The lambdas `element > 0`, `>= 0`, `== 0`, `< 0`, `<= 0`. image_operations.h 57, 64, 71, 78, 85. -/
def Sign.test [Zero α] [LE α] [LT α] [DecidableEq α] [DecidableLE α] [DecidableLT α] : Sign → α → Bool
  | .positive, v => decide (v > 0)
  | .nonNegative, v => decide (v ≥ 0)
  | .zero, v => decide (v = 0)
  | .negative, v => decide (v < 0)
  | .nonPositive, v => decide (v ≤ 0)

section
variable [Zero α] [LE α] [LT α] [DecidableEq α] [DecidableLE α] [DecidableLT α]

/-- image_operations.h:53-86, `all_positive`, `all_non_negative`, `all_zero`, `all_negative`,
`all_non_positive`. -/
def allSign (s : Sign) (input : Image α) : Bool := allOf input s.test

/-- image_operations.h:95-128, the `any_` versions. -/
def anySign (s : Sign) (input : Image α) : Bool := anyOf input s.test

/-- image_operations.h:137-170, the `none_` versions. -/
def noneSign (s : Sign) (input : Image α) : Bool := noneOf input s.test

end

/-! ### Size tests, image_operations.h:172-258 -/

/-- image_operations.h:172-176, `is_width_same`. -/
def isWidthSame (x : Image α) (y : Image β) : Bool := decide (x.width = y.width)

/-- image_operations.h:184-188, `is_height_same`. -/
def isHeightSame (x : Image α) (y : Image β) : Bool := decide (x.height = y.height)

/-- image_operations.h:196-200, `is_size_same`. -/
def isSizeSame (x : Image α) (y : Image β) : Bool := isWidthSame x y && isHeightSame x y

/-- image_operations.h:202-206, `is_size_same` of three images. -/
def isSizeSame3 (x y z : Image α) : Bool := isSizeSame x y && isSizeSame y z

/-- image_operations.h:246-251, `check_width_same`. -/
def checkWidthSame (x y : Image α) : Res Unit := if !isWidthSame x y then .throw .runtime else .ok ()

/-- image_operations.h:253-258, `check_height_same`. -/
def checkHeightSame (x y : Image α) : Res Unit := if !isHeightSame x y then .throw .runtime else .ok ()

end TinyDIP.Gen
