import Verif.Model.Pixelwise
import Verif.Model.Conv

/-!
# Pictures with small integer elements

`sum`, `mean` and `conv2` compute in the element type. For an unsigned type of `n` bits the models of `Pixelwise` and
`Conv` are taken at `BitVec n`, whose operations wrap: `std::plus<std::uint8_t>` converts the `int` it computes back to
8 bits, and so does `sum += …` in `conv2`. (`conv2` of 16-bit elements is not covered: the product of two
`std::uint16_t` is an `int` and may overflow.)

For the element type `int` an overflow is undefined behaviour; here are the additions and the divisions that differ.
-/

namespace TinyDIP.IntEl

variable {n : Nat}

/-- `sum / count` in `mean` for an unsigned element type of at most 64 bits: the sum is converted to `std::size_t`, and
the quotient is an integer. Division by zero is undefined. image_operations.h 4312, 4321. -/
def divU (s : BitVec n) (count : Nat) : Res Nat :=
  if count = 0 then .ub else .ok (s.toNat / count)

/-- Whether an exact result is an `int`. -/
def isInt (x : Int) : Bool := decide (-2 ^ 31 ≤ x) && decide (x < 2 ^ 31)

/-- `std::plus<int>`: undefined when the exact sum is no `int`. The function object `f` of image_operations.h 4294,
4304; once an addition was undefined so is the whole reduction. -/
def plusInt (a b : Res Int) : Res Int := do
  let x ← a
  let y ← b
  if isInt (x + y) then .ok (x + y) else .ub

/-- image_operations.h 4289-4305: the outcomes of `sum` of a picture of `int`s. -/
def SumInt (im : Image Int) (r : Res Int) : Prop :=
  StdReduce plusInt (.ok 0) (im.data.map .ok) r

/-- `sum / count` in `mean` for `int` elements: the usual arithmetic conversions turn the `int` into a `std::size_t`,
modulo `2 ^ 64`. image_operations.h 4312, 4321. -/
def divInt (s : Int) (count : Nat) : Res Nat :=
  if count = 0 then .ub else .ok ((s % 2 ^ 64).toNat / count)

/-- image_operations.h 4307-4322: the outcomes of `mean` of a picture of `int`s. -/
def MeanInt (im : Image Int) (r : Res Nat) : Prop :=
  ∃ s, SumInt im s ∧ r = s.bind fun x => divInt x im.count

end TinyDIP.IntEl
