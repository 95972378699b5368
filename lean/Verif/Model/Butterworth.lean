import Verif.Model.Interp
import Mathlib.Analysis.SpecialFunctions.Pow.Real

/-!
# The Butterworth fisheye (image_operations.h:4435-4463)

Floating-point numbers are exact real numbers.
-/

namespace TinyDIP.Bw

open TinyDIP Image

variable {α : Type}

/-- image_operations.h:4452: `1 / pow(1 + pow(distance / D0, 2 * N), 0.5)` for a `distance ≥ 0`; `none` is
NaN. `0 / 0` is NaN, `pow(NaN, 0)` is 1, a positive number divided by zero is infinite, `pow(0, negative)` is infinite and
`1 / infinity` is zero. Simplification: for a negative `D0` (where the result depends on `2 * N` being an
even integer) the model says NaN. -/
noncomputable def weight (D0 N distance : ℝ) : Option ℝ :=
  if 0 < D0 then
    if distance = 0 ∧ N < 0 then some 0
    else some (1 / (1 + (distance / D0) ^ (2 * N)) ^ (0.5 : ℝ))
  else if D0 = 0 then
    if distance = 0 ∧ N ≠ 0 then none
    else if 0 < N then some 0
    else if N = 0 then some (1 / (1 + 1 : ℝ) ^ (0.5 : ℝ))
    else some 1
  else none

/-- image_operations.h:4448-4459, the body of the loops. Converting NaN to `std::size_t` is undefined. -/
noncomputable def pixel (input : Image α) (D0 N : ℝ) (output : Image α) (x y : Nat) : Res (Image α) :=
  let distanceX : ℝ := (x : ℝ) - (input.width : ℝ) / 2
  let distanceY : ℝ := (y : ℝ) - (input.height : ℝ) / 2
  let distance := Real.sqrt (distanceX ^ 2 + distanceY ^ 2)
  let angle := Complex.arg ⟨distanceX, distanceY⟩
  match weight D0 N distance with
  | none => .ub
  | some wgt => do
    let newDistance := distance * wgt
    let newX := newDistance * Real.cos angle
    let newY := newDistance * Real.sin angle
    let v ← input.at2 x y
    let tx ← toSize (newX + (input.width : ℝ) / 2)
    let ty ← toSize (newY + (input.height : ℝ) / 2)
    output.set2 tx ty v

/-- image_operations.h:4435-4463, `butterworth_fisheye`; `zero` is the value of a new pixel. -/
noncomputable def butterworthFisheye (zero : α) (input : Image α) (D0 N : ℝ) : Res (Image α) :=
  if input.dim ≠ 2 then .throw .runtime
  else pixFor (iterYX input.width input.height) (fun out x y => pixel input D0 N out x y)
    (Image.ofSizes zero [input.width, input.height])

end TinyDIP.Bw
