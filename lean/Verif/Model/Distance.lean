import Verif.Model.Arith
import Mathlib.Analysis.Real.Sqrt

/-!
# Distances between images and points (image_operations.h:3947-4257)

Real numbers stand for `double`. Not modelled: `euclidean_distance` of two ranges (4114-4160) calls the
name of the functor class `squared_euclidean_distance` like a function and cannot be instantiated; the
functor itself is `sqEuclid` in Model/Pixelwise.lean. Signed integer elements whose difference overflows
are not modelled.
-/

namespace TinyDIP.Distance

open TinyDIP

variable {α β C : Type}

/-- basic_functions.h:1486-1517, `two_input_map_reduce`: the allowed results. One build runs `std::reduce`
over the mapped pairs (any order, any grouping), the other adds from the left, which is one of these. -/
def MapReduce2 (plus : β → β → β) (f : α → α → β) (init : β) (input1 input2 : List α) (r : Res β) : Prop :=
  if input1.length ≠ input2.length then r = .throw .runtime
  else ∃ v, r = .ok v ∧ StdReduce plus init (List.zipWith f input1 input2) v

/-- image_operations.h:4162-4200, `euclidean_distance` of two images with one channel, with or without an
execution policy: the allowed results. `sub` is `element1 - element2` in the elements' type (after
integral promotion), converted to `double`. -/
def Euclid (sub : α → α → ℝ) (input1 input2 : Image α) (r : Res ℝ) : Prop :=
  if input1.size ≠ input2.size then r = .throw .runtime
  else ∃ s, MapReduce2 (· + ·) (fun a b => sub a b ^ 2) 0 input1.data input2.data s ∧
    r = (do let v ← s; .ok (Real.sqrt v))

/-- `element1 - element2` for `double`. Used at image_operations.h 4183. -/
def subReal (a b : ℝ) : ℝ := a - b

/-- `element1 - element2` for 8-bit elements: computed in `int`. Used at image_operations.h 4183. -/
noncomputable def subU8 (a b : BitVec 8) : ℝ := (((a.toNat : Int) - (b.toNat : Int) : Int) : ℝ)

/-- `element1 - element2` for `unsigned int`: modulo 2^32. Used at image_operations.h 4183. -/
noncomputable def subU32 (a b : BitVec 32) : ℝ := ((a - b).toNat : ℝ)

/-- image_operations.h:4202-4222 and 4242-4256, `euclidean_distance` of two images with three channels:
pixels are subtracted, squared and added channel by channel, and the square root of every channel is
returned. The sizes of the images are not compared, only the numbers of pixels are (in
`two_input_map_reduce`). `sub` is the channel part of the pixel type's `operator-`. -/
def EuclidPx3 (sub : C → C → ℝ) (input1 input2 : Image (Px3 C)) (r : Res (Px3 ℝ)) : Prop :=
  ∃ s, MapReduce2 (Px3.map2 (· + ·))
      (fun p q => (⟨sub p.c0 q.c0 ^ 2, sub p.c1 q.c1 ^ 2, sub p.c2 q.c2 ^ 2⟩ : Px3 ℝ)) ⟨0, 0, 0⟩
      input1.data input2.data s ∧
    r = (do let v ← s; .ok ⟨Real.sqrt v.c0, Real.sqrt v.c1, Real.sqrt v.c2⟩)

/-- The channel part of `RGB::operator-` (base_types.h:59-67): the result is stored in 8 bits. -/
noncomputable def subWrap8 (a b : BitVec 8) : ℝ := ((a - b).toNat : ℝ)

/-- image_operations.h:4223-4241, `euclidean_distance` of two `MultiChannel<double, n>` images; other
element types do not compile, because the sums keep the type of the elements. A pixel is the list of its
channels. -/
def EuclidMulti (n : Nat) (input1 input2 : Image (List ℝ)) (r : Res (List ℝ)) : Prop :=
  ∃ s, MapReduce2 (List.zipWith (· + ·)) (fun p q => (List.zipWith subReal p q).map (· ^ 2))
      (List.replicate n 0) input1.data input2.data s ∧
    r = (do let v ← s; .ok (v.map Real.sqrt))

/-- image_operations.h:3971-3993, `euclidean_distance` of two points of dimension `n`; `order` is the
order in which the policy version computes the differences. Both points have the same dimension by their
type. `val` is the conversion of a coordinate to `double`, which precedes the subtraction. -/
noncomputable def euclidPoint (val : α → ℝ) (order : List Nat) (p1 p2 : List α) : Res ℝ := do
  let diff ← loop (fun d i => do
    let a ← vget p1 i
    let b ← vget p2 i
    vset d i (val a - val b)) order (List.replicate p1.length 0)
  .ok (Real.sqrt ((List.zipWith (· * ·) diff diff).foldl (· + ·) 0))

/-- image_operations.h:3947-3957, `manhattan_distance` of one-channel images; `val` is the conversion of
an element to the type in which differences are computed (`int` for 8-bit elements). -/
noncomputable def manhattanVal (val : C → ℝ) (input1 input2 : Image C) : Res ℝ :=
  if input1.size ≠ input2.size then .throw .runtime
  else do
    let d ← pixelwiseTransform2 (fun a b => absDiff (val a) (val b)) input1 input2
    .ok (d.data.foldl (· + ·) 0)

/-- image_operations.h:3959-3969, `manhattan_distance` of `RGB`, `RGB_DOUBLE` and `HSV` images. -/
noncomputable def manhattanPx3 (zero : C) (val : C → ℝ) (input1 input2 : Image (Px3 C)) : Res (List ℝ) :=
  if input1.size ≠ input2.size then .throw .runtime
  else Arith.applyEachSingle2 zero 3 (fun p q => manhattanVal val p q) input1 input2

end TinyDIP.Distance
