import Verif.Spec.Grid
import Mathlib.Algebra.BigOperators.Group.Finset.Basic
import Mathlib.Algebra.Ring.Defs

/-!
# Specification vocabulary for convolution
-/

namespace TinyDIP

variable {α : Type}

/-- A `w × h` pixel function extended by zero to all integer coordinates. -/
def zeroExt [Zero α] (w h : Nat) (f : Nat → Nat → α) (a b : Int) : α :=
  if 0 ≤ a ∧ a < w ∧ 0 ≤ b ∧ b < h then f a.toNat b.toNat else 0

/-- The mathematical convolution of a `w1 × h1` and a `w2 × h2` pixel function at `(i, j)`:
`Σ x(k, l) y(i - k, j - l)`. -/
def convAt [CommRing α] (w1 h1 : Nat) (fx : Nat → Nat → α) (w2 h2 : Nat) (fy : Nat → Nat → α)
    (i j : Nat) : α :=
  (Finset.range h1).sum fun l => (Finset.range w1).sum fun k =>
    fx k l * zeroExt w2 h2 fy ((i : Int) - k) ((j : Int) - l)

/-- N-dimensional view of an image, through the checked accessor. -/
structure Image.ShowsN (im : Image α) (sizes : List Nat) (f : List Nat → α) : Prop where
  wf : im.WF
  size : im.size = sizes
  px : ∀ idx, InBounds sizes idx → im.at' idx = .ok (f idx)

/-- All coordinate tuples of an image with the given sizes. -/
def allIdx : List Nat → List (List Nat)
  | [] => [[]]
  | s :: ss => (allIdx ss).flatMap fun t => (List.range s).map fun i => i :: t

/-- `idx - a` as a coordinate tuple of an image with sizes `sizes`, if it is one. -/
def idxSub : (sizes idx a : List Nat) → Option (List Nat)
  | [], [], [] => some []
  | s :: ss, i :: is, a :: as =>
    if a ≤ i ∧ i - a < s then (idxSub ss is as).map fun t => (i - a) :: t else none
  | _, _, _ => none

/-- N-dimensional convolution at `idx`: the sum over all image coordinates `a` of
`image(a) * kernel(idx - a)`, the kernel being zero outside its range. -/
def convNAt [CommRing α] (isz : List Nat) (fi : List Nat → α) (ksz : List Nat) (fk : List Nat → α)
    (idx : List Nat) : α :=
  ((allIdx isz).map fun a =>
    match idxSub ksz idx a with
    | some b => fi a * fk b
    | none => 0).sum

end TinyDIP
