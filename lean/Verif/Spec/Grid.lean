import Verif.Model.Image
import Mathlib.Data.List.Forall2

/-!
# Specification vocabulary: pixel grids

Used in theorem statements only. A reader needs just these definitions to understand the
image theorems.
-/

namespace TinyDIP

/-- Coordinates `idx` lie inside an image with sizes `sizes`: same number of coordinates, each
below its size. -/
def InBounds (sizes idx : List Nat) : Prop := List.Forall₂ (· < ·) idx sizes

/-- Row-major position of a coordinate tuple, first coordinate fastest:
`idx₀ + size₀ * (idx₁ + size₁ * (...))`. -/
def rowMajor : (sizes idx : List Nat) → Nat
  | s :: ss, i :: is => i + s * rowMajor ss is
  | _, _ => 0

/-- A well-formed image: one element per pixel, the number of pixels is representable in
64 bits, and so is every size. -/
structure Image.WF {α : Type} (im : Image α) : Prop where
  len : im.data.length = im.size.prod
  fits : im.size.prod < 2 ^ 64
  sizes : ∀ s ∈ im.size, s < 2 ^ 64

/-- `im` is a well-formed `w × h` image whose pixel at `(x, y)`, as observed through the public
accessor `at(x, y)`, is `f x y`. -/
structure Image.Shows {α : Type} (im : Image α) (w h : Nat) (f : Nat → Nat → α) : Prop where
  wf : im.WF
  size : im.size = [w, h]
  px : ∀ x y, x < w → y < h → im.at2 x y = .ok (f x y)

/-- The pixel function `f` with the pixel at `(x, y)` replaced by `v`. -/
def updPx {α : Type} (f : Nat → Nat → α) (x y : Nat) (v : α) : Nat → Nat → α :=
  fun a b => if a = x ∧ b = y then v else f a b

/-- Reflection without repeating the edge: coordinate `X` of the padded axis, padding `e`, axis
length `n`. -/
def reflectCoord (n e X : Nat) : Nat :=
  if X < e then e - X else if X < e + n then X - e else 2 * (n - 1) - (X - e)

/-- Clamping: coordinate `X` of the padded axis, padding `e`, axis length `n`. -/
def clampCoord (n e X : Nat) : Nat :=
  if X < e then 0 else if X < e + n then X - e else n - 1

end TinyDIP
