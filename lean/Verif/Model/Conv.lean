import Verif.Model.Geometry
import Mathlib.Algebra.Ring.Defs

/-!
# Convolution and windowed filters (image_operations.h)
-/

namespace TinyDIP

open Image

variable {α : Type}

/-- The values of `for (std::ptrdiff_t i = a; i <= b; ++i)`. The loops of image_operations.h 598, 604. -/
def intRange (a b : Int) : List Int := (List.range (b - a + 1).toNat).map fun (k : Nat) => a + (k : Int)

/-- `p[i]` for a pointer `p` to element `base` of a vector. Pointers of image_operations.h 600-601. -/
def pget (l : List α) (base : Nat) (i : Int) : Res α :=
  if (base : Int) + i < 0 then .ub else vget l ((base : Int) + i).toNat

/-- image_operations.h:581-611: the sum of one output pixel of `conv2`; `yf` is the flipped
kernel. Both element types are taken to be the common type already. -/
def conv2Pixel [Zero α] [Add α] [Mul α] (x yf : Image α) (out_x out_y : Nat) : Res α :=
  let x_h : Int := x.height
  let x_w : Int := x.width
  let y_h : Int := yf.height
  let y_w : Int := yf.width
  let y1_start : Int := max 0 ((out_y : Int) - y_h + 1)
  let y1_end : Int := min (x_h - 1) (out_y : Int)
  let x1_start : Int := max 0 ((out_x : Int) - y_w + 1)
  let x1_end : Int := min (x_w - 1) (out_x : Int)
  let offset_y : Int := y_h - 1 - (out_y : Int)
  let offset_x : Int := y_w - 1 - (out_x : Int)
  loop (fun sum y1 => do
    let x_row ← x.posUnchecked [0, y1.toNat]
    let y_f_row ← yf.posUnchecked [0, (offset_y + y1).toNat]
    loop (fun sum x1 => do
      let a ← pget x.data x_row x1
      let b ← pget yf.data y_f_row (offset_x + x1)
      .ok (sum + a * b)) (intRange x1_start x1_end) sum) (intRange y1_start y1_end) 0

/-- image_operations.h:549-626, `conv2(policy, x, y, is_size_same)`; `order` is the order in which
the indices `0 .. out_w * out_h - 1` are processed. -/
def conv2Ord [Zero α] [Add α] [Mul α] (order : List Nat) (x y : Image α) (is_size_same : Bool) :
    Res (Image α) := do
  let out_w := wsub (wadd x.width y.width) 1
  let out_h := wsub (wadd x.height y.height) 1
  let output := ofSizes 0 [out_w, out_h]
  let y_flipped ← ofData y.data.reverse y.size
  let output ← loop (fun (output : Image α) idx => do
    let out_y ← udiv idx out_w
    let out_x ← umod idx out_w
    let sum ← conv2Pixel x y_flipped out_x out_y
    output.set2u out_x out_y sum) order output
  if is_size_same then subimage2d output 0 x.width x.height (out_w / 2) (out_h / 2) 0
  else .ok output

/-- image_operations.h:628-640: the sequential instance. -/
def conv2 [Zero α] [Add α] [Mul α] (x y : Image α) (is_size_same : Bool) : Res (Image α) :=
  conv2Ord (List.range (wmul (wsub (wadd x.width y.width) 1) (wsub (wadd x.height y.height) 1)))
    x y is_size_same

/-- image.h:401-405, `getSize(index)`: undefined behaviour past the end. -/
def sizeAt (im : Image α) (i : Nat) : Res Nat := vget im.size i

/-- image_operations.h:643-691, `convolution_detail` with multiplication as the operation. The index
variables are restored after each iteration, so each iteration starts from the given ones. -/
def convDetail [Add α] [Mul α] (image kernel : Image α) :
    (level : Nat) → (oi i2 i3 : Nat) → Image α → Res (Image α)
  | level, oi, i2, i3, output => do
    let ks ← sizeAt kernel level
    let is ← sizeAt image level
    forUp ks (fun output i =>
      forUp is (fun output j => do
        let oi := wadd oi (wmul (wadd i j) (output.stride level))
        let i2 := wadd i2 (wmul j (image.stride level))
        let i3 := wadd i3 (wmul i (kernel.stride level))
        match level with
        | 0 => do
          let v ← output.get oi
          let a ← image.get i2
          let b ← kernel.get i3
          output.setIndex oi (v + a * b)
        | level + 1 => convDetail image kernel level oi i2 i3 output) output) output

/-- image_operations.h:5734-5752, `get_center_location`: `size / 2.0` truncated. -/
def centerLocation (im : Image α) : List Nat := im.size.map (· / 2)

/-- image_operations.h:704-733, `convolution`. With `is_size_same` the code crops `image`, not
`output`. A default-constructed image (no dimensions) makes `getSize().size() - 1` wrap around and
the first `getSize(level)` undefined. -/
def convolution [Zero α] [Add α] [Mul α] (image kernel : Image α) (is_size_same : Bool) :
    Res (Image α) := do
  let output_size := List.zipWith (fun l r => wsub (wadd l r) 1) image.size kernel.size
  let output ← ofSizeRange 0 output_size
  let output ← convDetail image kernel (wsub image.size.length 1) 0 0 0 output
  if is_size_same then subimage image 0 image.size (centerLocation image) 0 else .ok output

/-- image_operations.h:5776-5902, `windowed_filter`. `order` is the order in which the linear indices
are processed; the progress callback has no effect on the result. -/
def windowedFilterOrd (z : α) (order : List Nat) (input : Image α) (window_sizes : List Nat)
    (filter : Image α → Res α) (b : Boundary) (value : α) : Res (Image α) :=
  if input.dim ≠ window_sizes.length then .throw .runtime
  else do
    let padded_image ←
      (if input.dim = 2 then paddedImage z input (window_sizes.getD 0 0) (window_sizes.getD 1 0) b value
      else .ok input)
    let padded_image ← loop (fun (padded_image : Image α) idx => do
      let indices ← linearToIndices idx input.size
      let padded_indices :=
        if input.dim = 2 then List.zipWith wadd indices window_sizes else indices
      let window ← subimage padded_image z window_sizes padded_indices z
      let v ← filter window
      padded_image.setAt padded_indices v) order padded_image
    subimage padded_image z input.size (padded_image.size.map (· / 2)) z

/-- `windowed_filter` in program order (see `windowedFilterOrd`). image_operations.h 5776-5902. -/
def windowedFilter (z : α) (input : Image α) (window_sizes : List Nat)
    (filter : Image α → Res α) (b : Boundary) (value : α) : Res (Image α) :=
  windowedFilterOrd z (List.range input.count) input window_sizes filter b value

end TinyDIP
