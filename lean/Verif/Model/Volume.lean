import Verif.Model.Image
import Verif.Model.Pixelwise

/-!
# `VolumetricImage<ElementT>` (cube.h, cube_operations.h)

Not modelled because it cannot be instantiated: `operator+=`, `-=`, `*=`, `/=`, `operator+`, `operator-`,
`subtract` (all call `check_size_same`, whose `is_width_same` calls `getSizeX()`, a member that does not
exist, cube_operations.h:21), and `multiplies`, `divides` with an execution policy (they call
`voxelwiseOperation(policy, ...)` with two images; only a version with one `Image` exists).
-/

namespace TinyDIP

/-- cube.h:183-186, the data members. -/
structure Vol (α : Type) where
  width : Nat
  height : Nat
  depth : Nat
  data : List α
  deriving DecidableEq, Repr

namespace Vol

variable {α β γ : Type}

/-- `width * height * depth` in `size_t`. cube.h 34, 40, 59. -/
def volume (w h d : Nat) : Nat := wmul (wmul w h) d

/-- cube.h:30-34, `VolumetricImage(newWidth, newHeight, newDepth)`: `width(width)` and `height(height)`
initialise the members with themselves, i.e. read uninitialised variables. -/
def ofSizes (_zero : α) (_newWidth _newHeight _newDepth : Nat) : Res (Vol α) := .ub

/-- cube.h:36-40, `VolumetricImage(int, int, int, initVal)`. -/
def ofInts (newWidth newHeight newDepth : Int) (initVal : α) : Vol α :=
  let w := (newWidth % (W : Int)).toNat
  let h := (newHeight % (W : Int)).toNat
  let d := (newDepth % (W : Int)).toNat
  ⟨w, h, d, List.replicate (volume w h d) initVal⟩

/-- cube.h:42-52, `VolumetricImage(vector, newWidth, newHeight, newDepth)`. -/
def ofData (input : List α) (w h d : Nat) : Res (Vol α) :=
  if input.length ≠ volume w h d then .throw .runtime else .ok ⟨w, h, d, input⟩

/-- The position `z * width * height + y * width + x` in `size_t`. cube.h 67. -/
def position (w h x y z : Nat) : Nat := wadd (wadd (wmul (wmul z w) h) (wmul y w)) x

/-- cube.h:188-196, `checkBoundary`. -/
def checkBoundary (v : Vol α) (x y z : Nat) : Res Unit :=
  if x ≥ v.width then .throw .outOfRange
  else if y ≥ v.height then .throw .outOfRange
  else if z ≥ v.depth then .throw .outOfRange
  else .ok ()

/-- cube.h:79-83, `at` (read). -/
def at' (v : Vol α) (x y z : Nat) : Res α := do
  v.checkBoundary x y z
  vget v.data (position v.width v.height x y z)

/-- cube.h:73-77, writing through the reference returned by `at`. -/
def setAt (v : Vol α) (x y z : Nat) (a : α) : Res (Vol α) := do
  v.checkBoundary x y z
  let d ← vset v.data (position v.width v.height x y z) a
  .ok ⟨v.width, v.height, v.depth, d⟩

/-- cube.h:54-71, `VolumetricImage(vector of images)`; `input[0]` of an empty vector is undefined. -/
def ofImages (zero : α) (input : List (Image α)) : Res (Vol α) := do
  let first ← vget input 0
  let w := first.width
  let h := first.height
  let data ← forUp input.length (fun data z =>
    forUp h (fun data y =>
      forUp w (fun data x => do
        let im ← vget input z
        let v ← im.at2 x y
        vset data (position w h x y z) v) data) data)
    (List.replicate (volume w h input.length) zero)
  .ok ⟨w, h, input.length, data⟩

/-- cube_operations.h:147-163, `voxelwiseOperation` of one volume. -/
def voxelwise (op : α → β) (input : Vol α) : Res (Vol β) :=
  ofData (input.data.map op) input.width input.height input.depth

/-- cube_operations.h:147-163, `voxelwiseOperation` of two volumes: the elements run to the end of the
first, the sizes are those of the first. -/
def voxelwise2 (op : α → β → γ) (input1 : Vol α) (input2 : Vol β) : Res (Vol γ) := do
  let d ← Image.stdTransform2 op input1.data input2.data
  ofData d input1.width input1.height input1.depth

/-- cube_operations.h:182-193, `plus(v1, ..., vn)`; the pack is a list, no arguments do not compile. -/
def plus (op : α → α → α) : List (Vol α) → Res (Vol α)
  | [] => .ub
  | [v] => .ok v
  | v :: w :: rest => do
    let r ← plus op (w :: rest)
    voxelwise2 op v r

/-- cube_operations.h:224-228 `multiplies`, 257-261 `divides`, 281-285 `modulus` of two volumes. -/
def combine (op : α → α → α) (input1 input2 : Vol α) : Res (Vol α) := voxelwise2 op input1 input2

/-- cube_operations.h:230-246, `multiplies(volume, scalar)` and `multiplies(scalar, volume)`: the sizes
pass through `int`. -/
def scale (op : α → α → α) (input1 : Vol α) (times : α) : Res (Vol α) :=
  let toInt (n : Nat) : Int := ((n : Int) + 2 ^ 31) % 2 ^ 32 - 2 ^ 31
  combine op input1 (ofInts (toInt input1.width) (toInt input1.height) (toInt input1.depth) times)

/-- cube_operations.h:287-291, `negate`. -/
def negate (neg : α → α) (input1 : Vol α) : Res (Vol α) := voxelwise neg input1

end Vol
end TinyDIP
