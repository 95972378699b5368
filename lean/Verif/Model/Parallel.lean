import Verif.Spec.Parallel
import Verif.Model.Geometry
import Verif.Model.Interp

/-!
# The iterations of the parallel loops as threads

The loops of `image_operations.h` that run under OpenMP or an execution policy, access by access. An image is
a vector of elements; `cellOf` is the element of a pixel. Values that the iterations only read and that no one
writes (sizes, parameters) are constants.
-/

namespace TinyDIP.Par

variable {α β : Type}

/-- image.h 269-291: the index `at_without_boundary_check(x, y)` uses in an image of width `w`, computed in
`std::size_t`. -/
def cellOf (w x y : Nat) : Nat := wadd x (wmul w y)

/-- The iterations of a loop over the pixels of a `w × h` image (`omp parallel for collapse(2)`):
iteration `(x, y)` reads pixel `rd x y` of the source, of width `w`, and writes the pixel `wr x y` of the
destination, of width `w'`. The loop bodies of image_operations.h 1930-1938, 5212-5220, 5234-5242,
5256-5266. -/
def copyLoop (α : Type) (w h ws wd : Nat) (rd wr : Nat → Nat → Nat × Nat) (p : Nat × Nat) :
    Prog Addr (Cell α α) :=
  if p.1 < w ∧ p.2 < h then
    .load (.src (cellOf ws (rd p.1 p.2).1 (rd p.1 p.2).2)) fun v =>
      .store (.dst (cellOf wd (wr p.1 p.2).1 (wr p.1 p.2).2)) v .stop
  else .stop

/-- image_operations.h 5212-5220, `flip_horizontal`. -/
def flipHLoop (α : Type) (w h : Nat) : Nat × Nat → Prog Addr (Cell α α) :=
  copyLoop α w h w w (fun x y => (x, y)) fun x y => (wsub (wsub w x) 1, y)

/-- image_operations.h 5234-5242, `flip_vertical`. -/
def flipVLoop (α : Type) (w h : Nat) : Nat × Nat → Prog Addr (Cell α α) :=
  copyLoop α w h w w (fun x y => (x, y)) fun x y => (x, wsub (wsub h y) 1)

/-- image_operations.h 5256-5266, `flip_horizontal_vertical`. -/
def flipHVLoop (α : Type) (w h : Nat) : Nat × Nat → Prog Addr (Cell α α) :=
  copyLoop α w h w w (fun x y => (x, y)) fun x y => (wsub (wsub w x) 1, wsub (wsub h y) 1)

/-- image_operations.h 1930-1938, `subimage2` of an image of width `w`; the part is `pw × ph`. -/
def subimageLoop (α : Type) (w pw ph startx starty : Nat) : Nat × Nat → Prog Addr (Cell α α) :=
  copyLoop α pw ph w pw (fun x y => (wadd startx x, wadd starty y)) fun x y => (x, y)

/-- A loop over the rows of a `w × h` picture: iteration `y` treats the pixels `x` of its row from left to
right; it reads pixel `rd x y` of the source and writes pixel `wr x y` of the destination. The loop bodies of
image_operations.h 2250-2259 and 5188-5197. -/
def rowLoop (α : Type) (w h ws wd : Nat) (rd wr : Nat → Nat → Nat × Nat) (y : Nat) : Prog Addr (Cell α α) :=
  if y < h then
    (List.range w).foldr (fun x next =>
      .load (.src (cellOf ws (rd x y).1 (rd x y).2)) fun v =>
        .store (.dst (cellOf wd (wr x y).1 (wr x y).2)) v next) .stop
  else .stop

/-- image_operations.h 2250-2259, `resize_nearest_neighbor` of a `ws × hs` image to `w × h`. -/
noncomputable def nearestLoop (α : Type) (ws hs w h : Nat) : Nat → Prog Addr (Cell α α) :=
  rowLoop α w h ws w (fun x y => (⌊(x : ℝ) * ((ws : ℝ) / w)⌋₊, ⌊(y : ℝ) * ((hs : ℝ) / h)⌋₊)) fun x y => (x, y)

/-- image_operations.h 5188-5197, `transpose` with an execution policy. -/
def transposeLoop (α : Type) (w h : Nat) : Nat → Prog Addr (Cell α α) :=
  rowLoop α w h w h (fun x y => (x, y)) fun x y => (y, x)

/-- One element after another, in any order: image_operations.h 1534-1538 `apply_each_pixel_openmp`, 1158-1164
`convert_image`, and `std::transform` under a policy (1515-1526, 2045-2068). -/
def elementLoop (n : Nat) (op : α → β) (i : Nat) : Prog Addr (Cell α β) :=
  if i < n then .load (.src i) fun v => .store (.dst i) (op v) .stop else .stop

/-! ## Loops with shared writes -/

/-- Read the cells one after another: the copy of a window, image_operations.h 5872-5888. -/
def loads {L : Type} (cells : List L) (k : List α → Prog L fun _ => α) : Prog L fun _ => α :=
  match cells with
  | [] => k []
  | c :: cs => .load c fun v => loads cs fun vs => k (v :: vs)

/-- The elements of the window of size `wx × wy` around pixel `(x, y)` of a picture of width `w`, in the
picture padded by `wx` and `wy` on each side. image_operations.h 5872-5888 and `subimage` 1809-1850. -/
def windowCells (w wx wy x y : Nat) : List Nat :=
  (iterYX wx wy).map fun p => (x + wx + p.1 - wx / 2) + (w + 2 * wx) * (y + wy + p.2 - wy / 2)

/-- image_operations.h 5865-5893, `windowed_filter` on a `w × h` picture: the window is read from the padded
picture and the result is written back to its centre in the same picture. Indices are taken not to overflow. -/
def windowLoop (w h wx wy : Nat) (filter : List α → α) (idx : Nat) : Prog Nat fun _ => α :=
  if idx < w * h then
    loads (windowCells w wx wy (idx % w) (idx / w)) fun vs =>
      .store ((idx % w + wx) + (w + 2 * wx) * (idx / w + wy)) (filter vs) .stop
  else .stop

/-- The elements of the source and the words of a `std::vector<bool>`. image_operations.h 1528-1541. -/
inductive BitAddr
  | src (i : Nat)
  | word (k : Nat)

/-- A word holds 64 bits. Not from the repository: the layout of `std::vector<bool>`. -/
abbrev BitCell (α : Type) : BitAddr → Type
  | .src _ => α
  | .word _ => Nat → Bool

/-- `elementLoop` with a `std::vector<bool>` as destination: writing element `i` reads the word of its bit and
writes it back with the bit changed. image_operations.h 1528-1541, 2045-2068 for results of type `bool`. -/
def packedLoop (n : Nat) (op : α → Bool) (i : Nat) : Prog BitAddr (BitCell α) :=
  if i < n then
    .load (.src i) fun v => .load (.word (i / 64)) fun b =>
      .store (.word (i / 64)) (Function.update b (i % 64) (op v)) .stop
  else .stop

/-- The length of a vector that grows, and its elements. image_operations.h 6737-6773. -/
inductive VecAddr
  | len
  | slot (i : Nat)

/-- Types of these cells. image_operations.h 6737-6773. -/
abbrev VecCell (α : Type) : VecAddr → Type
  | .len => Nat
  | .slot _ => α

/-- image_operations.h 6737-6773, `find_local_extrema`: an iteration that finds a point appends it with
`emplace_back` (taken to have enough capacity). `hit` is what the iteration finds; its reads of the three
pictures, which nobody writes, are left out. -/
def appendLoop {ι : Type} (hit : ι → Option α) (i : ι) : Prog VecAddr (VecCell α) :=
  match hit i with
  | none => .stop
  | some p => .load .len fun n => .store (.slot n) p (.store .len (n + 1) .stop)

end TinyDIP.Par
