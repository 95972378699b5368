import Verif.Model.Image

/-!
# Drawing (image_operations.h 6184-6326)
-/

namespace TinyDIP

/-- A `long`/`std::ptrdiff_t` result: undefined behaviour when it is not representable. Used for
image_operations.h 6260-6276, 6295-6324. -/
def chkLong (v : Int) : Res Int := if -(2 ^ 63) ≤ v ∧ v < 2 ^ 63 then .ok v else .ub

/-- `static_cast<long>` of a `std::size_t`. Used at image_operations.h 6290-6299. -/
def toLong (n : Nat) : Int := if n < 2 ^ 63 then n else (n : Int) - 2 ^ 64

/-- The iterations of `for (i = a; i <= b; ++i)` in `size_t`: endless (undefined behaviour for an OpenMP
loop) when `b` is the largest value. Used at image_operations.h 6199-6201. -/
def upToIncl (a b : Nat) : Res (List Nat) :=
  if b = W - 1 then .ub else .ok (List.range' a (b + 1 - a))

namespace Image
variable {α : Type}

/-- image_operations.h 6207-6208: the squared distance is less than the squared radius. The code
computes in `double`; here exactly. -/
def insideDisc (px py radius x y : Nat) : Bool :=
  decide (((x : Int) - px) ^ 2 + ((y : Int) - py) ^ 2 < (radius : Int) ^ 2)

/-- image_operations.h 6203-6211: body of the loops of `draw_point`. -/
def drawPointBody (width height px py radius : Nat) (v : α) (out : Image α) (p : Nat × Nat) :
    Res (Image α) :=
  if p.1 ≥ width ∨ p.2 ≥ height then .ok out
  else if insideDisc px py radius p.1 p.2 then out.set2u p.1 p.2 v else .ok out

/-- image_operations.h 6198-6202: the iterations of the collapsed loops, in program order. -/
def drawPointIters (px py radius : Nat) : Res (List (Nat × Nat)) := do
  let ys ← upToIncl (wsub py radius) (wadd py radius)
  let xs ← upToIncl (wsub px radius) (wadd px radius)
  .ok (ys.flatMap fun y => xs.map fun x => (x, y))

/-- image_operations.h 6185-6215 `draw_point`, with the iterations executed in the order given by
`sched` (`#pragma omp parallel for collapse(2)`). -/
def drawPointSched (sched : List (Nat × Nat) → List (Nat × Nat)) (im : Image α) (px py : Nat) (v : α)
    (radius : Nat) : Res (Image α) := do
  let iters ← drawPointIters px py radius
  loop (drawPointBody im.width im.height px py radius v) (sched iters) im

/-- image_operations.h 6185-6215 `draw_point`, sequentially. -/
def drawPoint (im : Image α) (px py : Nat) (v : α) (radius : Nat) : Res (Image α) :=
  drawPointSched id im px py v radius

/-- image_operations.h 6218-6232 `draw_points`. -/
def drawPoints (im : Image α) (points : List (Nat × Nat)) (v : α) (radius : Nat) : Res (Image α) :=
  loop (fun out p => drawPoint out p.1 p.2 v radius) points im

/-- `size_t` plus `ptrdiff_t`: the signed operand converts to `size_t` and the sum wraps. Used at
image_operations.h 6269-6276. -/
def offs (p : Nat) (d : Int) : Nat := (((p : Int) + d) % 2 ^ 64).toNat

/-- image_operations.h 6269-6276: the eight offsets drawn for `(x, y)`, in program order. -/
def octants (x y : Int) : List (Int × Int) :=
  [(x, y), (-x, y), (x, -y), (-x, -y), (y, x), (-y, x), (y, -x), (-y, -x)]

/-- image_operations.h 6269-6276: `output.set(make_tuple(px + dx, py + dy), draw_value)`, whose
result is ignored. -/
def setOffs (px py : Nat) (v : α) (out : Image α) (d : Int × Int) : Res (Image α) := do
  let r ← out.setTuple [offs px d.1, offs py d.2] v
  .ok r.1

/-- image_operations.h 6262-6267: decrement `y`, compare, revert. The comparison converts the signed
sum to `size_t`. -/
def circleStep (radius : Nat) (x y : Int) : Res Int := do
  let y1 ← chkLong (y - 1)
  let xx ← chkLong (x * x)
  let yy ← chkLong (y1 * y1)
  let s ← chkLong (xx + yy)
  .ok (if (s % 2 ^ 64).toNat < wmul radius radius then y else y1)

/-- image_operations.h 6260-6277: the loop of `draw_circle`; `none` when it has not ended after
`fuel` iterations. -/
def circleLoop (px py radius : Nat) (v : α) : Nat → Int → Int → Image α → Option (Res (Image α))
  | 0, _, _, _ => none
  | fuel + 1, x, y, out =>
    if x ≤ y then
      match circleStep radius x y with
      | .ok y' =>
        match loop (setOffs px py v) (octants x y') out with
        | .ok out' => circleLoop px py radius v fuel (x + 1) y' out'
        | .throw e => some (.throw e)
        | .ub => some .ub
      | .throw e => some (.throw e)
      | .ub => some .ub
    else some (.ok out)

/-- image_operations.h 6238-6279 `draw_circle`. -/
def drawCircle (im : Image α) (px py radius : Nat) (v : α) (fuel : Nat) : Option (Res (Image α)) :=
  if im.dim ≠ 2 then some (.throw .runtime)
  else if radius = 0 then some (.ok im)
  else circleLoop px py radius v fuel 0 (toLong radius) im

/-- image_operations.h 6306-6309: draw the pixel when it lies in the image. -/
def linePlot (colour : α) (out : Image α) (x y : Int) : Res (Image α) :=
  if 0 ≤ x ∧ x < (out.width : Int) ∧ 0 ≤ y ∧ y < (out.height : Int) then
    out.set2 x.toNat y.toNat colour
  else .ok out

/-- image_operations.h 6313-6323: one step; gives the new `(x1, y1, err)`. -/
def lineStep (dx dy sx sy x y err : Int) : Res (Int × Int × Int) := do
  let e2 ← chkLong (2 * err)
  let (err1, x') ← (if e2 ≥ dy then do
      let e ← chkLong (err + dy)
      let x' ← chkLong (x + sx)
      .ok (e, x')
    else .ok (err, x) : Res (Int × Int))
  let (err2, y') ← (if e2 ≤ dx then do
      let e ← chkLong (err1 + dx)
      let y' ← chkLong (y + sy)
      .ok (e, y')
    else .ok (err1, y) : Res (Int × Int))
  .ok (x', y', err2)

/-- image_operations.h 6304-6324: the loop of `draw_line`; `none` when it has not ended after `fuel`
iterations. -/
def lineLoop (colour : α) (x2 y2 dx dy sx sy : Int) :
    Nat → Int → Int → Int → Image α → Option (Res (Image α))
  | 0, _, _, _, _ => none
  | fuel + 1, x, y, err, out =>
    match linePlot colour out x y with
    | .ok out' =>
      if x = x2 ∧ y = y2 then some (.ok out')
      else
        match lineStep dx dy sx sy x y err with
        | .ok (x', y', err') => lineLoop colour x2 y2 dx dy sx sy fuel x' y' err' out'
        | .throw e => some (.throw e)
        | .ub => some .ub
    | .throw e => some (.throw e)
    | .ub => some .ub

/-- image_operations.h 6298-6302: `dx`, `dy` and the initial `err`. -/
def lineStart (x1 y1 x2 y2 : Int) : Res (Int × Int × Int) := do
  let a ← chkLong (x2 - x1)
  let dx ← chkLong (a.natAbs : Int)
  let b ← chkLong (y2 - y1)
  let b' ← chkLong (b.natAbs : Int)
  let err ← chkLong (dx + -b')
  .ok (dx, -b', err)

/-- image_operations.h 6285-6326 `draw_line`. -/
def drawLine (im : Image α) (p1 p2 : Nat × Nat) (colour : α) (fuel : Nat) :
    Option (Res (Image α)) :=
  if im.dim ≠ 2 then some (.throw .runtime)
  else
    let x1 := toLong p1.1
    let y1 := toLong p1.2
    let x2 := toLong p2.1
    let y2 := toLong p2.2
    match lineStart x1 y1 x2 y2 with
    | .ok (dx, dy, err) =>
      lineLoop colour x2 y2 dx dy (if x1 < x2 then 1 else -1) (if y1 < y2 then 1 else -1)
        fuel x1 y1 err im
    | .throw e => some (.throw e)
    | .ub => some .ub

end Image
end TinyDIP
