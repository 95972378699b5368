import Verif.Model.Special
import Verif.Model.Pixelwise
import Verif.Model.ImageIter

/-!
# Model: fitting a two-dimensional Gaussian with all values a `double` can have

`estimate_gaussian_parameters_2d` on pictures of `double` (Fit) with rounding, infinities and NaN. The exponential, the
square root and the solver of the damped equations are parameters: the statements hold whatever they return.
`std::transform_reduce` and the OpenMP reduction may add in any order and grouping; `std::max_element` scans from
the first pixel on.
-/

namespace TinyDIP.Sp

open TinyDIP Image Rnd Dbl

open scoped Classical

/-- image_operations.h 2842-2852 `GaussianParameters2D<double>`. -/
@[ext] structure ParD where
  amplitude : Dbl
  x0 : Dbl
  y0 : Dbl
  sigma_x : Dbl
  sigma_y : Dbl
  rho : Dbl

/-- `std::exp`, `std::sqrt` and `solve_linear_system` (image_operations.h 3071-3126). -/
structure FitLib where
  expo : Dbl → Dbl
  root : Dbl → Dbl
  solve : (Nat → Nat → Dbl) → (Nat → Dbl) → Nat → Dbl

/-- A literal of the program. image_operations.h 3180-3205. -/
noncomputable def lit (x : ℝ) : Dbl := .num (dbl x)

/-- `std::max(a, b)`. image_operations.h 3195, 3274. -/
noncomputable def maxD (a b : Dbl) : Dbl := if a.lt b then b else a

/-- `std::min(a, b)`. image_operations.h 3203, 3279. -/
noncomputable def minD (a b : Dbl) : Dbl := if b.lt a then b else a

/-- image_operations.h 2929-2939 `LMAccumulator`. -/
structure AccD where
  sse : Dbl
  H : Nat → Nat → Dbl
  g : Nat → Dbl

/-- image_operations.h 2935-2937: the value-initialised accumulator. -/
noncomputable def AccD.zero : AccD := ⟨.num 0, fun _ _ => .num 0, fun _ => .num 0⟩

/-- image_operations.h 2939-2963 `operator+`. -/
noncomputable def AccD.add (a b : AccD) : AccD :=
  ⟨a.sse.add b.sse, fun i j => (a.H i j).add (b.H i j), fun i => (a.g i).add (b.g i)⟩

/-- image_operations.h 2975-2981 and 3037-3043: `dx`, `dy`. -/
noncomputable def offsetD (width idx : Nat) (p : ParD) : Res (Dbl × Dbl) := do
  let x ← umod idx width
  let y ← udiv idx width
  .ok ((Dbl.ofNat x).sub p.x0, (Dbl.ofNat y).sub p.y0)

/-- image_operations.h 2983 and 3045 `W`. -/
noncomputable def wD (p : ParD) : Dbl := (Dbl.num 1).div ((Dbl.num 1).sub (p.rho.mul p.rho))

/-- image_operations.h 2986-2988 and 3047-3049 `Z_eq`. -/
noncomputable def zD (p : ParD) (dx dy : Dbl) : Dbl :=
  (((dx.mul dx).div (p.sigma_x.mul p.sigma_x)).sub
    (((((Dbl.num 2).mul p.rho).mul dx).mul dy).div (p.sigma_x.mul p.sigma_y))).add
    ((dy.mul dy).div (p.sigma_y.mul p.sigma_y))

/-- image_operations.h 2990 and 3051 `exp_term`. -/
noncomputable def expD (E : FitLib) (p : ParD) (dx dy : Dbl) : Dbl :=
  E.expo (((Dbl.num (-1 / 2)).mul (wD p)).mul (zD p dx dy))

/-- image_operations.h 2991 and 3051 `f_val`. -/
noncomputable def valD (E : FitLib) (p : ParD) (dx dy : Dbl) : Dbl := p.amplitude.mul (expD E p dx dy)

/-- image_operations.h 2995-3001, the array `J`. -/
noncomputable def jacD (E : FitLib) (p : ParD) (dx dy : Dbl) : Nat → Dbl
  | 0 => expD E p dx dy
  | 1 => ((valD E p dx dy).mul (wD p)).mul
      ((dx.div (p.sigma_x.mul p.sigma_x)).sub ((p.rho.mul dy).div (p.sigma_x.mul p.sigma_y)))
  | 2 => ((valD E p dx dy).mul (wD p)).mul
      ((dy.div (p.sigma_y.mul p.sigma_y)).sub ((p.rho.mul dx).div (p.sigma_x.mul p.sigma_y)))
  | 3 => ((valD E p dx dy).mul (wD p)).mul
      (((dx.mul dx).div ((p.sigma_x.mul p.sigma_x).mul p.sigma_x)).sub
        (((p.rho.mul dx).mul dy).div ((p.sigma_x.mul p.sigma_x).mul p.sigma_y)))
  | 4 => ((valD E p dx dy).mul (wD p)).mul
      (((dy.mul dy).div ((p.sigma_y.mul p.sigma_y).mul p.sigma_y)).sub
        (((p.rho.mul dx).mul dy).div ((p.sigma_x.mul p.sigma_y).mul p.sigma_y)))
  | 5 => ((valD E p dx dy).mul (wD p)).mul
      (((dx.mul dy).div (p.sigma_x.mul p.sigma_y)).sub ((p.rho.mul (wD p)).mul (zD p dx dy)))
  | _ => .num 0

/-- image_operations.h 2966-3017 `LMMapper::operator()`. -/
noncomputable def lmMapperD (E : FitLib) (im : Image Dbl) (p : ParD) (idx : Nat) : Res AccD := do
  let d ← offsetD im.width idx p
  let z ← im.get idx
  let r := z.sub (valD E p d.1 d.2)
  .ok ⟨r.mul r, fun i j => (jacD E p d.1 d.2 i).mul (jacD E p d.1 d.2 j), fun i => (jacD E p d.1 d.2 i).mul r⟩

/-- image_operations.h 3030-3057 `SSEMapper::operator()`. -/
noncomputable def sseMapperD (E : FitLib) (im : Image Dbl) (p : ParD) (idx : Nat) : Res Dbl := do
  let d ← offsetD im.width idx p
  let z ← im.get idx
  let r := z.sub (valD E p d.1 d.2)
  .ok (r.mul r)

/-- The transformed elements of `std::transform_reduce`, image_operations.h 3216-3223 and 3283-3290. -/
def mapAll {β : Type} (f : Nat → Res β) : List Nat → Res (List β)
  | [] => .ok []
  | i :: is => do
    let a ← f i
    let r ← mapAll f is
    .ok (a :: r)

/-- image_operations.h 3226-3235, the array `scale`. -/
noncomputable def scaleD (E : FitLib) (acc : AccD) (i : Nat) : Dbl :=
  let s := E.root (acc.H i i).abs
  if s.lt (lit 1e-12) then .num 1 else s

/-- image_operations.h 3237-3261: the step `delta`. -/
noncomputable def deltaD (E : FitLib) (acc : AccD) (lambda : Dbl) : Nat → Dbl :=
  let g_scaled := fun i => (acc.g i).div (scaleD E acc i)
  let H_scaled := fun i j => (acc.H i j).div ((scaleD E acc i).mul (scaleD E acc j))
  let H_damped := fun i j => if i = j then (H_scaled i j).add lambda else H_scaled i j
  fun i => (E.solve H_damped g_scaled i).div (scaleD E acc i)

/-- image_operations.h 3264: `inner_product(delta, delta, 0.0)`. -/
noncomputable def deltaSqD (delta : Nat → Dbl) : Dbl :=
  (List.range 6).foldl (fun s i => s.add ((delta i).mul (delta i))) (.num 0)

/-- image_operations.h 3270-3279: the new parameters. -/
noncomputable def moveD (p : ParD) (delta : Nat → Dbl) : ParD where
  amplitude := p.amplitude.add (delta 0)
  x0 := p.x0.add (delta 1)
  y0 := p.y0.add (delta 2)
  sigma_x := maxD (lit 1e-6) (p.sigma_x.add (delta 3)).abs
  sigma_y := maxD (lit 1e-6) (p.sigma_y.add (delta 4)).abs
  rho := maxD (lit (-0.999)) (minD (lit 0.999) (p.rho.add (delta 5)))

/-- image_operations.h 3209-3308, one iteration: the allowed outcomes `r`; `none` is the `break`. -/
def StepD (E : FitLib) (im : Image Dbl) (tolerance : Dbl) (s : ParD × Dbl) (r : Res (Option (ParD × Dbl))) : Prop :=
  match mapAll (lmMapperD E im s.1) (List.range im.count) with
  | .ok ms => ∃ acc, StdReduce AccD.add AccD.zero ms acc ∧
      (let delta := deltaD E acc s.2
       if (deltaSqD delta).lt tolerance then r = .ok none
       else
         match mapAll (sseMapperD E im (moveD s.1 delta)) (List.range im.count) with
         | .ok ss => ∃ new_sse, StdReduce Dbl.add (.num 0) ss new_sse ∧
             r = .ok (some (if new_sse.lt acc.sse then (moveD s.1 delta, s.2.div (.num 10)) else (s.1, s.2.mul (.num 10))))
         | .throw e => r = .throw e
         | .ub => r = .ub)
  | .throw e => r = .throw e
  | .ub => r = .ub

/-- image_operations.h 3207-3309, the loop: the allowed outcomes. -/
def LoopD (E : FitLib) (im : Image Dbl) (tolerance : Dbl) : Nat → ParD × Dbl → Res ParD → Prop
  | 0, s, r => r = .ok s.1
  | n + 1, s, r => ∃ q, StepD E im tolerance s q ∧
      (match q with
       | .ok none => r = .ok s.1
       | .ok (some s') => LoopD E im tolerance n s' r
       | .throw e => r = .throw e
       | .ub => r = .ub)

/-- image_operations.h 3155-3163 `std::max_element`. -/
noncomputable def topIndexD (im : Image Dbl) : List Nat → Res Nat
  | [] => .ub
  | i :: is => loop (fun best j => do
      let a ← im.get best
      let b ← im.get j
      .ok (if a.lt b then j else best)) is i

/-- image_operations.h 3176-3192: what the pixel `i` adds to the four sums. -/
noncomputable def momentD (im : Image Dbl) (A x0 y0 : Dbl) (i : Nat) : Res (Option (Dbl × Dbl × Dbl × Dbl)) := do
  let z ← im.get i
  if (A.mul (lit 0.1)).lt z then do
    let px ← umod i im.width
    let py ← udiv i im.width
    let dx := (Dbl.ofNat px).sub x0
    let dy := (Dbl.ofNat py).sub y0
    .ok (some (z, (dx.mul dx).mul z, (dy.mul dy).mul z, (dx.mul dy).mul z))
  else .ok none

/-- image_operations.h 3175: the results of `reduction(+: ...)` for one variable; every thread starts from zero. -/
def OmpSum (l : List Dbl) (v : Dbl) : Prop :=
  ∃ n, StdReduce Dbl.add (.num 0) (List.replicate n (.num 0) ++ l) v

/-- image_operations.h 3194-3205: the widths and the correlation from the four sums. -/
noncomputable def shapeD (E : FitLib) (A x0 y0 z dx2 dy2 dxdy : Dbl) : ParD :=
  let sigma_x := maxD (lit 1e-6) (if (Dbl.num 0).lt z then E.root (dx2.div z) else .num 10)
  let sigma_y := maxD (lit 1e-6) (if (Dbl.num 0).lt z then E.root (dy2.div z) else .num 10)
  let rho := if (Dbl.num 0).lt z then (dxdy.div z).div (sigma_x.mul sigma_y) else .num 0
  ⟨A, x0, y0, sigma_x, sigma_y, maxD (lit (-0.99)) (minD (lit 0.99) rho)⟩

/-- image_operations.h 3148-3205, the starting point: the allowed outcomes. `std::ranges::iota(indices, 0)` counts in
`int`, so it is undefined from `2^31` pixels on. -/
def GuessD (E : FitLib) (im : Image Dbl) (r : Res ParD) : Prop :=
  if im.count ≥ 2 ^ 31 then r = .ub
  else
    match (do
      let max_idx ← topIndexD im (List.range im.count)
      let A ← im.get max_idx
      let ix ← umod max_idx im.width
      let iy ← udiv max_idx im.width
      let m ← mapAll (momentD im A (Dbl.ofNat ix) (Dbl.ofNat iy)) (List.range im.count)
      .ok (A, Dbl.ofNat ix, Dbl.ofNat iy, m.filterMap id) : Res (Dbl × Dbl × Dbl × List (Dbl × Dbl × Dbl × Dbl))) with
    | .ok (A, x0, y0, m) => ∃ z dx2 dy2 dxdy, OmpSum (m.map (·.1)) z ∧ OmpSum (m.map (·.2.1)) dx2 ∧
        OmpSum (m.map (·.2.2.1)) dy2 ∧ OmpSum (m.map (·.2.2.2)) dxdy ∧ r = .ok (shapeD E A x0 y0 z dx2 dy2 dxdy)
    | .throw e => r = .throw e
    | .ub => r = .ub

/-- image_operations.h 3136-3312 `estimate_gaussian_parameters_2d`: the allowed outcomes. -/
def FitD (E : FitLib) (im : Image Dbl) (max_iterations : Nat) (tolerance : Dbl) (r : Res ParD) : Prop :=
  if im.dim ≠ 2 then r = .throw .invalidArg
  else ∃ g, GuessD E im g ∧
    (match g with
     | .ok p => LoopD E im tolerance max_iterations (p, lit 0.01) r
     | .throw e => r = .throw e
     | .ub => r = .ub)

end TinyDIP.Sp
