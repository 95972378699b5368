import Verif.Model.Image
import Verif.Model.ImageIter
import Verif.Model.LinAlg
import Mathlib.Analysis.SpecialFunctions.Exp
import Mathlib.Analysis.Real.Sqrt
import Mathlib.Analysis.Real.Pi.Bounds

/-!
# Model: fitting a two-dimensional Gaussian (image_operations.h 2840-3312)

Floating point is modelled by exact real numbers, and the pixels are the real numbers they convert
to. `std::transform_reduce` and the OpenMP reduction are modelled by a sum in an arbitrary order
(one list of indices per reduction); the grouping is not varied.
-/

namespace TinyDIP.Fit

open TinyDIP
open scoped Classical

/-- image_operations.h:2842-2852, `GaussianParameters2D`. -/
@[ext] structure GaussianParameters2D where
  amplitude : ℝ
  x0 : ℝ
  y0 : ℝ
  sigma_x : ℝ
  sigma_y : ℝ
  rho : ℝ

/-- image_operations.h:2870-2909, `gaussianFigure2D(execution_policy, xsize, ysize, params,
normalize_factor_input)` with the rows visited in the order `rows`. -/
noncomputable def gaussianFigure2D (rows : List Nat) (xsize ysize : Nat)
    (params : GaussianParameters2D) (normalize_factor_input : ℝ) : Res (Image ℝ) :=
  let output := Image.ofSizes (0 : ℝ) [xsize, ysize]
  let sigma1_2 := params.sigma_x * params.sigma_x
  let sigma2_2 := params.sigma_y * params.sigma_y
  let normalize_factor := normalize_factor_input /
    (2 * Real.pi * params.sigma_x * params.sigma_y * Real.sqrt (1 - params.rho ^ 2))
  let exp_para := (-1) / (2 * sigma1_2 * sigma2_2 * (1 - params.rho ^ 2))
  loop (fun output (y : Nat) =>
    let x2 : ℝ := (y : ℝ) - params.y0
    let x2_2 := x2 * x2
    forUp xsize (fun output (x : Nat) =>
      let x1 : ℝ := (x : ℝ) - params.x0
      let x1_2 := x1 * x1
      output.setAt [x, y] (normalize_factor * Real.exp (exp_para *
        (sigma2_2 * x1_2 - (2 * params.rho * params.sigma_x * params.sigma_y * x1 * x2) +
          sigma1_2 * x2_2)))) output) rows output

/-- image_operations.h:2929-2939, `LMAccumulator` (arrays as functions of the index). -/
structure LMAccumulator where
  sse : ℝ
  H : Nat → Nat → ℝ
  g : Nat → ℝ

/-- image_operations.h:2935-2937: the value-initialised accumulator. -/
def LMAccumulator.zero : LMAccumulator := ⟨0, fun _ _ => 0, fun _ => 0⟩

/-- image_operations.h:2939-2963, `operator+`. -/
noncomputable def LMAccumulator.add (a b : LMAccumulator) : LMAccumulator :=
  ⟨a.sse + b.sse, fun i j => a.H i j + b.H i j, fun i => a.g i + b.g i⟩

/-- image_operations.h:2975-2985 and 3039-3050: `dx`, `dy`. -/
noncomputable def offset (width idx : Nat) (p : GaussianParameters2D) : Res (ℝ × ℝ) := do
  let x ← umod idx width
  let y ← udiv idx width
  .ok ((x : ℝ) - p.x0, (y : ℝ) - p.y0)

/-- image_operations.h:2983 and 3046, `W`. -/
noncomputable def lmW (p : GaussianParameters2D) : ℝ := 1 / (1 - p.rho * p.rho)

/-- image_operations.h:2986-2988 and 3048-3050, `Z_eq`. -/
noncomputable def lmZ (p : GaussianParameters2D) (dx dy : ℝ) : ℝ :=
  (dx * dx) / (p.sigma_x * p.sigma_x) - (2 * p.rho * dx * dy) / (p.sigma_x * p.sigma_y) +
    (dy * dy) / (p.sigma_y * p.sigma_y)

/-- image_operations.h:2990, `exp_term`. -/
noncomputable def lmExp (p : GaussianParameters2D) (dx dy : ℝ) : ℝ :=
  Real.exp (-0.5 * lmW p * lmZ p dx dy)

/-- image_operations.h:2991, `f_val`. -/
noncomputable def lmVal (p : GaussianParameters2D) (dx dy : ℝ) : ℝ := p.amplitude * lmExp p dx dy

/-- image_operations.h:2995-3001, the array `J`. -/
noncomputable def lmJ (p : GaussianParameters2D) (dx dy : ℝ) : Nat → ℝ
  | 0 => lmExp p dx dy
  | 1 => lmVal p dx dy * lmW p *
      ((dx / (p.sigma_x * p.sigma_x)) - (p.rho * dy) / (p.sigma_x * p.sigma_y))
  | 2 => lmVal p dx dy * lmW p *
      ((dy / (p.sigma_y * p.sigma_y)) - (p.rho * dx) / (p.sigma_x * p.sigma_y))
  | 3 => lmVal p dx dy * lmW p * (((dx * dx) / (p.sigma_x * p.sigma_x * p.sigma_x)) -
      (p.rho * dx * dy) / (p.sigma_x * p.sigma_x * p.sigma_y))
  | 4 => lmVal p dx dy * lmW p * (((dy * dy) / (p.sigma_y * p.sigma_y * p.sigma_y)) -
      (p.rho * dx * dy) / (p.sigma_x * p.sigma_y * p.sigma_y))
  | 5 => lmVal p dx dy * lmW p *
      (((dx * dy) / (p.sigma_x * p.sigma_y)) - p.rho * lmW p * lmZ p dx dy)
  | _ => 0

/-- image_operations.h:2966-3017, `LMMapper::operator()`. -/
noncomputable def lmMapper (im : Image ℝ) (p : GaussianParameters2D) (idx : Nat) :
    Res LMAccumulator := do
  let d ← offset im.width idx p
  let z ← im.get idx
  let r := z - lmVal p d.1 d.2
  .ok ⟨r * r, fun i j => lmJ p d.1 d.2 i * lmJ p d.1 d.2 j, fun i => lmJ p d.1 d.2 i * r⟩

/-- image_operations.h:3030-3057, `SSEMapper::operator()`. -/
noncomputable def sseMapper (im : Image ℝ) (p : GaussianParameters2D) (idx : Nat) : Res ℝ := do
  let d ← offset im.width idx p
  let z ← im.get idx
  let r := z - lmVal p d.1 d.2
  .ok (r * r)

/-- image_operations.h:3217-3224, the reduction of `LMMapper` over the pixels, in the order
`order`. -/
noncomputable def lmReduce (im : Image ℝ) (p : GaussianParameters2D) (order : List Nat) :
    Res LMAccumulator :=
  loop (fun acc i => do
    let m ← lmMapper im p i
    .ok (acc.add m)) order LMAccumulator.zero

/-- image_operations.h:3281-3288, the reduction of `SSEMapper` over the pixels, in the order
`order`. -/
noncomputable def sseReduce (im : Image ℝ) (p : GaussianParameters2D) (order : List Nat) : Res ℝ :=
  loop (fun acc i => do
    let m ← sseMapper im p i
    .ok (acc + m)) order 0

/-- image_operations.h:3227-3235, the array `scale`. -/
noncomputable def lmScale (acc : LMAccumulator) (i : Nat) : ℝ :=
  let s := Real.sqrt |acc.H i i|
  if s < 1e-12 then 1 else s

/-- image_operations.h:3237-3262: the scaled and damped system, its solution, and the step
`delta`. -/
noncomputable def lmDelta (acc : LMAccumulator) (lambda : ℝ) : Nat → ℝ :=
  let g_scaled := fun i => acc.g i / lmScale acc i
  let H_scaled := fun i j => acc.H i j / (lmScale acc i * lmScale acc j)
  let H_damped := fun i j => if i = j then H_scaled i j + lambda else H_scaled i j
  let delta_scaled := solveLinearSystem 6 H_damped g_scaled 1e-12
  fun i => delta_scaled i / lmScale acc i

/-- image_operations.h:3265: `inner_product(delta, delta, 0.0)`. -/
noncomputable def deltaSq (delta : Nat → ℝ) : ℝ :=
  (List.range 6).foldl (fun s i => s + delta i * delta i) 0

/-- image_operations.h:3271-3279: the new parameters. -/
noncomputable def lmMove (p : GaussianParameters2D) (delta : Nat → ℝ) : GaussianParameters2D where
  amplitude := p.amplitude + delta 0
  x0 := p.x0 + delta 1
  y0 := p.y0 + delta 2
  sigma_x := max 1e-6 |p.sigma_x + delta 3|
  sigma_y := max 1e-6 |p.sigma_y + delta 4|
  rho := max (-0.999) (min 0.999 (p.rho + delta 5))

/-- image_operations.h:3210-3308, one iteration; `none` is the `break`. `order.1` and `order.2` are
the orders of its two reductions. -/
noncomputable def lmStep (im : Image ℝ) (tolerance : ℝ) (order : List Nat × List Nat)
    (s : GaussianParameters2D × ℝ) : Res (Option (GaussianParameters2D × ℝ)) := do
  let acc ← lmReduce im s.1 order.1
  let delta := lmDelta acc s.2
  if deltaSq delta < tolerance then .ok none
  else
    let new_params := lmMove s.1 delta
    let new_sse ← sseReduce im new_params order.2
    if new_sse < acc.sse then .ok (some (new_params, s.2 / 10))
    else .ok (some (s.1, s.2 * 10))

/-- image_operations.h:3208-3309, the loop; `iter` counts the iterations done. -/
noncomputable def lmLoop (im : Image ℝ) (tolerance : ℝ) (orders : Nat → List Nat × List Nat) :
    (remaining iter : Nat) → GaussianParameters2D × ℝ → Res GaussianParameters2D
  | 0, _, s => .ok s.1
  | n + 1, iter, s => do
    match ← lmStep im tolerance (orders iter) s with
    | none => .ok s.1
    | some s' => lmLoop im tolerance orders n (iter + 1) s'

/-- image_operations.h:3155-3163, `std::max_element` over the indices, comparing the pixels: the
first index of a largest pixel; undefined on an empty range (the result is dereferenced). -/
noncomputable def maxIndex (im : Image ℝ) : List Nat → Res Nat
  | [] => .ub
  | i :: is => loop (fun best j => do
      let a ← im.get best
      let b ← im.get j
      .ok (if a < b then j else best)) is i

/-- image_operations.h:3170-3173, the four sums. -/
structure Moments where
  z : ℝ
  dx2 : ℝ
  dy2 : ℝ
  dxdy : ℝ

/-- image_operations.h:3176-3193, the moments, in the order `order`. -/
noncomputable def moments (im : Image ℝ) (A x0 y0 : ℝ) (order : List Nat) : Res Moments :=
  loop (fun s i => do
    let z ← im.get i
    if z > A * 0.1 then do
      let px ← umod i im.width
      let py ← udiv i im.width
      let dx := (px : ℝ) - x0
      let dy := (py : ℝ) - y0
      .ok ⟨s.z + z, s.dx2 + (dx * dx) * z, s.dy2 + (dy * dy) * z, s.dxdy + (dx * dy) * z⟩
    else .ok s) order ⟨0, 0, 0, 0⟩

/-- image_operations.h:3148-3205, the starting point. `std::ranges::iota(indices, 0)` counts in
`int`, so it is undefined from `2^31` pixels on. -/
noncomputable def initialGuess (im : Image ℝ) (order : List Nat) : Res GaussianParameters2D := do
  if im.count ≥ 2 ^ 31 then .ub
  else
    let max_idx ← maxIndex im (List.range im.count)
    let A ← im.get max_idx
    let ix ← umod max_idx im.width
    let iy ← udiv max_idx im.width
    let x0 : ℝ := (ix : ℝ)
    let y0 : ℝ := (iy : ℝ)
    let m ← moments im A x0 y0 order
    let sigma_x := max 1e-6 (if m.z > 0 then Real.sqrt (m.dx2 / m.z) else 10)
    let sigma_y := max 1e-6 (if m.z > 0 then Real.sqrt (m.dy2 / m.z) else 10)
    let rho := if m.z > 0 then (m.dxdy / m.z) / (sigma_x * sigma_y) else 0
    .ok ⟨A, x0, y0, sigma_x, sigma_y, max (-0.99) (min 0.99 rho)⟩

/-- image_operations.h:3136-3312, `estimate_gaussian_parameters_2d`. `order` is the order of the
OpenMP reduction, `orders` the orders of the reductions of each iteration. -/
noncomputable def estimateGaussianParameters2d (im : Image ℝ) (max_iterations : Nat) (tolerance : ℝ)
    (order : List Nat) (orders : Nat → List Nat × List Nat) : Res GaussianParameters2D := do
  if im.dim ≠ 2 then .throw .invalidArg
  else
    let p ← initialGuess im order
    lmLoop im tolerance orders max_iterations 0 (p, 0.01)

end TinyDIP.Fit
