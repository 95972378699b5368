import Verif.Model.Interp
import Verif.Model.Io
import Verif.Model.Stitch
import Verif.Model.Pixelwise

/-!
# Perspective warp on the graphics processor (image_operations_cuda.cu)

The device is modelled as follows. A kernel launch runs every thread of the grid once, in any order; a thread reads the
source buffer, which no thread writes, and writes at most one element of the output buffer, in one step. A launch
whose grid is empty or larger than the device allows (2^31 - 1 by 65535 blocks, CUDA programming guide) fails. Every call
of the CUDA library may fail, as an oracle says; failures of the kernel itself are reported by
`cudaDeviceSynchronize`. Floating-point numbers are real numbers: `fabsf` and `--use_fast_math` are not modelled. Device
memory is always large enough when `cudaMalloc` succeeds.
-/

namespace TinyDIP.Cuda

open TinyDIP TinyDIP.Stitch TinyDIP.Mat

variable {α : Type}

/-! ## The device functions -/

/-- `src_data[v * src_width + u]`, computed with `int`s. image_operations_cuda.cu 90, 105. -/
def readSrc (src : List α) (w u v : Int) : Res α := do
  let a ← chkInt (v * w)
  let i ← chkInt (a + u)
  if 0 ≤ i then vget src i.toNat else .ub

/-- image_operations_cuda.cu 52-67 `cubic_kernel_device` with the default `a = -0.5`. -/
noncomputable def cubicKernelDevice (x : ℝ) : ℝ :=
  let a : ℝ := -0.5
  let absX := |x|
  let absX2 := absX * absX
  let absX3 := absX2 * absX
  if absX ≤ 1 then (a + 2) * absX3 - (a + 3) * absX2 + 1
  else if absX < 2 then a * absX3 - 5 * a * absX2 + 8 * a * absX - 4 * a
  else 0

/-- image_operations_cuda.cu 74-124 `BicubicInterpolatorDevice`; `cv` stands for the conversions between the
element type and the floating type (for `unsigned char` the clamp to 0..255, lines 110-120). -/
noncomputable def bicubicDevice (cv : Conv α) (src : List α) (sw sh : Int) (x y : ℝ) : Res α :=
  if x < 1 ∨ x ≥ ((sw - 2 : Int) : ℝ) ∨ y < 1 ∨ y ≥ ((sh - 2 : Int) : ℝ) then do
    let ix ← chkInt ⌊stdRound x⌋
    let iy ← chkInt ⌊stdRound y⌋
    readSrc src sw (max 0 (min (sw - 1) ix)) (max 0 (min (sh - 1) iy))
  else do
    let xf ← chkInt ⌊x⌋
    let yf ← chkInt ⌊y⌋
    let total ← forUp 4 (fun total j => do
      let v := yf - 1 + (j : Int)
      let row ← forUp 4 (fun row i => do
        let u := xf - 1 + (i : Int)
        let q ← readSrc src sw u v
        .ok (row + cv.toR q * cubicKernelDevice (x - (u : ℝ)))) (0 : ℝ)
      .ok (total + row * cubicKernelDevice (y - (v : ℝ)))) (0 : ℝ)
    .ok (cv.fromR total)

/-- Position of a thread in the grid: block and thread within the block. image_operations_cuda.cu 145-146.
-/
structure Thread where
  bx : Nat
  by' : Nat
  tx : Nat
  ty : Nat
  deriving DecidableEq, Repr

/-- image_operations_cuda.cu 131-168 `warp_perspective_kernel`: what one thread does to the output buffer. The
coordinates are computed with `unsigned`s and converted to `int`. -/
noncomputable def kernel (interp : List α → Int → Int → ℝ → ℝ → Res α) (eps : ℝ) (m : Hom ℝ) (src : List α)
    (sw sh ow oh : Int) (out : List α) (t : Thread) : Res (List α) :=
  let x := toInt32 ((t.bx * 16 + t.tx : Nat) : Int)
  let y := toInt32 ((t.by' * 16 + t.ty : Nat) : Int)
  if x < ow ∧ y < oh then
    if |m.w x y| > eps then
      let sx := m.px x y
      let sy := m.py x y
      if 0 ≤ sx ∧ sx < sw ∧ 0 ≤ sy ∧ sy < sh then do
        let v ← interp src sw sh sx sy
        let a ← chkInt (y * ow)
        let i ← chkInt (a + x)
        if 0 ≤ i then vset out i.toNat v else .ub
      else .ok out
    else .ok out
  else .ok out

/-! ## The launch -/

/-- image_operations_cuda.cu 221-226: number of blocks along one axis, converted to `unsigned`. -/
def blocks (n : Nat) : Nat := wadd n 15 / 16 % 2 ^ 32

/-- The threads of a grid. image_operations_cuda.cu 221-227. -/
def threads (nbx nby : Nat) : List Thread :=
  (List.range nby).flatMap fun by' => (List.range nbx).flatMap fun bx =>
    (List.range 16).flatMap fun ty => (List.range 16).map fun tx => ⟨bx, by', tx, ty⟩

/-- The grid can be launched. The launch at image_operations_cuda.cu 228-240. -/
def launchable (nbx nby : Nat) : Bool :=
  decide (0 < nbx) && decide (nbx < 2 ^ 31) && decide (0 < nby) && decide (nby ≤ 65535)

/-! ## The wrapper -/

/-- The calls of the CUDA library made by the wrapper. image_operations_cuda.cu 211-252. -/
inductive Call
  | mallocSrc | mallocOut | copyIn | clear | launch | sync | copyOut | freeSrc | freeOut
  deriving DecidableEq, Repr

/-- What the wrapper has done: the two device pointers (`true`: not null), the numbers of successful
releases of each buffer, and the buffers. image_operations_cuda.cu 202-268. -/
structure Dev (α : Type) where
  srcPtr : Bool
  outPtr : Bool
  srcFreed : Nat
  outFreed : Nat
  src : List α
  out : List α

/-- A call that either fails, which throws, or has its effect. `CUDA_CHECK`, image_operations_cuda.cu 38-44.
-/
def call (fails : Call → Bool) (c : Call) (act : Dev α → Res (Dev α)) (d : Dev α) : Dev α × Res Unit :=
  if fails c then (d, .throw .runtime)
  else
    match act d with
    | .ok d' => (d', .ok ())
    | .throw e => (d, .throw e)
    | .ub => (d, .ub)

/-- The calls one after the other, up to the first that does not succeed. image_operations_cuda.cu 209-253.
-/
def calls (fails : Call → Bool) : List (Call × (Dev α → Res (Dev α))) → Dev α → Dev α × Res Unit
  | [], d => (d, .ok ())
  | (c, act) :: cs, d =>
    match call fails c act d with
    | (d', .ok ()) => calls fails cs d'
    | (d', .throw e) => (d', .throw e)
    | (d', .ub) => (d', .ub)

/-- image_operations_cuda.cu 256-268: the `catch` block; the results of the releases are not looked at. `again` is whether
each release succeeds there. -/
def cleanup (again : Call → Bool) (d : Dev α) : Dev α :=
  { d with
    srcFreed := if d.srcPtr && again .freeSrc then d.srcFreed + 1 else d.srcFreed
    outFreed := if d.outPtr && again .freeOut then d.outFreed + 1 else d.outFreed }

/-- image_operations_cuda.cu 189-270 `warp_perspective_cuda`. `fails` tells which calls fail, `again` which releases in the
`catch` block succeed, `order` is the order in which the threads run. The host reads the matrix between the calls
(lines 234-236) as part of the launch. -/
noncomputable def warpCuda (fails again : Call → Bool) (order : List Thread → List Thread) (zero : α)
    (interp : List α → Int → Int → ℝ → ℝ → Res α) (eps : ℝ) (img : Image α) (H : Mat ℝ) (ow oh : Nat) :
    Dev α × Res (Image α) :=
  let nbx := blocks ow
  let nby := blocks oh
  let r := calls fails
    [(.mallocSrc, fun d => .ok { d with srcPtr := true }),
     (.mallocOut, fun d => .ok { d with outPtr := true }),
     (.copyIn, fun d => .ok { d with src := img.data }),
     (.clear, fun d => .ok { d with out := List.replicate (wmul ow oh) zero }),
     (.launch, fun d => do
       let m ← readHom H
       if launchable nbx nby then do
         let out ← loop (kernel interp eps m d.src (toInt32 img.width) (toInt32 img.height) (toInt32 ow) (toInt32 oh))
           (order (threads nbx nby)) d.out
         .ok { d with out := out }
       else .throw .runtime),
     (.sync, fun d => .ok d),
     (.copyOut, fun d => .ok d),
     (.freeSrc, fun d => .ok { d with srcFreed := d.srcFreed + 1 }),
     (.freeOut, fun d => .ok { d with outFreed := d.outFreed + 1 })] ⟨false, false, 0, 0, [], []⟩
  match r with
  | (d, .ok ()) => (d, .ok ⟨[ow, oh], d.out⟩)
  | (d, .throw e) => (cleanup again d, .throw e)
  | (d, .ub) => (d, .ub)

/-! ## RGB images -/

/-- A pixel of an image of bytes, from the triple of its samples. base_types.h 48. -/
def toPx3 (p : Rgb) : Px3 (BitVec 8) := ⟨BitVec.ofNat 8 p.1, BitVec.ofNat 8 p.2.1, BitVec.ofNat 8 p.2.2⟩

/-- The triple of the samples. base_types.h 48. -/
def ofPx3 (p : Px3 (BitVec 8)) : Rgb := (p.c0.toNat, p.c1.toNat, p.c2.toNat)

/-- image_operations.h 4897-4905, `default_bicubic_interpolator` for RGB pixels: plane by plane. -/
noncomputable def bicubicRgb (img : Image Rgb) (x y : ℝ) : Res Rgb := do
  let input : Image (Px3 (BitVec 8)) := ⟨img.size, img.data.map toPx3⟩
  let p0 ← getPlane 0#8 input 0
  let a ← bicubic Conv.u8 0#8 p0 x y
  let p1 ← getPlane 0#8 input 1
  let b ← bicubic Conv.u8 0#8 p1 x y
  let p2 ← getPlane 0#8 input 2
  let c ← bicubic Conv.u8 0#8 p2 x y
  .ok (a.toNat, b.toNat, c.toNat)

/-- image_operations_cuda.h 42-54, `warp_perspective_cuda` of an RGB image (through `apply_each`, image_operations.h
1553-1576): plane by plane; every plane has its own thread order and its own failures. -/
noncomputable def warpCudaRgb (fails again : Nat → Call → Bool) (order : Nat → List Thread → List Thread) (eps : ℝ)
    (img : Image Rgb) (H : Mat ℝ) (ow oh : Nat) : Res (Image Rgb) := do
  let input : Image (Px3 (BitVec 8)) := ⟨img.size, img.data.map toPx3⟩
  let p0 ← getPlane 0#8 input 0
  let q0 ← (warpCuda (fails 0) (again 0) (order 0) 0#8 (bicubicDevice Conv.u8) eps p0 H ow oh).2
  let p1 ← getPlane 0#8 input 1
  let q1 ← (warpCuda (fails 1) (again 1) (order 1) 0#8 (bicubicDevice Conv.u8) eps p1 H ow oh).2
  let p2 ← getPlane 0#8 input 2
  let q2 ← (warpCuda (fails 2) (again 2) (order 2) 0#8 (bicubicDevice Conv.u8) eps p2 H ow oh).2
  let out ← constructPx3 0#8 q0 q1 q2
  .ok ⟨out.size, out.data.map ofPx3⟩

/-- image_operations_cuda.h 61-149, `create_stitched_image_cuda`. -/
noncomputable def createStitchedCuda (small : ℝ → Bool) (fails again : Nat → Call → Bool)
    (order : Nat → List Thread → List Thread) (eps : ℝ) (orderB : Nat → Nat → List (Nat × Nat))
    (img1 img2 : Image Rgb) (Hin : Mat ℝ) : Res (Image Rgb) :=
  if Hin.isEmpty then .ok ⟨[], []⟩
  else do
    let H ← invert small Hin
    if H.isEmpty then .ok ⟨[], []⟩
    else do
      let m ← readHom H
      let s ← canvasBounds m img1.width img1.height img2.width img2.height
      let tx := -s.1
      let ty := -s.2.2.1
      let ow ← Sift.toSize ((⌈s.2.1 - s.1⌉ : Int) : ℝ)
      let oh ← Sift.toSize ((⌈s.2.2.2 - s.2.2.1⌉ : Int) : ℝ)
      let T ← translation tx ty
      let F ← multiply T Hin
      let warped ← warpCudaRgb fails again order eps img2 F ow oh
      blend img1 warped tx ty ow oh (orderB ow oh)

end TinyDIP.Cuda
