import Verif.Model.CliSignal
import Verif.Model.Sift

/-!
# Model of the command get_sift_potential_keypoint

Files: `main.h` (2699-2850) and `image_operations.h` (`get_potential_keypoint` 6874-7060).

Floating-point numbers are exact real numbers; a division by zero, which gives an infinity or a NaN in the
program, gives zero. Iterations of a parallel loop run one after the other, in any order (two that append to
the same vector at the same time are the subject of `Sift.PushState`).
-/

namespace TinyDIP.Cli

open TinyDIP

variable {F : Type}

/-- The orders in which the parallel loops run: the images of an octave (image_operations.h 6796), the
pixels of a resampled image (2324), the octaves and scales of the search (6975-6980) and the pixels
inspected (6739). -/
structure Sched where
  levels : Nat → List Nat → List Nat
  pixels : List (Nat × Nat) → List (Nat × Nat)
  octaves : List Nat → List Nat
  scales : List Nat → List Nat
  inspect : List (Nat × Nat) → List (Nat × Nat)

/-- main.h 2767-2781 `resample_fn`: `lanczos_resample` (with its default radius 3, image_operations.h 2399),
`copyResizeBicubic`, or an exception for any other word. -/
noncomputable def resampleBy (pixels : List (Nat × Nat) → List (Nat × Nat)) (word : Str) (im : Image ℝ)
    (width height : Nat) : Res (Image ℝ) :=
  if word = "lanczos".toList then
    Resample.lanczosOrd .real 0 dblEps (pixels (iterYX width height)) im width height 3
  else if word = "bicubic".toList then
    Resample.copyResizeBicubicOrd (Resample.bicubicPolate (-dblMax) dblMax) 0 (pixels (iterYX width height)) im
      width height
  else .throw .invalidArg

/-- image_operations.h 6908-6931: the octaves. An exception from `generate_octave` leaves an OpenMP region
and ends the process; one from the resampling function is an ordinary exception. `order n` is the order used
when `n` more octaves may follow. -/
noncomputable def buildOctaves (order : Nat → List Nat → List Nat)
    (resample : Image ℝ → Nat → Nat → Res (Image ℝ)) (levels : Nat) (sigma k : ℝ) :
    Nat → Image ℝ → Act (List (List (Image ℝ)))
  | 0, _ => .done []
  | n + 1, base =>
    if base.width < 20 ∨ base.height < 20 then .done []
    else
      match octave (order n (List.range (levels - 1))) base levels sigma k with
      | .throw _ => .terminated
      | .ub => .ub
      | .ok o =>
        match resample base (base.width / 2) (base.height / 2) with
        | .throw _ => .threw
        | .ub => .ub
        | .ok next =>
          match buildOctaves order resample levels sigma k n next with
          | .done rest => .done (o :: rest)
          | .threw => .threw
          | .terminated => .terminated
          | .ub => .ub

/-- image_operations.h 6888-7029 `get_potential_keypoint` for images of `double`. -/
noncomputable def potentialKeypoints (sched : Sched) (word : Str) (im : Image ℝ) (count levels : Nat)
    (sigma k contrast edge : ℝ) : Act (List (Nat × Nat)) :=
  if im.dim ≠ 2 then .threw
  else
    match buildOctaves sched.levels (resampleBy sched.pixels word) levels sigma k count im with
    | .threw => .threw
    | .terminated => .terminated
    | .ub => .ub
    | .done octaves => .ofRes do
      let keypoints ← Sift.searchOctaves sched.octaves sched.scales sched.inspect octaves count contrast edge
      Sift.mapKeypoints octaves im keypoints

/-- `std::vector<Point<2>>`; the number is a label of the model. image_operations.h 7010. -/
def tyPoints : Ty := .scalar 14

/-- The arguments after the input and the output. main.h 2738-2744. -/
structure SiftArgs where
  count : Nat
  levels : Nat
  sigma : ℝ
  k : ℝ
  contrast : ℝ
  edge : ℝ
  word : Str

/-- One optional argument. The conditional expressions of main.h 2738-2744. -/
def optArg {α : Type} (read : Str → Option α) (dflt : α) (rest : List Str) (i : Nat) : Option α :=
  match rest[i]? with
  | some a => read a
  | none => some dflt

/-- main.h 2738-2744: the arguments with their default values; `none` is an exception of `parse_arg`. The
name of the resampling method is taken as it is. -/
noncomputable def siftArgs (dbl : Str → Option ℝ) (rest : List Str) : Option SiftArgs := do
  let count ← optArg parseSize 4 rest 0
  let levels ← optArg parseSize 5 rest 1
  let sigma ← optArg (fun a => dbl (sanitize a)) 1.6 rest 2
  let k ← optArg (fun a => dbl (sanitize a)) (Real.sqrt 2) rest 3
  let contrast ← optArg (fun a => dbl (sanitize a)) 8 rest 4
  let edge ← optArg (fun a => dbl (sanitize a)) 12.1 rest 5
  let word ← optArg some "bicubic".toList rest 6
  some ⟨count, levels, sigma, k, contrast, edge, word⟩

/-- main.h 2753-2843 `process_sift`: 8-bit images are converted with `im2double` first; images of `bool` and
complex images give a message (2757-2761), as do integer images that `im2double` does not take (2840-2843); `none`
is such a message; `HSV` and `RGB_DOUBLE` images are not taken either, their `get_deep_scalar_t` being the pixel
type itself (basic_functions.h 178-185). Colour images of bytes are converted, but the search does not take
them (2791-2793). -/
noncomputable def siftVal (sched : Sched) (a : SiftArgs) (ext : Val PayR → Act (Option (Val PayR)))
    (v : Val PayR) : Act (Option (Val PayR)) :=
  let finish : Act (List (Nat × Nat)) → Act (Option (Val PayR)) := fun r =>
    match r with
    | .done l => .done (some (.atom tyPoints (.points l)))
    | .threw => .threw
    | .terminated => .terminated
    | .ub => .ub
  match v with
  | .atom (.image (.num .double)) (.real im) =>
    finish (potentialKeypoints sched a.word im a.count a.levels a.sigma a.k a.contrast a.edge)
  | .atom (.image (.num .uchar)) (.bytes im) =>
    match Color.im2doubleGray im with
    | .ok d => finish (potentialKeypoints sched a.word d a.count a.levels a.sigma a.k a.contrast a.edge)
    | .throw _ => .threw
    | .ub => .ub
  | .atom (.image (.num _)) _ => .done none
  | .atom (.image (.scalar 10)) _ => .threw
  | .atom (.image (.scalar 11)) _ => .done none
  | .atom (.image (.scalar 12)) _ => .done none
  | .atom (.image (.scalar 13)) _ => .done none
  | _ => ext v

/-- Without a policy, and with `seq`, the octaves and the scales of the search are visited in order.
image_operations.h 6939-6943, 7049. -/
def Sched.under (sched : Sched) (policy : Str) : Sched :=
  dispatchPolicy policy
    (fun p => if p = .seq then { sched with octaves := id, scales := id } else sched)
    { sched with octaves := id, scales := id }

/-- main.h 2699-2850 `handlers::get_sift_potential_keypoint`. The last policy word counts (2716). -/
noncomputable def siftCmd (io : FileIO PayR F) (dbl : Str → Option ℝ) (sched : Sched)
    (ext : Val PayR → Act (Option (Val PayR))) : HandlerU PayR F := fun w args =>
  match argsFilter args with
  | inArg :: outArg :: rest =>
    if isVar outArg then
      match siftArgs dbl rest with
      | none => raise w
      | some a =>
        match loadArg io isMasterImage w inArg with
        | .error () => raise w
        | .ok none => quiet w
        | .ok (some v) =>
          match siftVal (sched.under (lastPolicy args)) a ext v with
          | .ub => .ub
          | .threw => raise w
          | .terminated => .ok ⟨w, .terminated, none⟩
          | .done none => quiet w
          | .done (some r) => .ok ⟨{ w with ws := w.ws.put (varName outArg) r }, .returned, none⟩
    else quiet w
  | _ => quiet w

end TinyDIP.Cli
