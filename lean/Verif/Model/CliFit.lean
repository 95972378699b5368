import Verif.Model.CliSift
import Verif.Model.Fit

/-!
# Model of the command estimate_gaussian_params_2d

File: `main.h` (2511-2598, MetaScalarHandler 1239-1379). Floating-point numbers are exact real numbers. Images of
integers other than bytes are not modelled: what the command does with them is the parameter `ext`.
-/

namespace TinyDIP.Cli

variable {F : Type}

/-- `GaussianParameters2D<double>`; the number is a label of the model. main.h 255. -/
def tyBump : Ty := .scalar 15

/-- main.h 1239-1379 `MetaScalarHandler` for an operation that reads trailing arguments: `setup` is given all the
words that are not policies and the last policy word; `none` is an exception of `parse_arg`. -/
def metaScalarArgs {P : Type} (io : FileIO P F) (minArgs : Nat)
    (setup : List Str → Str → Option (Val P → Res (Val P))) : HandlerU P F := fun w args =>
  let policy := lastPolicy args
  let filtered := argsFilter args
  if filtered.length < minArgs then quiet w
  else
    match filtered with
    | [] => .ub
    | inArg :: rest =>
      match setup filtered policy with
      | none => raise w
      | some core =>
        match loadArg io isMasterData w inArg with
        | .error () => raise w
        | .ok none => quiet w
        | .ok (some v) =>
          match core v with
          | .ub => .ub
          | .throw _ => raise w
          | .ok r => deliver w (rest.headD []) r

/-- main.h 2536-2593. The fit takes images of `double` and of bytes (other integers are left to `ext`); images of
`bool` (2542, 2581-2585), of colours and complex numbers (2556-2560, 2581-2585) and containers (2587-2591) are
refused. `order` and `orders` are the orders of the reductions, as in `Fit.estimateGaussianParameters2d`; the
policy only changes them. -/
noncomputable def fitVal (ext : Val PayR → Res (Val PayR)) (order : List Nat) (orders : Nat → List Nat × List Nat)
    (n : Nat) (tol : ℝ) (v : Val PayR) : Res (Val PayR) :=
  match v with
  | .atom (.image (.num .double)) (.real im) => do
    let p ← Fit.estimateGaussianParameters2d im n tol order orders
    .ok (.atom tyBump (.bump p))
  | .atom (.image (.num .uchar)) (.bytes im) => do
    let p ← Fit.estimateGaussianParameters2d ⟨im.size, im.data.map fun b => (b.toNat : ℝ)⟩ n tol order orders
    .ok (.atom tyBump (.bump p))
  | .atom (.image (.num .bool)) _ => .throw .invalidArg
  | .atom (.image (.scalar _)) _ => .throw .invalidArg
  | .cont _ _ _ => .throw .invalidArg
  | _ => ext v

/-- main.h 2511-2598 `handlers::estimate_gaussian_params_2d`; the words from the third on are `max_iterations` and
`tolerance` (2522-2531). -/
noncomputable def fitCmd (io : FileIO PayR F) (dbl : Str → Option ℝ) (ext : Val PayR → Res (Val PayR))
    (order : Str → List Nat) (orders : Str → Nat → List Nat × List Nat) : HandlerU PayR F :=
  metaScalarArgs io 2 fun filtered policy => do
    let n ← optArg parseSize 1000 filtered 2
    let tol ← optArg (fun a => dbl (sanitize a)) 1e-7 filtered 3
    some (fitVal ext (order policy) (orders policy) n tol)

end TinyDIP.Cli
