import Verif.Model.CliData
import Verif.Model.Generate

/-!
# Model of the image commands of main.cpp

File: `main.cpp` (info 224-257, print 328-430, rand_generator 446-555, subimage 775-856, vars 989-997,
write 999-1043).

Pixel values are exact rationals, as in `CliData`. Images of `MultiChannel` and complex pixels are not
modelled in detail (parameter `ext`).
-/

namespace TinyDIP.Cli

variable {F : Type} {α : Type}

/-- How the operation inside a command ends. main.h 1437-1446. -/
inductive Act (α : Type)
  | done (r : α)
  | threw
  | terminated
  | ub

/-- main.h 1393-1476 `MetaTransformHandler`, for operations that may end the process or run into
undefined behaviour. `setup` parses the trailing arguments (`none` is an exception). -/
def transformU {P : Type} (io : FileIO P F) (minArgs : Nat) (check : Ty → Bool)
    (setup : List Str → Str → Option (Val P → Act (Val P))) : HandlerU P F := fun w args =>
  let policy := extractPolicy args
  let filtered := argsFilter args
  if filtered.length < minArgs then quiet w
  else
    match filtered with
    | inArg :: outArg :: _ =>
      match setup filtered policy with
      | none => raise w
      | some core =>
        match loadArg io check w inArg with
        | .error () => raise w
        | .ok none => quiet w
        | .ok (some v) =>
          match core v with
          | .ub => .ub
          | .threw => raise w
          | .terminated => .ok ⟨w, .terminated, none⟩
          | .done r =>
            if check r.ty then
              let s := saveArg io w outArg r
              .ok ⟨s.1, s.2, none⟩
            else quiet w
    | _ => .ub

/-- main.cpp 814-819 and 834-836: the pixels `pts` of the new image, in that order. The element access
throws outside the image, or when the image has another number of dimensions than two. -/
def cropLoop (im : Image α) (x0 y0 : Nat) (pts : List (Nat × Nat)) (out : Image α) : Res (Image α) :=
  loop (fun out p => do
    let v ← im.at2 (wadd p.1 x0) (wadd p.2 y0)
    out.set2 p.1 p.2 v) pts out

/-- main.cpp 797-849: the operation of `subimage`. An exception that leaves the function object of a
parallel algorithm ends the process, whatever the policy. `order` is the order of the indices when an
execution policy is given. -/
def cropCore (zero : α) (order : List Nat) (policy : Str) (x0 y0 w h : Nat) (im : Image α) :
    Act (Image α) :=
  if im.size = [] then .ub
  else if wadd x0 w > im.width ∨ wadd y0 h > im.height then .threw
  else
    let out := Image.ofSizes zero [w, h]
    dispatchPolicy policy
      (fun _ =>
        match cropLoop im x0 y0 (splitIdx w order) out with
        | .ok r => .done r
        | .throw _ => .terminated
        | .ub => .ub)
      (match cropLoop im x0 y0 (iterYX w h) out with
        | .ok r => .done r
        | .throw _ => .threw
        | .ub => .ub)

/-- The operation on stored values. main.cpp 797-849. -/
def cropVal (ext : Val Pay → Act (Val Pay)) (order : List Nat) (policy : Str) (x0 y0 w h : Nat) :
    Val Pay → Act (Val Pay)
  | .atom t (.image im) =>
    match cropCore 0 order policy x0 y0 w h im with
    | .done r => .done (.atom t (.image r))
    | .threw => .threw
    | .terminated => .terminated
    | .ub => .ub
  | .atom t (.image3 im) =>
    match cropCore ⟨0, 0, 0⟩ order policy x0 y0 w h im with
    | .done r => .done (.atom t (.image3 r))
    | .threw => .threw
    | .terminated => .terminated
    | .ub => .ub
  | v => ext v

/-- main.cpp 775-856 `handlers::subimage`. -/
def subimageCmd (io : FileIO Pay F) (ext : Val Pay → Act (Val Pay)) (order : List Nat) : HandlerU Pay F :=
  transformU io 6 isMasterImage fun filtered policy =>
    match filtered with
    | _ :: _ :: xA :: yA :: wA :: hA :: _ =>
      match parseSize xA, parseSize yA, parseSize wA, parseSize hA with
      | some x0, some y0, some w, some h => some (cropVal ext order policy x0 y0 w h)
      | _, _, _, _ => none
    | _ => none

/-- What a command prints about a variable or image. The texts printed by main.cpp 224-257, 332-427 and
main.h 439-617. -/
inductive Report (P : Type)
  | value (v : Val P)
  | sizes (width height : Nat)
  | listing (entries : List (Str × Val P))

/-- Session, control outcome and report. main.cpp 224-257, 332-427. -/
structure Told (P F : Type) where
  world : World P F
  ctl : Ctl
  report : Option (Report P)

/-- Width and height of a stored image (image.h 385-393; `getWidth` of an image without dimensions is
undefined). -/
def imgSize (ext : Val Pay → Nat × Nat) : Val Pay → Res (Nat × Nat)
  | .atom _ (.image im) => if im.size = [] then .ub else .ok (im.width, im.height)
  | .atom _ (.image3 im) => if im.size = [] then .ub else .ok (im.width, im.height)
  | v => .ok (ext v)

/-- main.cpp 224-257 `handlers::info`. -/
def infoCmd (io : FileIO Pay F) (ext : Val Pay → Nat × Nat) (w : World Pay F) (args : List Str) :
    Res (Told Pay F) :=
  match args with
  | [] => .ok ⟨w, .returned, none⟩
  | inArg :: _ =>
    match loadArg io isMasterImage w inArg with
    | .error () => .ok ⟨w, .threw, none⟩
    | .ok none => .ok ⟨w, .returned, none⟩
    | .ok (some v) => do
      let s ← imgSize ext v
      .ok ⟨w, .returned, some (.sizes s.1 s.2)⟩

/-- main.cpp 332-427 `handlers::print`: images first, then scalars, containers of numbers and numbers,
which together are `master_scalar_types`. The text form of the values is not modelled. An empty argument
makes `substr(1)` throw; no argument that reaches this point is a file name. -/
def printCmd {P : Type} (io : FileIO P F) (w : World P F) (args : List Str) : Told P F :=
  match args with
  | [] => ⟨w, .returned, none⟩
  | inArg :: _ =>
    match loadArg io isMasterImage w inArg with
    | .error () => ⟨w, .threw, none⟩
    | .ok (some v) => ⟨w, .returned, some (.value v)⟩
    | .ok none =>
      match w.ws.retrieveAny (varName inArg) with
      | some v =>
        if isMasterScalar v.ty then ⟨w, .returned, some (.value v)⟩ else ⟨w, .returned, none⟩
      | none => ⟨w, .returned, none⟩

/-- Keys in the order of `std::map<std::string, …>`. main.h 369. -/
def keyLe (a b : Str × α) : Bool := decide (a.1 ≤ b.1)

/-- main.cpp 993-1002 `handlers::vars` and main.h 439-617 `list_variables`: one entry per variable, in key
order. -/
def varsCmd {P : Type} (w : World P F) : Told P F :=
  ⟨w, .returned, some (.listing (w.ws.store.mergeSort keyLe))⟩

/-- main.cpp 1004-1048 `handlers::write`. -/
def writeCmd {P : Type} (io : FileIO P F) (w : World P F) (args : List Str) : World P F × Ctl :=
  match args with
  | inArg :: outArg :: _ =>
    if isVar inArg then
      match loadArg io isMasterImage w inArg with
      | .error () => (w, .threw)
      | .ok none => (w, .returned)
      | .ok (some v) => saveArg io w outArg v
    else (w, .returned)
  | _ => (w, .returned)

/-- main.cpp 470-508: the generators known by name. -/
def urbgNames : List Str :=
  ["knuth_b".toList, "minstd_rand".toList, "minstd_rand0".toList, "mt19937".toList, "mt19937_64".toList,
    "ranlux24".toList, "ranlux24_base".toList, "ranlux48".toList, "ranlux48_base".toList]

/-- main.cpp 444-558 `handlers::rand_generator`; `gen name` is the named engine with
`uniform_real_distribution<double>`, `seed` its state after seeding from `std::random_device`. -/
def randCmd {σ : Type} (io : FileIO Pay F) (gen : Str → σ → ℚ × σ) (seed : σ) (w : World Pay F)
    (args : List Str) : World Pay F × Ctl :=
  match args with
  | name :: outArg :: d :: ds =>
    match parseSizes (d :: ds) with
    | none => (w, .threw)
    | some sizes =>
      if name ∈ urbgNames then
        match Gen.generate (gen name) sizes seed with
        | .ok r => saveArg io w outArg (.atom tyDouble (.image r.1))
        | .throw _ => (w, .threw)
        | .ub => (w, .threw)
      else (w, .returned)
  | _ => (w, .returned)

end TinyDIP.Cli
