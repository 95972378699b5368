import Verif.Model.Pixelwise
import Verif.Model.Cli
import Verif.Model.Recursive
import Mathlib.Analysis.Real.Sqrt

/-!
# Pixel and point types (base_types.h), sums over pairs (basic_functions.h)
-/

namespace TinyDIP.PixT

open TinyDIP

/-! ### RGB, RGB_DOUBLE, HSV -/

/-- base_types.h:50-56, `RGB::operator+`: the channels are added as `int` and stored in 8 bits. -/
def rgbAdd (this input : RGB) : RGB :=
  ⟨BitVec.ofInt 8 ((input.c0.toNat : Int) + this.c0.toNat),
   BitVec.ofInt 8 ((input.c1.toNat : Int) + this.c1.toNat),
   BitVec.ofInt 8 ((input.c2.toNat : Int) + this.c2.toNat)⟩

/-- base_types.h:58-64, `RGB::operator-`: likewise. -/
def rgbSub (this input : RGB) : RGB :=
  ⟨BitVec.ofInt 8 ((this.c0.toNat : Int) - input.c0.toNat),
   BitVec.ofInt 8 ((this.c1.toNat : Int) - input.c1.toNat),
   BitVec.ofInt 8 ((this.c2.toNat : Int) - input.c2.toNat)⟩

/-- base_types.h:80-86 `RGB_DOUBLE::operator+`, 110-116 `HSV::operator+`. -/
def dblAdd {K : Type} [Add K] (this input : Px3 K) : Px3 K :=
  ⟨input.c0 + this.c0, input.c1 + this.c1, input.c2 + this.c2⟩

/-- base_types.h:88-94 `RGB_DOUBLE::operator-`, 118-124 `HSV::operator-`. -/
def dblSub {K : Type} [Sub K] (this input : Px3 K) : Px3 K :=
  ⟨this.c0 - input.c0, this.c1 - input.c1, this.c2 - input.c2⟩

/-- base_types.h:66-70, `operator<<` of `RGB`; `+channel` prints the number. -/
def rgbText (p : RGB) : Cli.Str :=
  '{' :: Cli.toStr p.c0.toNat ++ [',', ' '] ++ Cli.toStr p.c1.toNat ++ [',', ' '] ++
    Cli.toStr p.c2.toNat ++ ['}']

/-- base_types.h:132-138, `HSV::operator<`: `std::tie(...) < std::tie(...)`, which the standard defines as
`a₀ < b₀ || (!(b₀ < a₀) && ...)`. `lt` is `<` of `double`. -/
def hsvLt {K : Type} (lt : K → K → Bool) (this other : Px3 K) : Bool :=
  lt this.c0 other.c0 || (!lt other.c0 this.c0 &&
    (lt this.c1 other.c1 || (!lt other.c1 this.c1 && lt this.c2 other.c2)))

/-- `<` of `double` with the value `none` for NaN. Used at base_types.h 133-140. -/
def nanLt {K : Type} [LT K] [DecidableLT K] : Option K → Option K → Bool
  | some a, some b => decide (a < b)
  | _, _ => false

/-! ### MultiChannel and Point -/

/-- base_types.h:149-157 `MultiChannel::operator+`, 159-167 `operator-`, 190-198 `Point::operator+`,
200-208 `operator-`: a loop over an array whose contents are uninitialised (`init`). -/
def arrayOp {α : Type} (op : α → α → α) (init this input : List α) : Res (List α) :=
  forUp this.length (fun out i => do
    let a ← vget this i
    let b ← vget input i
    vset out i (op a b)) init

/-- base_types.h:190-198: the coordinates are `std::size_t`. -/
def pointAdd (init this input : List Nat) : Res (List Nat) := arrayOp wadd init this input

/-- base_types.h:200-208. -/
def pointSub (init this input : List Nat) : Res (List Nat) := arrayOp wsub init this input

/-! ### Sums of one component -/

/-- basic_functions.h:3239-3250 and 3270-3281 `sum_first_element`, 3283-3294 and 3314-3325
`sum_second_element`, without a policy, on a vector of pairs or a map (in key order); `get` selects the
component. -/
def sumElement {τ E : Type} (get : τ → E) (zero : E) (f : E → E → E) (pairs : List τ) : E :=
  pairs.foldl (fun sum p => f sum (get p)) zero

/-- basic_functions.h:3252-3268, 3296-3312 with a policy and 3327-3347 `sum_n_th_element`: the components
are copied to a vector and given to `std::reduce`; `r` is a possible result. -/
def SumElementPar {τ E : Type} (get : τ → E) (initVal : E) (f : E → E → E) (tuples : List τ) (r : E) :
    Prop :=
  Rec.GSum f (initVal :: tuples.map get) r

/-- basic_functions.h:1798-1803, `hypot(a, b...)`; the pack is a list and `(... + ...)` a right fold. -/
noncomputable def hypot : List ℝ → Option ℝ
  | [] => none
  | a :: rest => some (Real.sqrt (go a rest))
where
  go (a : ℝ) : List ℝ → ℝ
    | [] => a ^ 2
    | b :: rest => a ^ 2 + go b rest

end TinyDIP.PixT
