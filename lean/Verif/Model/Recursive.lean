import Verif.Model.Res
import Mathlib.Data.List.Forall2
import Mathlib.Analysis.Real.Sqrt

/-!
# Nested containers (basic_functions.h 535-1796)

A container of `n` levels is a list of containers of `n - 1` levels. The call with `unwrap_level = n`
on a deeper container is the case in which the leaf type is itself a container. Simplifications: the
containers are sequences (`std::vector`, `std::list`, `std::deque`); predicates and operations
terminate and, except in `recTransform`, do not throw; a container has less than 2^64 elements where
this is said.
-/

namespace TinyDIP.Rec

/-- A container with `n` levels. The nested containers accepted by the functions of basic_functions.h 900-1900. -/
@[reducible] def Nest (α : Type) : Nat → Type
  | 0 => α
  | n + 1 => List (Nest α n)

variable {α β T : Type}

/-! ## Predicates -/

/-- basic_functions.h 535-550 `recursive_all_of`. -/
def recAllOf (p : α → Bool) : (n : Nat) → Nest α n → Bool
  | 0, v => p v
  | n + 1, l => List.all l fun e => recAllOf p n e

/-- basic_functions.h 592-607 `recursive_find_if`: `find_if(...) != end`. -/
def recFindIf (p : α → Bool) : (n : Nat) → Nest α n → Bool
  | 0, v => p v
  | n + 1, l => (List.findIdx (fun e => recFindIf p n e) l) != List.length l

/-- basic_functions.h 552-590 `recursive_find` (both overloads; the order in which a policy tests the
elements does not change whether one is found). -/
def recFind [DecidableEq α] (target : α) : (n : Nat) → Nest α n → Bool
  | 0, v => target == v
  | n + 1, l => (List.findIdx (fun e => recFind target n e) l) != List.length l

/-- basic_functions.h 609-615 `recursive_any_of`. -/
def recAnyOf (p : α → Bool) (n : Nat) (l : Nest α n) : Bool := recFindIf p n l

/-- basic_functions.h 617-622 `recursive_none_of`. -/
def recNoneOf (p : α → Bool) (n : Nat) (l : Nest α n) : Bool := !recAnyOf p n l

/-! ## Reductions -/

/-- Not from the repository: `GENERALIZED_SUM` of the C++ standard ([numerics.defns]), the result of
`std::reduce` and `std::transform_reduce`: the values in any order and any grouping. -/
inductive GSum (op : T → T → T) : List T → T → Prop
  | one (a : T) : GSum op [a] a
  | split {l l₁ l₂ : List T} {a b : T} : l.Perm (l₁ ++ l₂) → l₁ ≠ [] → l₂ ≠ [] →
      GSum op l₁ a → GSum op l₂ b → GSum op l (op a b)

/-- basic_functions.h 658-693 `recursive_count` and 695-760 `recursive_count_if`, all overloads (at the
last level `count_if` and the sum of the results of the predicate are the same): `r` is a possible
result. -/
def RecCountIf (p : α → Bool) : (n : Nat) → Nest α n → Nat → Prop
  | 0, v, r => r = if p v then 1 else 0
  | n + 1, l, r => ∃ vals : List Nat, List.Forall₂ (fun e v => RecCountIf p n e v) l vals ∧
      GSum wadd (0 :: vals) r

/-- basic_functions.h 857-875 `recursive_size`: `r` is a possible result. -/
def RecSize : (n : Nat) → Nest α n → Nat → Prop
  | 0, _, r => r = 1
  | 1, l, r => r = List.length l
  | n + 2, l, r => ∃ vals : List Nat, List.Forall₂ (fun e v => RecSize (n + 1) e v) l vals ∧
      GSum wadd (0 :: vals) r

/-- basic_functions.h 877-890 `recursive_size<unwrap_level>` with `unwrap_level = n + 1`. -/
def recSizeLevel : (n : Nat) → Nest α (n + 1) → Res Nat
  | 0, l => .ok (List.length l)
  | n + 1, l =>
    match (l : List (Nest α (n + 1))) with
    | [] => .throw .outOfRange
    | e :: _ => recSizeLevel n e

/-- basic_functions.h 900-916 `recursive_reduce`. -/
def recReduce (f : β → α → β) : (n : Nat) → Nest α n → β → β
  | 0, v, init => f init v
  | n + 1, l, init => List.foldl (fun acc e => recReduce f n e acc) init l

/-- basic_functions.h 1435-1474 `recursive_transform_reduce<unwrap_level>` (both overloads): `r` is a
possible result. `zero` is `T{}`. -/
def TransformReduce (op : T → T → T) (u : α → T) (zero : T) : (n : Nat) → Nest α n → T → T → Prop
  | 0, v, _, r => r = u v
  | n + 1, l, init, r => ∃ vals : List T,
      List.Forall₂ (fun e v => TransformReduce op u zero n e zero v) l vals ∧ GSum op (init :: vals) r

/-- basic_functions.h 1402-1433 `recursive_transform_reduce` without an unwrap level (both overloads):
`r` is a possible result. -/
def TransformReduceAll (op : T → T → T) (u : α → T) (zero : T) : (n : Nat) → Nest α n → T → T → Prop
  | 0, v, init, r => r = op init (u v)
  | n + 1, l, init, r => ∃ vals : List T,
      List.Forall₂ (fun e v => TransformReduceAll op u zero n e zero v) l vals ∧ GSum op (init :: vals) r

/-- basic_functions.h 1476-1517 `two_input_map_reduce`, the branch without `std::views::zip`. -/
def twoInputMapReduce {γ : Type} (op1 : α → β → γ) (op2 : T → γ → T) (init : T) (xs : List α)
    (ys : List β) : Res T :=
  if xs.length ≠ ys.length then .throw .runtime
  else
    forUp xs.length (fun out i => do
      let a ← vget xs i
      let b ← vget ys i
      .ok (op2 out (op1 a b))) init

/-- basic_functions.h 1476-1517 `two_input_map_reduce`, the branch with `std::views::zip` and
`std::reduce`: `r` is a possible outcome. -/
def TwoInputMapReduceZip (op1 : α → β → T) (op2 : T → T → T) (init : T) (xs : List α) (ys : List β)
    (r : Res T) : Prop :=
  if xs.length ≠ ys.length then r = .throw .runtime
  else ∃ v, r = .ok v ∧ GSum op2 (init :: List.zipWith op1 xs ys) v

/-! ## Visiting the leaves -/

/-- basic_functions.h 942-963 `recursive_for_each<unwrap_level>` with `unwrap_level = n + 1`. `s` is the
state of the function object, which is copied by every call, and `e` the state of the rest of the
program; `call` is one call of the function object. The result is the returned function object and
the state of the rest of the program. -/
def recForEach {σ ε : Type} (call : σ → ε → α → σ × ε) : (n : Nat) → Nest α (n + 1) → σ → ε → σ × ε
  | 0, l, s, e => (s, (List.foldl (fun st a => call st.1 st.2 a) (s, e) l).2)
  | n + 1, l, s, e =>
    (s, List.foldl (fun e x => (recForEach call n x s e).2) e (l : List (Nest α (n + 1))))

/-- basic_functions.h 965-990 `recursive_for_each` with an execution policy: `calls` is a possible
order of the calls. Simplification: a call is atomic. -/
def ParForEach : (n : Nat) → Nest α (n + 1) → List α → Prop
  | 0, l, calls => calls.Perm l
  | n + 1, l, calls => ∃ parts : List (List α),
      List.Forall₂ (fun e p => ParForEach n e p) (l : List (Nest α (n + 1))) parts ∧
      calls.Perm parts.flatten

/-- basic_functions.h 1015-1029 `recursive_reverse_foreach_all`: the state after the calls. -/
def reverseForeachAll {ε : Type} (call : ε → α → ε) : (n : Nat) → Nest α n → ε → ε
  | 0, v, e => call e v
  | n + 1, l, e => List.foldl (fun e x => reverseForeachAll call n x e) e (List.reverse l)

/-- basic_functions.h 1039-1048 `recursive_fold_right_all`. -/
def foldRightAll (f : α → β → β) (n : Nat) (l : Nest α n) (init : β) : β :=
  reverseForeachAll (fun acc v => f v acc) n l init

/-! ## Transformations -/

/-- basic_functions.h 1173-1200 `recursive_transform`, one container. The function may throw. -/
def recTransform (f : α → Res β) : (n : Nat) → Nest α n → Res (Nest β n)
  | 0, v => f v
  | n + 1, l =>
    loop (fun (out : List (Nest β n)) e => do
      let r ← recTransform f n e
      .ok (out ++ [r])) (l : List (Nest α n)) []

/-- basic_functions.h 1165-1171 `transform`, two inputs: only the end of the first one is tested. -/
def transform2 {γ : Type} (op : α → β → Res γ) : List α → List β → Res (List γ)
  | [], _ => .ok []
  | _ :: _, [] => .ub
  | a :: as, b :: bs => do
    let r ← op a b
    let rs ← transform2 op as bs
    .ok (r :: rs)

/-- basic_functions.h 1173-1200 `recursive_transform`, two containers. -/
def recTransform2 {γ : Type} (f : α → β → γ) : (n : Nat) → Nest α n → Nest β n → Res (Nest γ n)
  | 0, a, b => .ok (f a b)
  | n + 1, a, b =>
    transform2 (fun x y => recTransform2 f n x y) (a : List (Nest α n)) (b : List (Nest β n))

/-- A value-initialised container. Used where output containers are sized before a parallel loop, for example
basic_functions.h 1247. -/
def nestDefault (d : β) : (n : Nat) → Nest β n
  | 0 => d
  | _ + 1 => []

/-- basic_functions.h 1236-1266 `recursive_transform` with an execution policy. `sched path k` is the
order in which the `k` elements of the sub-container at `path` are processed; `d` is the
value-initialised leaf. -/
def recTransformPar (sched : List Nat → Nat → List Nat) (f : α → β) (d : β) :
    (n : Nat) → List Nat → Nest α n → Res (Nest β n)
  | 0, _, v => .ok (f v)
  | n + 1, path, l =>
    loop (fun (out : List (Nest β n)) i => do
      let e ← vget (l : List (Nest α n)) i
      let r ← recTransformPar sched f d n (path ++ [i]) e
      vset out i r) (sched path (List.length l)) (List.replicate (List.length l) (nestDefault d n))

/-- basic_functions.h 1050-1079 `recursive_replace_copy_if<unwrap_level>`, `unwrap_level = n + 1`. -/
def recReplaceCopyIf (p : α → Bool) (v : α) : (n : Nat) → Nest α (n + 1) → Nest α (n + 1)
  | 0, l => List.map (fun a => if p a then v else a) (l : List α)
  | n + 1, l => List.map (fun e => recReplaceCopyIf p v n e) (l : List (Nest α (n + 1)))

/-- basic_functions.h 1081-1108 `recursive_remove_copy_if<unwrap_level>`, `unwrap_level = n + 1`. -/
def recRemoveCopyIf (p : α → Bool) : (n : Nat) → Nest α (n + 1) → Nest α (n + 1)
  | 0, l => List.filter (fun a => !p a) (l : List α)
  | n + 1, l => List.map (fun e => recRemoveCopyIf p n e) (l : List (Nest α (n + 1)))

/-- basic_functions.h 1144-1163 `recursive_remove_copy`. -/
def recRemoveCopy [DecidableEq α] (v : α) (n : Nat) (l : Nest α (n + 1)) : Nest α (n + 1) :=
  recRemoveCopyIf (fun a => a == v) n l

/-- basic_functions.h 1345-1400 `recursive_copy_if`, with and without an unwrap level (`n + 1`). -/
def recCopyIf (p : α → Bool) : (n : Nat) → Nest α (n + 1) → Nest α (n + 1)
  | 0, l => List.filter p (l : List α)
  | n + 1, l => List.map (fun e => recCopyIf p n e) (l : List (Nest α (n + 1)))

/-- basic_functions.h 1726-1748 `recursive_flatten<unwrap_level>`, `unwrap_level = n + 1`. -/
def recFlatten : (n : Nat) → Nest α (n + 1) → List α → List α
  | 0, l, out => List.foldl (fun out a => out ++ [a]) out (l : List α)
  | n + 1, l, out => List.foldl (fun out e => recFlatten n e out) out (l : List (Nest α (n + 1)))

/-- basic_functions.h 1626-1698 `n_dim_vector_generator`, `n_dim_array_generator`,
`n_dim_deque_generator`, `n_dim_list_generator` and `n_dim_container_generator`. -/
def nDimGenerator (input : α) (times : Nat) : (n : Nat) → Nest α n
  | 0 => input
  | n + 1 => List.replicate times (nDimGenerator input times n)

/-! ## Extrema -/

/-- Not from the repository: `std::ranges::max` of two values. -/
def stdMax (comp : β → β → Bool) (proj : α → β) (a b : α) : α := if comp (proj a) (proj b) then b else a

/-- Not from the repository: `std::ranges::min` of two values. -/
def stdMin (comp : β → β → Bool) (proj : α → β) (a b : α) : α := if comp (proj b) (proj a) then b else a

/-- basic_functions.h 783-807 `recursive_max`. -/
def recMax (comp : α → α → Bool) (proj : α → α) : (n : Nat) → Nest α n → Res α
  | 0, v => .ok (proj v)
  | n + 1, l =>
    match (l : List (Nest α n)) with
    | [] => .throw .outOfRange
    | e :: es => do
      let first ← recMax comp proj n e
      loop (fun out x => do
        let r ← recMax comp proj n x
        .ok (stdMax comp proj out r)) (e :: es) first

/-- basic_functions.h 809-834 `recursive_min`. -/
def recMin (comp : α → α → Bool) (proj : α → α) : (n : Nat) → Nest α n → Res α
  | 0, v => .ok (proj v)
  | n + 1, l =>
    match (l : List (Nest α n)) with
    | [] => .throw .outOfRange
    | e :: es => do
      let first ← recMin comp proj n e
      loop (fun out x => do
        let r ← recMin comp proj n x
        .ok (stdMin comp proj out r)) (e :: es) first

/-- Not from the repository: `std::ranges::minmax` of a range: the leftmost smallest and the rightmost
largest element; undefined for an empty range. -/
def stdMinmax (comp : β → β → Bool) (proj : α → β) : List α → Res (α × α)
  | [] => .ub
  | a :: l => .ok (l.foldl (fun s x =>
      (if comp (proj x) (proj s.1) then x else s.1, if comp (proj x) (proj s.2) then s.2 else x)) (a, a))

/-- basic_functions.h 1781-1796 `recursive_minmax<unwrap_level>` with `unwrap_level = n + 1`, and
1750-1779 `recursive_flatten_view` (both definitions visit the leaves in order). -/
def recMinmax (comp : β → β → Bool) (proj : α → β) (n : Nat) (l : Nest α (n + 1)) : Res (α × α) :=
  stdMinmax comp proj (recFlatten n l [])

/-! ## Statistics (the containers are flat: `recursive_reduce` has unwrap level one here) -/

/-- basic_functions.h 930-939 `arithmetic_mean`, for a floating point result type (exact field). -/
def arithmeticMean {K : Type} [Add K] [Zero K] [Div K] [NatCast K] (xs : List K) : Res K :=
  if xs.length = 0 then .throw .logic
  else .ok (recReduce (fun a x => a + x) 1 xs 0 / (xs.length : K))

/-- basic_functions.h 930-939 `arithmetic_mean<int>`: the sum has type `int` and is converted to
`size_t` by the division. Simplification: the sum does not overflow `int`. -/
def arithmeticMeanInt (xs : List Int) : Res Int :=
  if xs.length = 0 then .throw .logic
  else .ok (recReduce (fun a x => a + x) 1 xs 0 % 2 ^ 64 / (xs.length : Int))

/-- basic_functions.h 1538-1570 `population_variance` (both overloads): `r` is a possible outcome. -/
def PopulationVariance {K : Type} [Add K] [Sub K] [Mul K] [Zero K] [Div K] [NatCast K] (xs : List K) (r : Res K) :
    Prop :=
  match arithmeticMean xs with
  | .ok mean => ∃ s, TransformReduceAll (fun a b => a + b) (fun x => (x - mean) * (x - mean)) 0 1 xs 0 s ∧
      r = .ok (s / (xs.length : K))
  | .throw e => r = .throw e
  | .ub => r = .ub

/-- basic_functions.h 1593-1608 `square_sum`: `r` is a possible result. -/
def SquareSum {K : Type} [Add K] [Mul K] [Zero K] (n : Nat) (xs : Nest K n) (r : K) : Prop :=
  TransformReduceAll (fun a b => a + b) (fun x => x * x) 0 n xs 0 r

/-- basic_functions.h 1580-1591 `population_standard_deviation` with an execution policy: `r` is a
possible outcome. -/
def PopulationStandardDeviation (xs : List ℝ) (r : Res ℝ) : Prop :=
  if xs.length = 0 then r = .throw .logic
  else ∃ v, PopulationVariance xs v ∧ r = (do let v ← v; .ok (Real.sqrt v))

/-- basic_functions.h 1610-1624 `root_mean_square`: `r` is a possible result. Simplification: an empty
container (whose result is not a number) is left out. -/
def RootMeanSquare (n : Nat) (xs : Nest ℝ n) (r : ℝ) : Prop :=
  ∃ s k, SquareSum n xs s ∧ RecSize n xs k ∧ k ≠ 0 ∧ r = Real.sqrt (s / (k : ℝ))

end TinyDIP.Rec
