import Verif.Model.Match
import Mathlib.Logic.Relation

/-!
# Function objects that lock a mutex, run by a parallel algorithm

basic_functions.h 1245-1255 (`recursive_transform` with an execution policy, one level; also 1282-1291 for
`std::array` and image_operations.h 2060-2070 `pixelwise_transform`) and image_operations.h 7262-7294, 7334-7368
(`find_keypoint_matches`, `find_raw_matches`). The calls of a function object by an algorithm are placed on
threads and their steps interleave; the mutex is a `std::mutex`. Simplifications: what one call computes from
constant data is one step; the function objects do not throw; a nested container is transformed by one step
of the call that holds the lock of its parent.
-/

namespace TinyDIP.Locks

/-- main.h 1151-1165: the four execution policies. -/
inductive Policy
  | seq | par | unseq | parUnseq
  deriving DecidableEq

/-- Not from the repository ([algorithms.parallel.exec] of the C++ standard): with `unseq` and `par_unseq` the
calls on one thread are unsequenced, so that their steps may interleave; with `seq` and `par` a thread
finishes one call before it begins another. -/
def Policy.interleaves : Policy → Bool
  | .unseq | .parUnseq => true
  | .seq | .par => false

/-- A step of a call: it locks or unlocks the mutex (basic_functions.h 1252, image_operations.h 7364), or
changes the shared data of type `σ` and its own variables of type `ℓ`. -/
inductive Op (σ ℓ : Type)
  | lock
  | unlock
  | act (g : σ → ℓ → σ × ℓ)

/-- Where a call stands: not begun, running with the steps still to do and its variables, or finished. The
calls of `std::transform` at basic_functions.h 1249 and of `std::for_each` at image_operations.h 7336. -/
inductive Task (σ ℓ : Type)
  | waiting
  | running (todo : List (Op σ ℓ)) (loc : ℓ)
  | finished

/-- An algorithm with `n` calls: the steps of each call, the variables it begins with, and the thread it is
placed on. basic_functions.h 1249-1254, image_operations.h 7336-7367. -/
structure Algo (σ ℓ : Type) where
  policy : Policy
  n : Nat
  prog : Nat → List (Op σ ℓ)
  loc : ℓ
  thread : Nat → Nat

/-- The thread that owns the mutex (basic_functions.h 1248, image_operations.h 7334), the shared data, the
calls. -/
structure Conf (σ ℓ : Type) where
  owner : Option Nat
  shared : σ
  tasks : Nat → Task σ ℓ

variable {σ ℓ α β : Type}

/-- Call `i` moves on. Basic update of the state used below for basic_functions.h 1251-1254. -/
def Conf.put (c : Conf σ ℓ) (i : Nat) (t : Task σ ℓ) : Conf σ ℓ :=
  { c with tasks := fun j => if j = i then t else c.tasks j }

/-- One step of one thread; the outcome `none` is undefined behaviour. A thread that locks a `std::mutex` which
it owns, or unlocks one that it does not own, has undefined behaviour ([thread.mutex.requirements]); a thread
that locks a mutex owned by another thread waits. basic_functions.h 1249-1254, image_operations.h 7336-7367. -/
inductive Step (A : Algo σ ℓ) (c : Conf σ ℓ) : Option (Conf σ ℓ) → Prop
  | start (i : Nat) (hi : i < A.n) (hw : c.tasks i = .waiting)
      (hf : A.policy.interleaves = true ∨ ∀ j, A.thread j = A.thread i → ∀ todo l, c.tasks j ≠ .running todo l) :
      Step A c (some (c.put i (.running (A.prog i) A.loc)))
  | act (i : Nat) (g : σ → ℓ → σ × ℓ) (todo : List (Op σ ℓ)) (l : ℓ) (h : c.tasks i = .running (.act g :: todo) l) :
      Step A c (some { c.put i (.running todo (g c.shared l).2) with shared := (g c.shared l).1 })
  | lock (i : Nat) (todo : List (Op σ ℓ)) (l : ℓ) (h : c.tasks i = .running (.lock :: todo) l) (ho : c.owner = none) :
      Step A c (some { c.put i (.running todo l) with owner := some (A.thread i) })
  | lockAgain (i : Nat) (todo : List (Op σ ℓ)) (l : ℓ) (h : c.tasks i = .running (.lock :: todo) l)
      (ho : c.owner = some (A.thread i)) : Step A c none
  | unlock (i : Nat) (todo : List (Op σ ℓ)) (l : ℓ) (h : c.tasks i = .running (.unlock :: todo) l)
      (ho : c.owner = some (A.thread i)) :
      Step A c (some { c.put i (.running todo l) with owner := none })
  | unlockForeign (i : Nat) (todo : List (Op σ ℓ)) (l : ℓ) (h : c.tasks i = .running (.unlock :: todo) l)
      (ho : c.owner ≠ some (A.thread i)) : Step A c none
  | finish (i : Nat) (l : ℓ) (h : c.tasks i = .running [] l) : Step A c (some (c.put i .finished))

/-- The state when the algorithm is called: basic_functions.h 1248, image_operations.h 7330-7334. -/
def Conf.start (init : σ) : Conf σ ℓ := ⟨none, init, fun _ => .waiting⟩

/-- The states that some schedule reaches. basic_functions.h 1249-1254, image_operations.h 7336-7367. -/
def Reach (A : Algo σ ℓ) (init : σ) : Conf σ ℓ → Prop :=
  Relation.ReflTransGen (fun c c' => Step A c (some c')) (Conf.start init)

/-- basic_functions.h 1250-1254 for the element `i` of the input: lock, call `f`, unlock, and the write of the
result by `std::transform`. -/
def transformProg (f : α → β) (input : List α) (i : Nat) : List (Op (List β) (Option β)) :=
  [.lock, .act fun s _ => (s, input[i]?.map f), .unlock,
    .act fun s r => (match r with | some v => s.set i v | none => s, r)]

/-- basic_functions.h 1236-1256 `recursive_transform<1>(policy, f, input)`: the shared data are the elements of
`output`, `default` after `resize`. -/
def transformAlgo (policy : Policy) (thread : Nat → Nat) (f : α → β) (input : List α) : Algo (List β) (Option β) :=
  ⟨policy, input.length, transformProg f input, none, thread⟩

/-- image_operations.h 7338-7367: the match of descriptor `i`, if it passes the ratio test. -/
def matchOf {K D : Type} [Field K] [LinearOrder K] (dist : D → D → K) (big : K) (ds1 ds2 : List D) (ratio : K)
    (i : Nat) : Option (Nat × Nat) :=
  match ds1[i]? with
  | none => none
  | some q =>
    match Match.nearest dist big q ds2 with
    | .ok s => if s.1 < ratio * ratio * s.2.1 then some (i, s.2.2) else none
    | _ => none

/-- image_operations.h 7362-7366: with a match, lock, append (reading the vector and writing it are two
steps), unlock. -/
def appendProg (result : Nat → Option α) (i : Nat) : List (Op (List α) (List α)) :=
  match result i with
  | none => []
  | some m => [.lock, .act fun s _ => (s, s), .act fun _ l => (l ++ [m], l), .unlock]

/-- image_operations.h 7326-7370 `find_raw_matches` and 7254-7297 `find_keypoint_matches` with two non-empty
lists of descriptors. -/
def matchAlgo {K D : Type} [Field K] [LinearOrder K] (policy : Policy) (thread : Nat → Nat) (dist : D → D → K)
    (big : K) (ds1 ds2 : List D) (ratio : K) : Algo (List (Nat × Nat)) (List (Nat × Nat)) :=
  ⟨policy, ds1.length, appendProg (matchOf dist big ds1 ds2 ratio), [], thread⟩

end TinyDIP.Locks
