import Verif.Model.Locks

/-!
# What is expected of function objects that lock a mutex
-/

namespace TinyDIP.Locks

variable {σ ℓ : Type}

/-- Locks and unlocks alternate; the flag says whether the mutex is held at the beginning. -/
def Alternates : Bool → List (Op σ ℓ) → Prop
  | h, [] => h = false
  | h, .act _ :: r => Alternates h r
  | h, .lock :: r => h = false ∧ Alternates true r
  | h, .unlock :: r => h = true ∧ Alternates false r

/-- No schedule leads to undefined behaviour. -/
def Safe (A : Algo σ ℓ) (init : σ) : Prop := ∀ c, Reach A init c → ¬ Step A c none

/-- All calls have returned. -/
def Complete (A : Algo σ ℓ) (c : Conf σ ℓ) : Prop := ∀ i < A.n, c.tasks i = .finished

/-- Whatever has happened so far, some thread can go on until all calls have returned. -/
def Live (A : Algo σ ℓ) (init : σ) : Prop :=
  ∀ c, Reach A init c → Complete A c ∨ ∃ c', Step A c (some c')

/-- No execution is longer than `bound` steps. -/
def Ends (A : Algo σ ℓ) (init : σ) (bound : Nat) : Prop :=
  ∀ (k : Nat) (c : Nat → Conf σ ℓ), c 0 = Conf.start init → (∀ i < k, Step A (c i) (some (c (i + 1)))) → k ≤ bound

/-- The call has locked the mutex and not unlocked it: the next lock or unlock it comes to is an unlock. -/
def Holding : Task σ ℓ → Prop
  | .running todo _ => ∃ pre post, todo = pre ++ .unlock :: post ∧ ∀ o ∈ pre, ∃ g, o = .act g
  | _ => False

/-- Two different calls never hold the mutex at the same time. -/
def Exclusive (A : Algo σ ℓ) (init : σ) : Prop :=
  ∀ c, Reach A init c → ∀ i j, Holding (c.tasks i) → Holding (c.tasks j) → i = j

end TinyDIP.Locks
