/-!
# Calls of a generator
-/

namespace TinyDIP.Spec.Gen

variable {α σ : Type}

/-- The state after `n` calls. -/
def stateAfter (gen : σ → α × σ) (s : σ) : Nat → σ
  | 0 => s
  | n + 1 => (gen (stateAfter gen s n)).2

/-- What call number `n` (from zero) returns. -/
def call (gen : σ → α × σ) (s : σ) (n : Nat) : α := (gen (stateAfter gen s n)).1

end TinyDIP.Spec.Gen
