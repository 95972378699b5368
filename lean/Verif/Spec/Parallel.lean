import Mathlib.Logic.Function.Basic

/-!
# Threads that share memory

A small-step semantics for the parallel loops of the library. The iterations of a loop run as threads; a
thread reads and writes cells of a shared memory one at a time and computes in between. The scheduler picks
any thread at every step, so an execution is any interleaving of the reads and writes. Every iteration is
treated as a thread of its own, which allows more interleavings than any distribution of the iterations over
actual threads. There is no synchronisation between the iterations, so two accesses by different iterations
to one cell of which one is a write are a data race in the sense of the C++ standard.
-/

namespace TinyDIP.Par

/-- What a thread still has to do. `V a` is the type of the values in cell `a`. -/
inductive Prog (L : Type) (V : L → Type) : Type
  | stop
  | load (a : L) (k : V a → Prog L V)
  | store (a : L) (v : V a) (k : Prog L V)

/-- One access: by which iteration, to which cell, and whether it writes. -/
structure Event (ι L : Type) where
  thread : ι
  cell : L
  write : Bool

/-- The memory, and what every thread still has to do. -/
structure Conf (ι L : Type) (V : L → Type) where
  mem : (a : L) → V a
  prog : ι → Prog L V

variable {ι L : Type} {V : L → Type}

open Classical in
/-- Some thread makes one access. -/
inductive Step : Conf ι L V → Event ι L → Conf ι L V → Prop
  | load (c : Conf ι L V) (i : ι) (a : L) (k : V a → Prog L V) (h : c.prog i = .load a k) :
      Step c ⟨i, a, false⟩ ⟨c.mem, Function.update c.prog i (k (c.mem a))⟩
  | store (c : Conf ι L V) (i : ι) (a : L) (v : V a) (k : Prog L V) (h : c.prog i = .store a v k) :
      Step c ⟨i, a, true⟩ ⟨Function.update c.mem a v, Function.update c.prog i k⟩

/-- An execution: any number of accesses in any interleaving. -/
inductive Exec : Conf ι L V → List (Event ι L) → Conf ι L V → Prop
  | done (c : Conf ι L V) : Exec c [] c
  | more {c c' c'' : Conf ι L V} {e : Event ι L} {t : List (Event ι L)} :
      Step c e c' → Exec c' t c'' → Exec c (e :: t) c''

/-- Every thread has come to its end. -/
def Finished (c : Conf ι L V) : Prop := ∀ i, c.prog i = .stop

/-- Two iterations access one cell and one of them writes it. -/
def Race (t : List (Event ι L)) : Prop :=
  ∃ e ∈ t, ∃ e' ∈ t, e.thread ≠ e'.thread ∧ e.cell = e'.cell ∧ (e.write = true ∨ e'.write = true)

/-! ## Two vectors -/

/-- The elements of the vector a loop reads and of the vector it writes. -/
inductive Addr
  | src (i : Nat)
  | dst (i : Nat)

/-- The types of the elements. -/
abbrev Cell (α β : Type) : Addr → Type
  | .src _ => α
  | .dst _ => β

/-- The source vector is `l`. -/
def Source {α β : Type} (m : (a : Addr) → Cell α β a) (l : List α) : Prop :=
  ∀ i v, l[i]? = some v → m (.src i) = v

/-- The destination vector is `l`. -/
def Destination {α β : Type} (m : (a : Addr) → Cell α β a) (l : List β) : Prop :=
  ∀ i v, l[i]? = some v → m (.dst i) = v

/-- No access beyond the end of a source of `n` and a destination of `n'` elements, and none writes the
source. -/
def Inside (n n' : Nat) (t : List (Event ι Addr)) : Prop :=
  ∀ e ∈ t, match e.cell with
    | .src i => i < n ∧ e.write = false
    | .dst i => i < n'

/-- However the accesses interleave: there is no race and no access beyond the ends of the source of `n`
elements and of the destination, and at the end the destination is `l`. And there are executions that come to
the end. -/
def Computes {α β : Type} (P : ι → Prog Addr (Cell α β)) (m : (a : Addr) → Cell α β a) (n : Nat) (l : List β) :
    Prop :=
  (∃ t c, Exec ⟨m, P⟩ t c ∧ Finished c) ∧
  ∀ t c, Exec ⟨m, P⟩ t c → ¬ Race t ∧ Inside n l.length t ∧ (Finished c → Destination c.mem l)

end TinyDIP.Par
