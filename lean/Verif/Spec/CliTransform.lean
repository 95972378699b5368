import Verif.Spec.CliData
import Verif.Spec.Resample

/-!
# Specification vocabulary for the transformation commands
-/

namespace TinyDIP.Cli

open TinyDIP.Resample

/-- In every session in which the variable `v` holds `x`, the command with the arguments `$v $e` followed
by `params`, and policy words anywhere, stores `y` in `e` and changes nothing else. -/
def Gives {P F : Type} (cmd : World P F → List Str → Res (Out P F)) (params : List Str) (x y : Val P) : Prop :=
  ∀ (w : World P F) (args : List Str) (v e : Str), plainWords args = ('$' :: v) :: ('$' :: e) :: params →
    w.ws.retrieveAny v = some x → Stored w (cmd w args) e y

/-- In every session in which the variable `v` holds `x`, the command with the arguments `$v o` followed by
`params`, and policy words anywhere, fails with an exception and changes nothing. -/
def Refuses {P F : Type} (cmd : World P F → List Str → Res (Out P F)) (params : List Str) (x : Val P) : Prop :=
  ∀ (w : World P F) (args : List Str) (v o : Str), plainWords args = ('$' :: v) :: o :: params →
    w.ws.retrieveAny v = some x → Failed w (cmd w args)

/-- The trailing arguments of `lanczos_resample` ask for the radius `a`: none, for the default 3, or the
number and anything after it. -/
def AsksRadius (params : List Str) (a : Nat) : Prop :=
  a = 3 ∧ params = [] ∨ ∃ more, params = Nat.toDigits 10 a :: more

/-- The largest finite number of the type `double`. -/
noncomputable def largest : ℝ := 2 ^ 1024 - 2 ^ 971

/-- The weight of a sample at distance `d` of the resampling with `a` lobes. -/
noncomputable def lobes (a : Nat) (d : ℝ) : ℝ := if |d| < 2⁻¹ ^ 52 then 1 else lanczosWindow a d

/-- The weighted average around the centre of pixel `(x, y)` of an `nw × nh` picture in the `w × h` picture
`g`. -/
noncomputable def lanczosAt (a w h nw nh : Nat) (g : Nat → Nat → ℝ) (x y : Nat) : ℝ :=
  windowAverage (lobes a) a w h g (((x : ℝ) + 1 / 2) * ((w : ℝ) / nw) - 1 / 2)
    (((y : ℝ) + 1 / 2) * ((h : ℝ) / nh) - 1 / 2)

end TinyDIP.Cli
