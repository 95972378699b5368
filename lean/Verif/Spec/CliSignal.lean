import Verif.Spec.CliTransform
import Verif.Spec.Rotate

/-!
# Specification vocabulary for the commands rotate, normalize, to_complex, dct3, gaussian_figure_2d and
sift_generate_octave
-/

namespace TinyDIP.Cli

/-- The argument `a`, without the quotation marks and blanks around it, is read by `std::from_chars` (`dbl`)
as the number `v`. -/
def Reads (dbl : Str → Option ℝ) (a : Str) (v : ℝ) : Prop := ∃ s, Means a s ∧ dbl s = some v

/-- The trailing arguments of `sift_generate_octave` ask for `levels`, `sigma` and `k`; what is left out has
the default 5, 1.6 and √2. -/
def AsksOctave (dbl : Str → Option ℝ) (params : List Str) (levels : Nat) (sigma k : ℝ) : Prop :=
  (match params with | [] => levels = 5 | a :: _ => levels < 2 ^ 64 ∧ a = Nat.toDigits 10 levels) ∧
  (match params with | _ :: b :: _ => Reads dbl b sigma | _ => sigma = 1.6) ∧
  (match params with | _ :: _ :: c :: _ => Reads dbl c k | _ => k = Real.sqrt 2)

end TinyDIP.Cli
