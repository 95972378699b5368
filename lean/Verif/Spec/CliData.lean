import Verif.Model.CliData
import Verif.Spec.Cli

/-!
# Specification vocabulary for the data commands
-/

namespace TinyDIP.Cli

/-- `q` is a value of type `n`. -/
def Fits : Num → ℚ → Prop
  | .bool, q => q = 0 ∨ q = 1
  | .uchar, q => ∃ k : ℕ, k < 2 ^ 8 ∧ q = k
  | .int, q => ∃ k : ℤ, -2 ^ 31 ≤ k ∧ k < 2 ^ 31 ∧ q = k
  | .sizeT, q => ∃ k : ℕ, k < 2 ^ 64 ∧ q = k
  | .double, _ => True

/-- `v` is an image or a container whose elements are the numbers `l` of type `n`, in order. -/
inductive Holds : Val Pay → Num → List ℚ → Prop
  | image (n : Num) (im : Image ℚ) : Holds (.atom (.image (.num n)) (.image im)) n im.data
  | cont (k : Kind) (n : Num) (l : List ℚ) :
      Holds (.cont k (.num n) (l.map fun q => .atom (.num n) (.num q))) n l

/-- `group` arranges exactly the initial value and the elements, in some order and grouping. -/
def Arranges (group : Grouping) : Prop :=
  ∀ (α : Type) (a : α) (l : List α), (group α a l).leaves.Perm (a :: l)

/-- `c` is what arithmetic of type `n` makes of the exact result `q`. -/
def WrapsTo : Num → ℚ → ℚ → Prop
  | .bool, q, c => (q = 0 ∧ c = 0) ∨ (q ≠ 0 ∧ c = 1)
  | .uchar, q, c => Fits .uchar c ∧ ∃ k : ℤ, q = c + 2 ^ 8 * k
  | .int, q, c => Fits .int c ∧ c = q
  | .sizeT, q, c => Fits .sizeT c ∧ ∃ k : ℤ, q = c + 2 ^ 64 * k
  | .double, q, c => c = q

/-- The command returned and changed at most the variable `d`, which now holds `r`. -/
def Stored {P F : Type} (w : World P F) (res : Res (Out P F)) (d : Str) (r : Val P) : Prop :=
  ∃ w', res = .ok ⟨w', .returned, none⟩ ∧ w'.ws.retrieveAny d = some r ∧ OnlyVar w w' d

/-- The command returned and changed nothing. -/
def Nothing {P F : Type} (w : World P F) (res : Res (Out P F)) : Prop :=
  res = .ok ⟨w, .returned, none⟩

/-- The command failed with an exception and changed nothing. -/
def Failed {P F : Type} (w : World P F) (res : Res (Out P F)) : Prop :=
  res = .ok ⟨w, .threw, none⟩

/-- The argument `arg`, for data with elements of type `n`, denotes the number `q` of type `m`: a
variable, a decimal literal, a negative literal, a truth value in any mixture of cases, or a text that `std::from_chars` (`dbl`)
reads as `double`. -/
inductive Names {F : Type} (dbl : Str → Option ℚ) (w : World Pay F) (n : Num) : Str → Num → ℚ → Prop
  | var (v : Str) (m : Num) (q : ℚ) (h : w.ws.retrieveAny v = some (.atom (.num m) (.num q))) :
      Names dbl w n ('$' :: v) m q
  | dec (k : ℕ) (hn : n = .uchar ∨ n = .int ∨ n = .sizeT) (h : Fits n k) :
      Names dbl w n (Nat.toDigits 10 k) n k
  | neg (k : ℕ) (hn : n = .int) (h : k ≤ 2 ^ 31) : Names dbl w n ('-' :: Nat.toDigits 10 k) n (-k)
  | yes (s : Str) (hn : n = .bool) (hs : s = ['1'] ∨ s.map Char.toLower = "true".toList) : Names dbl w n s n 1
  | no (s : Str) (hn : n = .bool) (hs : s = ['0'] ∨ s.map Char.toLower = "false".toList) : Names dbl w n s n 0
  | real (s : Str) (q : ℚ) (hn : n = .double) (hv : s.head? ≠ some '$') (h1 : ∀ c, s.head? = some c → ¬ Junk c)
      (h2 : ∀ c, s.getLast? = some c → ¬ Junk c) (h : dbl s = some q) : Names dbl w n s n q

/-- `==` between numbers of types `n` and `m` compares the numbers: not between `int` and `std::size_t`,
where the `int` is converted to `std::size_t`. -/
def Exact (n m : Num) : Prop := ¬ (n = .int ∧ m = .sizeT) ∧ ¬ (n = .sizeT ∧ m = .int)

end TinyDIP.Cli
