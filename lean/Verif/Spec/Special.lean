import Verif.Model.Special

/-!
# What the library functions promise about special values
-/

namespace TinyDIP.Sp

/-- `std::fmod` by a full turn leaves a number of magnitude below 7 for a number, `std::cos` and `std::sin` a
number between -1 and 1; the remainder of an infinity is NaN, and NaN stays NaN. Nothing is said about accuracy. -/
structure GoodTrig (t : Trig) : Prop where
  fmod_num : ∀ x, ∃ r, t.fmod (.num x) = .num r ∧ |r| < 7
  fmod_pinf : t.fmod .pinf = .nan
  fmod_ninf : t.fmod .ninf = .nan
  fmod_nan : t.fmod .nan = .nan
  cos_num : ∀ x, ∃ c, t.cosine (.num x) = .num c ∧ |c| ≤ 1
  sin_num : ∀ x, ∃ c, t.sine (.num x) = .num c ∧ |c| ≤ 1
  cos_nan : t.cosine .nan = .nan
  sin_nan : t.sine .nan = .nan

/-- A value that is a number of magnitude at most `2 ^ k`. -/
def Within (k : Nat) (v : Dbl) : Prop := ∃ x, v = .num x ∧ |x| ≤ 2 ^ k

/-- The position is not outside of `0 … size - 1`: inside, or NaN. -/
def NotOutside (size : Nat) (v : Dbl) : Prop := v = .nan ∨ ∃ x, v = .num x ∧ 0 ≤ x ∧ x ≤ (size : ℝ) - 1

/-- Every entry is a number of magnitude at most `2 ^ k`. -/
def Hom.Within (k : Nat) (m : Hom) : Prop :=
  ∀ v ∈ [m.h11, m.h12, m.h13, m.h21, m.h22, m.h23, m.h31, m.h32, m.h33], Sp.Within k v

/-- `a x + b y + c` with each operation rounded to `double`. -/
noncomputable def affine (a b c : ℝ) (x y : Nat) : ℝ :=
  Rnd.dbl (Rnd.dbl (Rnd.dbl (a * x) + Rnd.dbl (b * y)) + c)

/-- A text that begins as a number: with a digit or a point, possibly after a minus sign. -/
def Numeral (s : Cli.Str) : Prop :=
  ∃ c rest, (s = c :: rest ∨ s = '-' :: c :: rest) ∧ (c ∈ "0123456789.".toList)

/-- Some of the words that `std::from_chars` reads as NaN or as an infinity. -/
def specialWords : List Cli.Str :=
  ["nan", "NaN", "NAN", "-nan", "inf", "Inf", "INF", "-inf", "infinity", "Infinity", "-infinity"].map String.toList

/-- The picture is turned: sampled with `sample` in a frame of `nw × nh` pixels. `c` and `t` are the cosine and
the sine; each pixel is the sample at a position that is off by at most a `2 ^ -50` part of the size. -/
def Turned {α : Type} (sample : Dbl → Dbl → Res α) (w h : Nat) (c t : ℝ) (nw nh : Nat) (g : Nat → Nat → α) : Prop :=
  ∀ x y : Nat, x < nw → y < nh → ∃ px py : ℝ, sample (.num px) (.num py) = .ok (g x y) ∧
    |px - (((x : ℝ) - ((nw : ℝ) - 1) / 2) * c + ((y : ℝ) - ((nh : ℝ) - 1) / 2) * t + ((w : ℝ) - 1) / 2)|
      ≤ (w + h) / 2 ^ 50 ∧
    |py - (-((x : ℝ) - ((nw : ℝ) - 1) / 2) * t + ((y : ℝ) - ((nh : ℝ) - 1) / 2) * c + ((h : ℝ) - 1) / 2)|
      ≤ (w + h) / 2 ^ 50

end TinyDIP.Sp
