import Verif.Model.CliSift
import Verif.Spec.CliSignal
import Verif.Spec.CliTransform
import Verif.Spec.Sift
import Verif.Spec.Filter
import Verif.Spec.Resample
import Verif.Spec.Grid

/-!
# Specification vocabulary for the command get_sift_potential_keypoint
-/

namespace TinyDIP.Cli

open TinyDIP.Resample TinyDIP.Sift

/-- The optional argument number `i` reads as `v`, or is left out and `v` is the default. -/
def Given {α : Type} (params : List Str) (i : Nat) (reads : Str → α → Prop) (dflt v : α) : Prop :=
  match params[i]? with
  | some a => reads a v
  | none => v = dflt

/-- The trailing arguments ask for these values; the defaults are 4 octaves, 5 levels, sigma 1.6, k √2,
contrast threshold 8, edge threshold 12.1 and `bicubic`. -/
def AsksSift (dbl : Str → Option ℝ) (params : List Str) (count levels : Nat) (sigma k contrast edge : ℝ)
    (word : Str) : Prop :=
  Given params 0 (fun a n => n < 2 ^ 64 ∧ a = Nat.toDigits 10 n) 4 count ∧
  Given params 1 (fun a n => n < 2 ^ 64 ∧ a = Nat.toDigits 10 n) 5 levels ∧
  Given params 2 (Reads dbl) 1.6 sigma ∧ Given params 3 (Reads dbl) (Real.sqrt 2) k ∧
  Given params 4 (Reads dbl) 8 contrast ∧ Given params 5 (Reads dbl) 12.1 edge ∧
  Given params 6 (fun a w => a = w) "bicubic".toList word

/-- The picture at half size (rounded down). -/
noncomputable def halved (word : Str) (w h : Nat) (f : Nat → Nat → ℝ) : Nat → Nat → ℝ :=
  if word = "lanczos".toList then lanczosAt 3 w h (w / 2) (h / 2) f
  else fun x y => limit (-largest) largest
    (cubicAt w h f ((x : ℝ) * ((w : ℝ) / (w / 2 : Nat))) ((y : ℝ) * ((h : ℝ) / (h / 2 : Nat))))

/-- The picture of octave `o`: halved `o` times. -/
noncomputable def pyramid (word : Str) (w h : Nat) (f : Nat → Nat → ℝ) : Nat → Nat → Nat → ℝ
  | 0 => f
  | o + 1 => pyramid word (w / 2) (h / 2) (halved word w h f) o

/-- Level `s` of octave `o`: the picture of the octave smoothed with `sigma k^s` minus smoothed with
`sigma k^(s + 1)`. -/
noncomputable def levelOf (word : Str) (w h : Nat) (f : Nat → Nat → ℝ) (sigma k : ℝ) (o s x y : Nat) : ℝ :=
  Filter.smoothed (w / 2 ^ o) (h / 2 ^ o) (pyramid word w h f o) (sigma * k ^ s) x y -
    Filter.smoothed (w / 2 ^ o) (h / 2 ^ o) (pyramid word w h f o) (sigma * k ^ (s + 1)) x y

/-- A pixel of the middle one of three levels `s`, `s + 1`, `s + 2` of one of `count` octaves that lies off
the border and is a strict extremum among its 26 neighbours, above the threshold in magnitude. -/
structure Candidate (word : Str) (w h : Nat) (f : Nat → Nat → ℝ) (sigma k : ℝ) (count levels : Nat)
    (contrast : ℝ) (o s x y : Nat) : Prop where
  octave : o < count
  level : s + 3 < levels
  inner : Inner (w / 2 ^ o) (h / 2 ^ o) x y
  extremum : StrictExtremum (fun i : Fin 3 => levelOf word w h f sigma k o (s + i)) x y contrast

/-- The location `(u, v)` in the picture of octave `o`, in pixels of the whole picture. -/
noncomputable def wholePicture (w h o : Nat) (u : ℝ × ℝ) : Nat × Nat :=
  (⌊u.1 / (w / 2 ^ o : Nat) * w⌋₊, ⌊u.2 / (h / 2 ^ o : Nat) * h⌋₊)

/-- Every parallel loop runs each of its iterations once. -/
structure Sched.Fair (s : Sched) : Prop where
  levels : ∀ n l, (s.levels n l).Perm l
  pixels : ∀ l, (s.pixels l).Perm l
  octaves : ∀ l, (s.octaves l).Perm l
  scales : ∀ l, (s.scales l).Perm l
  inspect : ∀ l, (s.inspect l).Perm l

/-- The variable `v` holds the `w × h` picture `f` as an image of floating-point numbers or of bytes. -/
def HoldsPicture {F : Type} (wd : World PayR F) (v : Str) (w h : Nat) (f : Nat → Nat → ℝ) : Prop :=
  (∃ im : Image ℝ, wd.ws.retrieveAny v = some (.atom tyDouble (.real im)) ∧ im.Shows w h f) ∨
  ∃ (im : Image (BitVec 8)) (b : Nat → Nat → BitVec 8), wd.ws.retrieveAny v = some (.atom tyByte (.bytes im)) ∧
    im.Shows w h b ∧ ∀ x y, f x y = (b x y).toNat

/-- The arguments ask for no execution policy, or the last one they ask for is `seq`. -/
def OneByOne (args : List Str) : Prop :=
  (∀ a ∈ args, a ∉ ["seq".toList, "par".toList, "unseq".toList, "par_unseq".toList]) ∨
  ∃ before after, args = before ++ "seq".toList :: after ∧
    ∀ a ∈ after, a ∉ ["seq".toList, "par".toList, "unseq".toList, "par_unseq".toList]

end TinyDIP.Cli
