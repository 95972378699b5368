import Verif.Spec.Special
import Verif.Model.MatchSpecial

/-!
# Matches between descriptors whose distances may be infinite or NaN
-/

namespace TinyDIP.Sp

/-- A distance that counts: smaller than the largest `double`. Infinity and NaN do not count. -/
def Usable (d : Dbl) : Prop := d.lt (.num (2 ^ 1024 - 2 ^ 971))

/-- `j` is the first of the `n` candidates with the smallest distance, and that distance counts. -/
def FirstUsable (d : Nat → Dbl) (n j : Nat) : Prop :=
  j < n ∧ Usable (d j) ∧ (∀ k < n, ¬ (d k).lt (d j)) ∧ ∀ k < j, ¬ (d k).le (d j)

/-- `s` is the smallest distance that counts among the candidates other than `j`, and the largest `double` when there is
none. -/
def SecondUsable (d : Nat → Dbl) (n j : Nat) (s : Dbl) : Prop :=
  (s = .num (2 ^ 1024 - 2 ^ 971) ∧ ∀ k < n, k ≠ j → ¬ Usable (d k)) ∨
    ∃ k < n, k ≠ j ∧ s = d k ∧ Usable s ∧ ∀ l < n, l ≠ j → ¬ (d l).lt s

/-- Descriptor `i` of the first list matches descriptor `j` of the second one: `j` is the first nearest candidate and its
distance is below the rounded product of the squared ratio and the second distance. -/
def RawMatchSp {D : Type} (dist : D → D → Dbl) (ratio : Dbl) (ds1 ds2 : List D) (i j : Nat) : Prop :=
  ∃ q, ds1[i]? = some q ∧ ∃ d : Nat → Dbl, (∀ k (hk : k < ds2.length), d k = dist q ds2[k]) ∧
    FirstUsable d ds2.length j ∧ ∃ s, SecondUsable d ds2.length j s ∧ (d j).lt ((ratio.mul ratio).mul s)

/-- A descriptor all of whose entries are numbers. -/
def AllNumbers (a : List Dbl) : Prop := ∀ v ∈ a, ∃ x : ℝ, v = .num x

end TinyDIP.Sp
