import Verif.Model.Match

/-!
# Specification of matching
-/

namespace TinyDIP.Match

variable {K D : Type} [Field K] [LinearOrder K]

/-- `j` is the first of the `n` candidates with the smallest distance. -/
def FirstNearest (d : Nat → K) (n j : Nat) : Prop :=
  j < n ∧ (∀ k < n, d j ≤ d k) ∧ ∀ k < j, d j < d k

/-- The ratio test on squared distances: the distance of `j` is below `ratio²` times every other
distance, and (which says something only when there is no other candidate) below `ratio²` times the
largest number. -/
def RatioTest (d : Nat → K) (n j : Nat) (ratio big : K) : Prop :=
  (∀ k < n, k ≠ j → d j < ratio ^ 2 * d k) ∧ d j < ratio ^ 2 * big

/-- Descriptor `i` of the first list matches descriptor `j` of the second one. -/
def RawMatch (dist : D → D → K) (big ratio : K) (ds1 ds2 : List D) (i j : Nat) : Prop :=
  ∃ q, ds1[i]? = some q ∧ ∃ d : Nat → K, (∀ k (hk : k < ds2.length), d k = dist q ds2[k]) ∧
    FirstNearest d ds2.length j ∧ RatioTest d ds2.length j ratio big

end TinyDIP.Match
