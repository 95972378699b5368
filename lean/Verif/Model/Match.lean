import Verif.Model.Res
import Mathlib.Algebra.Order.Field.Basic

/-!
# Matching of descriptors (image_operations.h 7229-7478)
-/

namespace TinyDIP.Match

variable {K D : Type} [Field K] [LinearOrder K]

/-- image_operations.h 7349-7370 (the same lines in `find_keypoint_matches`, 7262-7281): the smallest and
the second smallest distance and the index of the best candidate. `big` is
`numeric_limits<FloatingType>::max()`. -/
def nearest (dist : D → D → K) (big : K) (q : D) (ds : List D) : Res (K × K × Nat) :=
  forUp ds.length (fun s j => do
    let t ← vget ds j
    let d := dist q t
    if d < s.1 then .ok (d, s.1, j)
    else if d < s.2.1 then .ok (s.1, d, s.2.2)
    else .ok s) (big, big, 2 ^ 64 - 1)

/-- image_operations.h 7319-7383 `find_raw_matches` and 7246-7295 `find_keypoint_matches`. The
iterations run in the order `sched` gives them; the append is protected by a mutex. Simplifications:
the distance function does not throw; the number of descriptors is less than 2^64. -/
def findRawMatches (sched : List Nat → List Nat) (dist : D → D → K) (big : K) (ds1 ds2 : List D) (ratio : K) :
    Res (List (Nat × Nat)) :=
  if ds1 = [] ∨ ds2 = [] then .ok []
  else
    loop (fun acc i => do
      let q ← vget ds1 i
      let s ← nearest dist big q ds2
      if s.1 < ratio * ratio * s.2.1 then .ok (acc ++ [(i, s.2.2)]) else .ok acc)
      (sched (List.range ds1.length)) []

/-- image_operations.h 7417-7459 `find_robust_matches`; the inner loop stops at the first symmetric
match. -/
def findRobustMatches (sched1 sched2 : List Nat → List Nat) (dist : D → D → K) (big : K) (ds1 ds2 : List D)
    (ratio : K) : Res (List (Nat × Nat)) := do
  let m12 ← findRawMatches sched1 dist big ds1 ds2 ratio
  let m21 ← findRawMatches sched2 dist big ds2 ds1 ratio
  loop (fun acc (m : Nat × Nat) =>
    if m21.any fun k => m.1 == k.2 && m.2 == k.1 then .ok (acc ++ [m]) else .ok acc) m12 []

end TinyDIP.Match
