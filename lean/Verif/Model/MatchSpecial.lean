import Verif.Model.HistSpecial

/-!
# Model: matching descriptors with all values a `double` can have

`find_raw_matches`, `find_keypoint_matches` and `find_robust_matches` (Match) with distances and ratios that round, are
infinite or NaN; `squared_euclidean_distance` on vectors of `double`.
-/

namespace TinyDIP.Sp

open TinyDIP Rnd Dbl

open scoped Classical

variable {D : Type}

/-- image_operations.h 4081-4101 `squared_euclidean_distance` of two vectors of `double` of the same size. Different
sizes (4104-4107, an exception) are left out: all descriptors have 128 entries. -/
noncomputable def squaredSp (a b : List Dbl) : Dbl :=
  (a.zip b).foldl (fun sum p =>
    let diff := p.1.sub p.2
    sum.add (diff.mul diff)) (.num 0)

/-- image_operations.h 7339-7360 (the same lines in `find_keypoint_matches`, 7267-7286): the smallest and the second
smallest distance, which start at the largest number, and the index of the best candidate. -/
noncomputable def nearestSp (dist : D → D → Dbl) (q : D) (ds : List D) : Res (Dbl × Dbl × Nat) :=
  forUp ds.length (fun s j => do
    let t ← vget ds j
    let d := dist q t
    if d.lt s.1 then .ok (d, s.1, j)
    else if d.lt s.2.1 then .ok (s.1, d, s.2.2)
    else .ok s) (dblMax, dblMax, 2 ^ 64 - 1)

/-- image_operations.h 7317-7370 `find_raw_matches` and 7245-7296 `find_keypoint_matches`; the iterations run in the
order `sched` gives them, as in Match. -/
noncomputable def findRawSp (sched : List Nat → List Nat) (dist : D → D → Dbl) (ds1 ds2 : List D) (ratio : Dbl) :
    Res (List (Nat × Nat)) :=
  if ds1 = [] ∨ ds2 = [] then .ok []
  else
    loop (fun acc i => do
      let q ← vget ds1 i
      let s ← nearestSp dist q ds2
      if s.1.lt ((ratio.mul ratio).mul s.2.1) then .ok (acc ++ [(i, s.2.2)]) else .ok acc)
      (sched (List.range ds1.length)) []

/-- image_operations.h 7416-7459 `find_robust_matches`. -/
noncomputable def findRobustSp (sched1 sched2 : List Nat → List Nat) (dist : D → D → Dbl) (ds1 ds2 : List D)
    (ratio : Dbl) : Res (List (Nat × Nat)) := do
  let m12 ← findRawSp sched1 dist ds1 ds2 ratio
  let m21 ← findRawSp sched2 dist ds2 ds1 ratio
  loop (fun acc (m : Nat × Nat) =>
    if m21.any fun k => m.1 == k.2 && m.2 == k.1 then .ok (acc ++ [m]) else .ok acc) m12 []

end TinyDIP.Sp
