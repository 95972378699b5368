import Verif.Model.FitSpecial
import Verif.Model.HistSpecial
import Verif.Model.Stitch

/-!
# Model: the robust estimator with all values a `double` can have

`find_homography_robust` and the inliers of `refine_homography` (Stitch) with rounding, infinities and NaN.
`compute_homography` is a parameter: the statements hold whatever it returns.
-/

namespace TinyDIP.Sp

open TinyDIP Rnd Dbl Stitch

open scoped Classical

/-- image_operations.h 7554-7561 `RansacScorer`. -/
noncomputable def ransacD (distSq thresholdSq : Dbl) : Dbl := if distSq.lt thresholdSq then .num 0 else .num 1

/-- image_operations.h 7565-7572 `MsacScorer`: `std::min(dist_sq, threshold_sq)`. -/
noncomputable def msacD (distSq thresholdSq : Dbl) : Dbl := minD distSq thresholdSq

/-- image_operations.h 7632-7650: the squared error of a match, the threshold when the projection fails. -/
noncomputable def errorSqD (thresholdSq : Dbl) (H : Hom) (p1 p2 : Pt) : Dbl :=
  let w := lin H.h31 H.h32 H.h33 p1.1 p1.2
  if w.abs.lt (.num (1 / 2 ^ 52)) then thresholdSq
  else
    let dx := ((lin H.h11 H.h12 H.h13 p1.1 p1.2).div w).sub (Dbl.ofNat p2.1)
    let dy := ((lin H.h21 H.h22 H.h23 p1.1 p1.2).div w).sub (Dbl.ofNat p2.2)
    (dx.mul dx).add (dy.mul dy)

/-- image_operations.h 7623-7652: the cost of a candidate. -/
noncomputable def costD (score : Dbl → Dbl → Dbl) (thresholdSq : Dbl) (kp1 kp2 : List Pt) (ms : List (Nat × Nat))
    (H : Hom) : Res Dbl :=
  loop (fun c m => do
    let p1 ← vget kp1 m.1
    let p2 ← vget kp2 m.2
    .ok (c.add (score (errorSqD thresholdSq H p1 p2) thresholdSq))) ms (.num 0)

/-- image_operations.h 7596: the matrix before the first candidate. -/
noncomputable def zeroHom : Hom := ⟨.num 0, .num 0, .num 0, .num 0, .num 0, .num 0, .num 0, .num 0, .num 0⟩

/-- image_operations.h 7587-7664 `find_homography_robust_impl`: `solve` is `compute_homography`, `draws` holds the random
numbers of each iteration. The result is paired with its cost. -/
noncomputable def robustD (solve : List (Pt × Pt) → Option Hom) (score : Dbl → Dbl → Dbl) (kp1 kp2 : List Pt)
    (ms : List (Nat × Nat)) (draws : List (List Nat)) (threshold : Dbl) : Res (Hom × Dbl) :=
  let thresholdSq := threshold.mul threshold
  loop (fun s ds =>
    if ms.length < 4 then .ok s
    else do
      let sample ← samplePoints kp1 kp2 ms (pick4 [] ds)
      match solve sample with
      | none => .ok s
      | some H => do
        let c ← costD score thresholdSq kp1 kp2 ms H
        if c.lt s.2 then .ok (H, c) else .ok s) draws (zeroHom, dblMax)

end TinyDIP.Sp
