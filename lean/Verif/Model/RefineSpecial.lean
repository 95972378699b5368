import Verif.Model.StitchSpecial

/-!
# Model: the refinement of a homography with all values a `double` can have

`compute_homography` is a parameter: the statements hold whatever it returns.
-/

namespace TinyDIP.Sp

open TinyDIP Rnd Dbl Stitch

open scoped Classical

/-- image_operations.h 7719-7746: the inliers of a model. -/
noncomputable def inliersD (thresholdSq : Dbl) (kp1 kp2 : List Pt) (ms : List (Nat × Nat)) (H : Hom) :
    Res (List (Pt × Pt)) :=
  loop (fun acc m => do
    let p1 ← vget kp1 m.1
    let p2 ← vget kp2 m.2
    let w := lin H.h31 H.h32 H.h33 p1.1 p1.2
    if w.abs.lt (.num (1 / 2 ^ 52)) then .ok acc
    else
      let dx := ((lin H.h11 H.h12 H.h13 p1.1 p1.2).div w).sub (Dbl.ofNat p2.1)
      let dy := ((lin H.h21 H.h22 H.h23 p1.1 p1.2).div w).sub (Dbl.ofNat p2.2)
      if ((dx.mul dx).add (dy.mul dy)).lt thresholdSq then .ok (acc ++ [(p1, p2)]) else .ok acc) ms []

/-- image_operations.h 7705-7760 `refine_homography`; `none` is the empty matrix, `solve` is
`compute_homography`. -/
noncomputable def refineD (solve : List (Pt × Pt) → Option Hom) (kp1 kp2 : List Pt) (ms : List (Nat × Nat))
    (H : Option Hom) (threshold : Dbl) : Res (Option Hom) :=
  match H with
  | none => .ok none
  | some H => do
    let all ← inliersD (threshold.mul threshold) kp1 kp2 ms H
    if all.length < 4 then .ok (some H)
    else
      match solve all with
      | some R => .ok (some R)
      | none => .ok (some H)

end TinyDIP.Sp
