import Verif.Spec.Special
import Verif.Spec.Stitch
import Verif.Model.StitchSpecial

/-!
# The cost of a homography whose entries may be infinite or NaN
-/

namespace TinyDIP.Sp

open TinyDIP Stitch Dbl

open scoped Classical

/-- The matrix of zeros. -/
noncomputable def noModel : Hom where
  h11 := .num 0
  h12 := .num 0
  h13 := .num 0
  h21 := .num 0
  h22 := .num 0
  h23 := .num 0
  h31 := .num 0
  h32 := .num 0
  h33 := .num 0

/-- One coordinate of the image of `(x, y)` under a row of a homography. -/
noncomputable def rowD (a b c : Dbl) (p : Nat × Nat) : Dbl :=
  ((a.mul (.ofNat p.1)).add (b.mul (.ofNat p.2))).add c

/-- The rounded squared distance between the image of the first point of a match and its second point. -/
noncomputable def missD (H : Hom) (m : (Nat × Nat) × (Nat × Nat)) : Dbl :=
  let w := rowD H.h31 H.h32 H.h33 m.1
  let dx := ((rowD H.h11 H.h12 H.h13 m.1).div w).sub (.ofNat m.2.1)
  let dy := ((rowD H.h21 H.h22 H.h23 m.1).div w).sub (.ofNat m.2.2)
  (dx.mul dx).add (dy.mul dy)

/-- The first point has an image: its third coordinate is not nearly zero. -/
def HasImage (H : Hom) (p : Nat × Nat) : Prop := ¬ (rowD H.h31 H.h32 H.h33 p).abs.lt (.num (1 / 2 ^ 52))

/-- A match that agrees with a homography: the image exists and is closer than the threshold. NaN is not closer. -/
def AgreesD (t : Dbl) (H : Hom) (m : (Nat × Nat) × (Nat × Nat)) : Prop := HasImage H m.1 ∧ (missD H m).lt t

/-- The error of a match as it is scored. -/
noncomputable def scoredD (t : Dbl) (H : Hom) (m : (Nat × Nat) × (Nat × Nat)) : Dbl :=
  if HasImage H m.1 then missD H m else t

/-- The scores of all matches, added from the first one on. -/
noncomputable def totalD (score : Dbl → Dbl → Dbl) (t : Dbl) (H : Hom) (pts : List ((Nat × Nat) × (Nat × Nat))) : Dbl :=
  (pts.map fun m => score (scoredD t H m) t).foldl Dbl.add (.num 0)

end TinyDIP.Sp
