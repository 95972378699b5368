import Verif.Model.StitchSpecial

/-!
# Model: the homography of point pairs with all values a `double` can have

`linalg::svd_solve_ah_zero` is a parameter. The matrix of the equations is the list of its rows.
-/

namespace TinyDIP.Sp

open TinyDIP Rnd Dbl Stitch

open scoped Classical

/-- image_operations.h 7495-7523: the two rows of a pair of points. -/
noncomputable def pairRowsD (p : Pt × Pt) : List (List Dbl) :=
  let x1 := Dbl.ofNat p.1.1
  let y1 := Dbl.ofNat p.1.2
  let x2 := Dbl.ofNat p.2.1
  let y2 := Dbl.ofNat p.2.2
  [[x1.neg, y1.neg, .num (-1), .num 0, .num 0, .num 0, x2.mul x1, x2.mul y1, x2],
    [.num 0, .num 0, .num 0, x1.neg, y1.neg, .num (-1), y2.mul x1, y2.mul y1, y2]]

/-- image_operations.h 7493-7524: the rows of the linear system. -/
noncomputable def dltRowsD (points : List (Pt × Pt)) : List (List Dbl) := points.flatMap pairRowsD

/-- image_operations.h 7528-7547: the null vector, scaled, as a matrix; `none` is the result `false`. -/
noncomputable def homographyOfD : List Dbl → Option Hom
  | [a, b, c, d, e, f, g, h, s] =>
    if s.abs.lt (.num (1 / 2 ^ 52)) then none
    else some ⟨a.div s, b.div s, c.div s, d.div s, e.div s, f.div s, g.div s, h.div s, s.div s⟩
  | _ => none

/-- image_operations.h 7485-7548 `compute_homography`; `null` is `linalg::svd_solve_ah_zero`. -/
noncomputable def computeD (null : List (List Dbl) → List Dbl) (points : List (Pt × Pt)) : Option Hom :=
  if points.length < 4 then none else homographyOfD (null (dltRowsD points))

end TinyDIP.Sp
