import Verif.Model.Special
import Verif.Model.ImageIter

/-!
# Model: the perspective warp with an execution policy and all values a `double` can have

`linalg::invert` and `warp_perspective` with rounding, infinities and NaN.
-/

namespace TinyDIP.Sp

open TinyDIP Rnd Dbl

/-- linear_algebra.h:263-284: `a * b - c * d`. -/
noncomputable def crossD (a b c d : Dbl) : Dbl := (a.mul b).sub (c.mul d)

/-- linear_algebra.h:263-265: the determinant. -/
noncomputable def detD (m : Hom) : Dbl :=
  ((m.h11.mul (crossD m.h22 m.h33 m.h32 m.h23)).sub (m.h12.mul (crossD m.h21 m.h33 m.h23 m.h31))).add
    (m.h13.mul (crossD m.h21 m.h32 m.h22 m.h31))

open Classical in
/-- linear_algebra.h:250-286 `invert` of a 3×3 matrix; `none` is the empty matrix. -/
noncomputable def invertD (m : Hom) : Option Hom :=
  if (detD m).abs.lt (.num (dbl (1 / 10 ^ 9))) then none
  else
    let d := (Dbl.num 1).div (detD m)
    some ⟨(crossD m.h22 m.h33 m.h32 m.h23).mul d, (crossD m.h13 m.h32 m.h12 m.h33).mul d,
      (crossD m.h12 m.h23 m.h13 m.h22).mul d, (crossD m.h23 m.h31 m.h21 m.h33).mul d,
      (crossD m.h11 m.h33 m.h13 m.h31).mul d, (crossD m.h21 m.h13 m.h11 m.h23).mul d,
      (crossD m.h21 m.h32 m.h31 m.h22).mul d, (crossD m.h31 m.h12 m.h11 m.h32).mul d,
      (crossD m.h11 m.h22 m.h21 m.h12).mul d⟩

variable {α : Type}

open Classical in
/-- image_operations.h 7853-7909 `warp_perspective` with an execution policy, for a matrix that is not empty;
`order` is the order in which the policy visits the indices. -/
noncomputable def warpPolicyD (zero : α) (interp : Dbl → Dbl → Res α) (m : Hom) (w h : Nat) (order : List Nat) :
    Res (Image α) :=
  match invertD m with
  | none => .ok (Image.ofSizes zero [w, h])
  | some k =>
    loop (fun out idx => do
      let y ← udiv idx w
      let x ← umod idx w
      let d := lin k.h31 k.h32 k.h33 x y
      if (Dbl.num (1 / 2 ^ 52)).lt d.abs then do
        let v ← interp ((lin k.h11 k.h12 k.h13 x y).div d) ((lin k.h21 k.h22 k.h23 x y).div d)
        out.set2 x y v
      else .ok out) order (Image.ofSizes zero [w, h])

end TinyDIP.Sp
