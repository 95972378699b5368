import Verif.Model.WarpSpecial
import Mathlib.LinearAlgebra.Matrix.Notation

/-!
# Homographies made of numbers
-/

namespace TinyDIP.Sp

/-- The homography whose entries are the numbers of a matrix. -/
def homOfMat (M : Matrix (Fin 3) (Fin 3) ℝ) : Hom :=
  ⟨.num (M 0 0), .num (M 0 1), .num (M 0 2), .num (M 1 0), .num (M 1 1), .num (M 1 2), .num (M 2 0), .num (M 2 1),
    .num (M 2 2)⟩

/-- The nine entries of a homography. -/
def Hom.entries (m : Hom) : List Dbl := [m.h11, m.h12, m.h13, m.h21, m.h22, m.h23, m.h31, m.h32, m.h33]

end TinyDIP.Sp
