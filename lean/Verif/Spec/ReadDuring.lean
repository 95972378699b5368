import Verif.Model.ReadDuring
import Verif.Spec.Grid
import Verif.Spec.Io

/-!
# Specification of files that change while they are read
-/

namespace TinyDIP

/-- A file the program wrote for a picture with less than 2^31 bytes of data. -/
def BmpOf (bytes : List Byte) (w h : Nat) (f : Nat → Nat → RGB) : Prop :=
  0 < w ∧ 0 < h ∧ bmpRow24 w * h < 2 ^ 31 ∧ ∃ fs fs' name im, im.Shows w h f ∧
    bmpWrite fs name im = .ok (fs', 0) ∧ fs'.content (name ++ ".bmp".toList) = some bytes

end TinyDIP
