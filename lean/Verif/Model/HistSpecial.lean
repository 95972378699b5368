import Verif.Model.Special
import Verif.Model.Hist

/-!
# Model: a histogram with bins of pictures of `double`, with all values a `double` can have

`histogram_with_bins` (Hist, HistFlt) on pictures of `double` with rounding, infinities and NaN, and with the default
range of the function.
-/

namespace TinyDIP.Sp

open TinyDIP Image Rnd Dbl Hist

/-- `std::floor(a)`. image_operations.h 1356. -/
noncomputable def Dbl.floor : Dbl → Dbl
  | .num x => .num ⌊x⌋
  | a => a

/-- `std::numeric_limits<double>::max()`. image_operations.h 1348. -/
noncomputable def dblMax : Dbl := .num (2 ^ 1024 - 2 ^ 971)

/-- `std::numeric_limits<double>::lowest()`. image_operations.h 1347. -/
noncomputable def dblLowest : Dbl := .num (-(2 ^ 1024 - 2 ^ 971))

/-- image_operations.h 1356: the bin index of a pixel. The conversion to `size_t` is undefined for infinities and NaN. -/
noncomputable def binIndexSp (bins : Nat) (lowest max v : Dbl) : Res Nat :=
  ((v.mul (ofNat bins)).div (max.sub lowest)).floor.toIndex

/-- image_operations.h 1344-1367 `histogram_with_bins` for `double`. -/
noncomputable def withBinsSp (bins : Nat) (im : Image Dbl) (lowest max : Dbl) : Res (List Nat) :=
  loop (fun out v => do
    let b ← binIndexSp bins lowest max v
    if b = bins then addDense out (bins - 1) else addDense out b) im.data (List.replicate bins 0)

/-- image_operations.h 1344-1349: `histogram_with_bins(input)` for `double`, with the default range. -/
noncomputable def withBinsDefault (bins : Nat) (im : Image Dbl) : Res (List Nat) :=
  withBinsSp bins im dblLowest dblMax

end TinyDIP.Sp
