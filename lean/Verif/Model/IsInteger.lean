import Verif.Model.Special

/-!
# `is_integer` (basic_functions.h 377-395)
-/

namespace TinyDIP.Sp

/-- `std::modf`: the fractional part, with the sign of the number. Not from the repository: the C++ library, used at
basic_functions.h 387. The whole part is the number rounded towards zero; the difference is exact; an infinity has the
fractional part zero. -/
noncomputable def modf : Dbl → Dbl
  | .num x => .num (if 0 ≤ x then x - ⌊x⌋ else x - ⌈x⌉)
  | .pinf => .num 0
  | .ninf => .num 0
  | .nan => .nan

/-- basic_functions.h 382-388 `is_integer` of a floating-point number. -/
def isInteger (input : Dbl) : Prop := modf input = .num 0

/-- basic_functions.h 390-394 `is_integer` of an integer. -/
def isIntegerOfInt (_input : Int) : Prop := True

end TinyDIP.Sp
