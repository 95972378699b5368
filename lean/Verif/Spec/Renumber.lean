/-!
# Specification of numbered names
-/

namespace TinyDIP.Renumber

/-- The five digits of a number below 100000. -/
def fiveDigits (n : Nat) : List Char :=
  [n / 10000, n / 1000 % 10, n / 100 % 10, n / 10 % 10, n % 10].map Nat.digitChar

end TinyDIP.Renumber
