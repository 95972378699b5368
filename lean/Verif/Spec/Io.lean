import Verif.Model.Io

/-!
# Specification of the image files

Stated on the bytes of a file only.
-/

namespace TinyDIP

/-- The little-endian number of `n` bytes at position `k`. -/
def leAt (file : List Byte) (k : Nat) : (n : Nat) → Nat
  | 0 => 0
  | n + 1 => (file.getD k 0).toNat + 256 * leAt file (k + 1) n

/-- Bytes per stored row of a 24-bit image: `3 * w` rounded up to a multiple of four. -/
def bmpRow24 (w : Nat) : Nat := (3 * w + 3) / 4 * 4

/-- Bytes per stored row of an 8-bit image: `w` rounded up to a multiple of four. -/
def bmpRow8 (w : Nat) : Nat := (w + 3) / 4 * 4

/-- The colour stored at position `k`: blue, green, red. -/
def bgrAt (file : List Byte) (k : Nat) : RGB :=
  ⟨file.getD (k + 2) 0, file.getD (k + 1) 0, file.getD k 0⟩

/-- A complete file with the given bit count, width field, height field, offset of the pixel data and
size of the information header. -/
structure BmpFile (file : List Byte) (bits w hfield off hs : Nat) : Prop where
  header : 54 ≤ file.length
  off_eq : leAt file 10 4 = off
  hs_eq : leAt file 14 4 = hs
  w_eq : leAt file 18 4 = w
  h_eq : leAt file 22 4 = hfield
  bits_eq : leAt file 28 2 = bits

end TinyDIP
