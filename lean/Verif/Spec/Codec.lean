import Verif.Model.Go

/-!
# The encodings of RFC 4648
-/

namespace Verif.Codec

/-- The standard alphabet of base64. -/
def base64Alphabet : Str := lit "ABCDEFGHIJKLMNOPQRSTUVWXYZabcdefghijklmnopqrstuvwxyz0123456789+/"

/-- The digits of hexadecimal text. -/
def hexAlphabet : Str := lit "0123456789abcdef"

/-- Bit `k` of a string of bytes, beginning with the most significant bit of the first byte; behind the end all the bits are 0. -/
def bitAt (s : Str) (k : Nat) : Nat := (s.getD (k / 8) 0).toNat / 2 ^ (7 - k % 8) % 2

/-- The number with the six bits from bit `6 j` on. -/
def sextet (s : Str) (j : Nat) : Nat :=
  32 * bitAt s (6 * j) + 16 * bitAt s (6 * j + 1) + 8 * bitAt s (6 * j + 2) + 4 * bitAt s (6 * j + 3) + 2 * bitAt s (6 * j + 4) + bitAt s (6 * j + 5)

/-- The number with the four bits from bit `4 j` on. -/
def nibble (s : Str) (j : Nat) : Nat := 8 * bitAt s (4 * j) + 4 * bitAt s (4 * j + 1) + 2 * bitAt s (4 * j + 2) + bitAt s (4 * j + 3)

end Verif.Codec
