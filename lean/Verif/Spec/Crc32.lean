import Verif.Model.Base

/-! CRC-32 (ISO 3309, as used by Ethernet, gzip and PNG), described without tables: a 32-cell shift register fed one bit at a time.

The register is a list of 32 bits, the coefficient of x^31 first. A message bit enters at the end of the highest coefficient: when it differs from
that coefficient, the generator polynomial x^32+x^26+x^23+x^22+x^16+x^12+x^11+x^10+x^8+x^7+x^5+x^4+x^2+x+1 is subtracted after the shift. The bytes
are sent lowest bit first; the register starts full of ones and is complemented at the end, and the value is the register read with the coefficient
of x^31 in the lowest bit. -/

namespace Verif.Spec.Crc32
open Verif

/-- Coefficients of x^31 … x^0 of the generator polynomial. -/
def poly : List Bool :=
  [31, 30, 29, 28, 27, 26, 25, 24, 23, 22, 21, 20, 19, 18, 17, 16, 15, 14, 13, 12, 11, 10, 9, 8, 7, 6, 5, 4, 3, 2, 1, 0].map
    (fun e => [26, 23, 22, 16, 12, 11, 10, 8, 7, 5, 4, 2, 1, 0].contains e)

/-- One message bit shifted into the register. -/
def shift : List Bool → Bool → List Bool
  | top :: rest, bit => if top = bit then rest ++ [false] else List.zipWith xor (rest ++ [false]) poly
  | [], _ => []

/-- The bits of a byte in sending order, the lowest first. -/
def bitsOf (b : UInt8) : List Bool := (List.range 8).map (fun i => b.toNat.testBit i)

/-- The register after a message, complemented. -/
def register (s : Bytes) : List Bool := ((s.flatMap bitsOf).foldl shift (List.replicate 32 true)).map not

/-- The number whose lowest bit is the head of the list. -/
def valueOf : List Bool → Nat
  | [] => 0
  | b :: l => b.toNat + 2 * valueOf l

/-- The checksum. -/
def checksum (s : Bytes) : Nat := valueOf (register s)

end Verif.Spec.Crc32
