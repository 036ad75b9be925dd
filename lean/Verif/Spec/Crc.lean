import Verif.Model.Crc
import Mathlib.Algebra.Polynomial.Div
import Mathlib.Data.ZMod.Basic

/-!
# CRC-32C, as polynomial division over GF(2)

RFC 3720, section 12.1: the bits of the message, each byte from its least significant bit on, are the coefficients of a polynomial;
the first 32 bits are complemented, the polynomial is multiplied by `x^32` and divided by the generator `0x11EDC6F41`; the complement
of the remainder is the checksum (coefficient of `x^31` in the least significant bit).
-/

namespace Neutron.Crc

open Polynomial

/-- Polynomials over GF(2). -/
abbrev GF2X := (ZMod 2)[X]

/-- The Castagnoli generator polynomial. -/
noncomputable def generator : GF2X :=
  X ^ 32 + X ^ 28 + X ^ 27 + X ^ 26 + X ^ 25 + X ^ 23 + X ^ 22 + X ^ 20 + X ^ 19 + X ^ 18 + X ^ 14 + X ^ 13 + X ^ 11 + X ^ 10 + X ^ 9 +
    X ^ 8 + X ^ 6 + 1

/-- The polynomial of a string of bits, highest coefficient first. -/
noncomputable def ofBits (l : List Bool) : GF2X := l.foldl (fun p b => p * X + (if b then 1 else 0)) 0

/-- The bits of a byte, least significant first. -/
def byteBits (b : UInt8) : List Bool := (List.range 8).map fun j => b.toBitVec.getLsbD j

/-- The bits of a message. -/
def messageBits (bs : Bytes) : List Bool := bs.flatMap byteBits

/-- The polynomial the checksum is the remainder of: the message times `x^32`, its first 32 bits complemented (which is adding 32 ones
in front of the 32 zeros the multiplication appends, moved up by the length of the message). -/
noncomputable def dividend (bs : Bytes) : GF2X :=
  ofBits (messageBits bs) * X ^ 32 + ofBits (List.replicate 32 true) * X ^ (messageBits bs).length

/-- The polynomial of degree below 32 with these bits as coefficients, that of `x^31` in the least significant bit. -/
noncomputable def ofWord (s : BitVec 32) : GF2X := ofBits ((List.range 32).map fun j => s.getLsbD j)

end Neutron.Crc
