import Verif.Model.Basic

/-!
# CRC-32C

`codec.rs:105` calls `crc32c::crc32c`, a dependency.  It computes the CRC-32C (Castagnoli) of a byte string: reflected
polynomial 0x82F63B78, initial value and final xor 0xFFFFFFFF (RFC 3720 appendix B.4).  The definition here is the
bit-at-a-time one.
-/

namespace Neutron.Crc

/-- The reflected Castagnoli polynomial. -/
def poly : BitVec 32 := 0x82F63B78#32

/-- One bit of polynomial division. -/
def bit (s : BitVec 32) : BitVec 32 := if s.getLsbD 0 then (s >>> 1) ^^^ poly else s >>> 1

/-- Eight bits of polynomial division. -/
def bits8 (s : BitVec 32) : BitVec 32 := bit (bit (bit (bit (bit (bit (bit (bit s)))))))

/-- One message byte. -/
def step (s : BitVec 32) (b : UInt8) : BitVec 32 := bits8 (s ^^^ b.toBitVec.zeroExtend 32)

/-- Register contents after a byte string. -/
def run (s : BitVec 32) (bs : Bytes) : BitVec 32 := bs.foldl step s

/-- `crc32c::crc32c(bytes)`. -/
def crc32c (bs : Bytes) : Nat := (run 0xFFFFFFFF#32 bs ^^^ 0xFFFFFFFF#32).toNat

end Neutron.Crc
