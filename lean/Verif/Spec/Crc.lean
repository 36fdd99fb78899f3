import Verif.Model.Go
/-!
# CRC-32/MPEG-2, bit by bit

Polynomial 0x04C11DB7, initial value 0xFFFFFFFF, most significant bit first, no reflection, no final xor
(ISO/IEC 13818-1 annex A).
-/
namespace Verif.Spec.Crc

/-- The bits of a byte, most significant first. -/
def bitsOf (b : UInt8) : List Bool :=
  [b.toNat.testBit 7, b.toNat.testBit 6, b.toNat.testBit 5, b.toNat.testBit 4,
   b.toNat.testBit 3, b.toNat.testBit 2, b.toNat.testBit 1, b.toNat.testBit 0]

/-- One message bit enters the shift register; the polynomial is subtracted when the bit that leaves the
register differs from it. -/
def shiftIn (reg : BitVec 32) (bit : Bool) : BitVec 32 :=
  if reg.msb = bit then reg <<< 1 else (reg <<< 1) ^^^ 0x04C11DB7#32

/-- The CRC of a message. -/
def crc (data : Bytes) : BitVec 32 := (data.flatMap bitsOf).foldl shiftIn 0xFFFFFFFF#32

end Verif.Spec.Crc
