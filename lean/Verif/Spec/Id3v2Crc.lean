import Verif.Spec.OggCrc
/-!
Specification for C80: the usual CRC-32 (polynomial 0x04C11DB7, register starting with all ones, the bits of each byte from the
lowest, the register reversed and inverted at the end), and numbers in groups of seven bits.
-/
namespace Lofty.Id3v2

/-- The bits of a byte string, least significant bit of each byte first. -/
def lowBits (bs : Bytes) : List Bool :=
  bs.flatMap fun b => (List.range 8).map fun i => b.toBitVec.getLsbD i

/-- The checksum of a byte string, bit by bit. -/
def checksum (bs : Bytes) : BitVec 32 := ~~~ ((lowBits bs).foldl Ogg.crcBit (BitVec.allOnes 32)).reverse

/-- The number stored in groups of seven bits, the highest first. -/
def ofGroups (bs : Bytes) : Nat := bs.foldl (fun n b => n * 128 + b.toNat) 0

end Lofty.Id3v2
