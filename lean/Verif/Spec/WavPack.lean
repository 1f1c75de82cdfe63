import Verif.Spec.Lossless
/-!
# Specification: WavPack blocks

A block has a header of 32 bytes and sub-blocks, each with an identifier, a size in words of two bytes, and its data.
-/
namespace Lofty.WavPack

/-- A block. -/
structure Blk where
  version : Nat
  track : Bytes
  total : Nat
  index : Nat
  samples : Nat
  flags : Nat
  crc : Nat
  content : Bytes

/-- The bytes of a block; the size does not count its own field and the identifier. -/
def Blk.bytes (b : Blk) : Bytes :=
  ascii "wvpk" ++ leBytes 4 (24 + b.content.length) ++ leBytes 2 b.version ++ b.track ++ leBytes 4 b.total ++ leBytes 4 b.index ++
    leBytes 4 b.samples ++ leBytes 4 b.flags ++ leBytes 4 b.crc ++ b.content

/-- The fields fit, and the block is no larger than a megabyte. -/
structure Blk.Ok (b : Blk) : Prop where
  version : b.version < 2 ^ 16
  track : b.track.length = 2
  total : b.total < 2 ^ 32
  index : b.index < 2 ^ 32
  samples : b.samples < 2 ^ 32
  flags : b.flags < 2 ^ 32
  crc : b.crc < 2 ^ 32
  size : 24 + b.content.length ≤ 1048576

/-- First block of a sequence. -/
def Blk.initial (b : Blk) : Bool := b.flags.testBit 11
/-- Last block of a sequence. -/
def Blk.final (b : Blk) : Bool := b.flags.testBit 12
def Blk.mono (b : Blk) : Bool := b.flags.testBit 2
/-- Lossy. -/
def Blk.hybrid (b : Blk) : Bool := b.flags.testBit 3
def Blk.dsd (b : Blk) : Bool := b.flags.testBit 31
/-- The index of the sample rate; 15 stands for one that is given in a sub-block. -/
def Blk.rateIndex (b : Blk) : Nat := b.flags / 2 ^ 23 % 16
/-- Bits of a sample: the bytes less those shifted out. -/
def Blk.bits (b : Blk) : Nat := (b.flags % 4 + 1) * 8 - b.flags / 2 ^ 13 % 32

/-- The sub-blocks need not be read. -/
def Blk.standard (b : Blk) : Prop := b.rateIndex ≠ 15 ∧ b.dsd = false

def Blk.supported (b : Blk) : Prop := 0x402 ≤ b.version ∧ b.version ≤ 0x410

/-- The standard sample rates. -/
def rates : List Nat := [6000, 8000, 9600, 11025, 12000, 16000, 22050, 24000, 32000, 44100, 48000, 64000, 88200, 96000, 192000]

/-- A sub-block. -/
structure Sub where
  id : Nat
  data : Bytes

/-- The bytes of a sub-block: bit 6 of the identifier for an odd number of bytes (which are padded), bit 7 for a size of three
bytes. -/
def Sub.bytes (s : Sub) : Bytes :=
  let words := (s.data.length + 1) / 2
  let odd := s.data.length % 2
  let large := if 255 < words then 1 else 0
  UInt8.ofNat (s.id + 64 * odd + 128 * large) :: leBytes (if 255 < words then 3 else 1) words ++ s.data ++ List.replicate odd 0

end Lofty.WavPack
