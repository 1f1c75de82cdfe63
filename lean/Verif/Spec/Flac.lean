import Verif.Model.Bytes
/-!
# FLAC metadata layout

The layout of the metadata of a FLAC stream, from the format description: a block is one
byte (last-block flag and seven bits of type), three bytes of big-endian length, and the
content; the flag is set on the last block only.
-/
namespace Lofty.Flac.Spec

/-- Type and content of a metadata block. -/
abbrev MBlock := UInt8 × Bytes

/-- One block with its header. -/
def encodeOne (last : Bool) (b : MBlock) : Bytes :=
  (b.1 + if last then 128 else 0) :: (beBytes 3 b.2.length ++ b.2)

/-- All the blocks; exactly the last one is flagged. -/
def encode : List MBlock → Bytes
  | [] => []
  | [b] => encodeOne true b
  | b :: bs => encodeOne false b ++ encode bs

/-- A block that can be encoded: seven bits of type, 24 bits of length. -/
def MBlock.Valid (b : MBlock) : Prop := b.1 < 128 ∧ b.2.length < 2 ^ 24

/-- The blocks that survive a write: all but comments (4) and pictures (6). -/
def kept (bs : List MBlock) : List MBlock := bs.filter fun b => b.1 != 4 && b.1 != 6

end Lofty.Flac.Spec
