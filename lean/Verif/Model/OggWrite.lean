import Verif.Model.OggProps
import Verif.Model.Vorbis
/-!
# Saving Vorbis comments to an OGG file

Models `write` of `lofty/src/ogg/tag/write.rs` and the reading of the comments in `ogg/read.rs`.  A file is its bytes,
with the reader at its start; the result of saving is the new content of the file.  The allocation limit of `try_vec!` is
not modelled.
-/
namespace Lofty.OggWrite
open Lofty.Ogg Lofty.OggProps Lofty.Vorbis

/-- The formats `write` is called for, ogg/tag/write.rs 51-56. -/
inductive Format
  | opus
  | vorbis
  | speex
  deriving DecidableEq, Repr

/-- `header_packet_count`, ogg/tag/write.rs 51-56; opus/mod.rs 33-39, vorbis/mod.rs 33-39, speex/mod.rs 32. -/
def Format.count : Format → Nat
  | .opus => 2
  | .vorbis => 3
  | .speex => 2

/-- The signature of the identification packet, asked for when reading: opus/mod.rs, vorbis/mod.rs, speex/mod.rs. -/
def Format.head : Format → Bytes
  | .opus => opusHead
  | .vorbis => vorbisHead
  | .speex => speexHead

/-- `comment_signature`, ogg/tag/write.rs 51-56 and 88; the absent one of Speex is always there. -/
def Format.sig : Format → Bytes
  | .opus => opusTags
  | .vorbis => vorbisTags
  | .speex => []

/-- `add_framing_bit`, ogg/tag/write.rs 109. -/
def Format.framing : Format → Bool
  | .vorbis => true
  | _ => false

/-- The vendor string of the comments in the file, ogg/tag/write.rs 91-105. -/
def oldVendor (b : Bytes) : Except Err Str := do
  let (n, b) ← readLE 4 b
  let (raw, _) ← readN n b
  .ok ((fromUtf8 raw).getD [])

/-- The loop over the remaining pages, ogg/tag/write.rs 127-137: `seq` is the number of the next page, whose overflow
panics in checked builds.  Every page takes at least 28 bytes, so the length of the input is enough fuel. -/
def renumber : Nat → Nat → Bytes → Except Err Bytes
  | 0, _, _ => .error .diverge
  | fuel + 1, seq, d =>
    match Page.read 0 d with
    | .error _ => .ok []
    | .ok (p, d) =>
      if 2 ^ 32 ≤ seq then .error .panic
      else do
        let out ← renumber fuel (seq + 1) d
        let p := { p with header := { p.header with seq := seq } }
        .ok (p.genCrc.asBytes ++ out)

/-- `write`, ogg/tag/write.rs 40-140. -/
def write (fmt : Format) (t : Tag) (f : Bytes) : Except Err Bytes := do
  let (first, _) ← PageHeader.read 0 f
  let (packets, rest) ← Packets.readCount f fmt.count
  let comment? ← packets.get 1
  match comment?, rest with
  | some comment, some rest =>
    if hasSignature comment fmt.sig = false then .error .parse
    else do
      let vendor ← oldVendor (comment.drop fmt.sig.length)
      let new ← createPacket { t with vendor := vendor } fmt.sig fmt.framing
      let (packets, _) ← packets.set 1 new
      let (head, n) ← packets.writeTo first.serial 0 firstPageFlag
      let tail ← renumber (rest.length + 1) (n % 2 ^ 32) rest
      .ok (head ++ tail)
  | _, _ => .error .parse

/-- The comments of a file: `read_from`, ogg/read.rs 10-53, with `read_tags`. -/
def read (fmt : Format) (o : Opts) (f : Bytes) : Except Err Tag := do
  let h ← readHeaders f fmt.head fmt.sig fmt.count true
  let c := h.comment.drop fmt.sig.length
  let (t, _) ← readComments o c c.length
  .ok t

end Lofty.OggWrite
