import Verif.Model.OggWrite
import Verif.Model.IffFiles
/-!
# Readers with the allocation limit

The buffers whose size a file decides are made by `try_vec!`, which refuses more than `GlobalOptions::allocation_limit` elements.
The readers of Model/Vorbis, Model/OggWrite and Model/IffFiles leave this out; here they are with it.
-/
namespace Lofty.Limits
open Lofty.Ogg Lofty.OggProps

/-- `GlobalOptions::DEFAULT_ALLOCATION_LIMIT`, config/global_options.rs 32. -/
def defaultLimit : Nat := 16 * 1024 * 1024

/-- Whether `try_vec![0; n]` succeeds, util/alloc.rs 51-57 (the allocator has the memory; see Model/Alloc). -/
def tryVec (limit n : Nat) : Except Err Unit := if limit < n then .error .alloc else .ok ()

/-! ## Vorbis comments -/

/-- The loop of `read_comments`, ogg/tag/read.rs 80-249. -/
def readItems (limit : Nat) (o : Vorbis.Opts) : Nat → Nat → Vorbis.Tag → Bytes → Except Err (Vorbis.Tag × Bytes)
  | 0, _, t, d => .ok (t, d)
  | n + 1, len, t, d => do
    let (cl, d) ← readLE 4 d
    if cl > len then .error .sizeMismatch
    else do
      let _ ← tryVec limit cl
      let (comment, d) ← readN cl d
      let t ← Vorbis.readItem o t comment
      readItems limit o n (len - cl) t d

/-- `read_comments`, ogg/tag/read.rs 21-252. -/
def readComments (limit : Nat) (o : Vorbis.Opts) (d : Bytes) (len : Nat) : Except Err (Vorbis.Tag × Bytes) := do
  let (vl, d) ← readLE 4 d
  if vl > len then .error .sizeMismatch
  else do
    let _ ← tryVec limit vl
    let (raw, d) ← readN vl d
    let len := len - vl
    let vendor ← Vorbis.readVendor o raw
    let (n, d) ← readLE 4 d
    if n > len / 4 % 2 ^ 32 then .error .sizeMismatch
    else readItems limit o n len ⟨vendor, [], []⟩ d

/-- The comments of an OGG file: `read_from`, ogg/read.rs 10-53, with `read_tags`. -/
def readOgg (limit : Nat) (fmt : OggWrite.Format) (o : Vorbis.Opts) (f : Bytes) : Except Err Vorbis.Tag := do
  let h ← readHeaders f fmt.head fmt.sig fmt.count true
  let c := h.comment.drop fmt.sig.length
  let (t, _) ← readComments limit o c c.length
  .ok t

/-- The vendor string of the comments in the file, ogg/tag/write.rs 86-105, which is all that saving reads of them. -/
def oldVendor (limit : Nat) (b : Bytes) : Except Err Str := do
  let (n, b) ← readLE 4 b
  let _ ← tryVec limit n
  let (raw, _) ← readN n b
  .ok ((fromUtf8 raw).getD [])

/-- `write`, ogg/tag/write.rs 40-140. -/
def writeOgg (limit : Nat) (fmt : OggWrite.Format) (t : Vorbis.Tag) (f : Bytes) : Except Err Bytes := do
  let (first, _) ← PageHeader.read 0 f
  let (packets, rest) ← Packets.readCount f fmt.count
  let comment? ← packets.get 1
  match comment?, rest with
  | some comment, some rest =>
    if hasSignature comment fmt.sig = false then .error .parse
    else do
      let vendor ← oldVendor limit (comment.drop fmt.sig.length)
      let new ← Vorbis.createPacket { t with vendor := vendor } fmt.sig fmt.framing
      let (packets, _) ← packets.set 1 new
      let (head, n) ← packets.writeTo first.serial 0 firstPageFlag
      let tail ← OggWrite.renumber (rest.length + 1) (n % 2 ^ 32) rest
      .ok (head ++ tail)
  | _, _ => .error .parse

/-! ## ID3v2 chunks -/

/-- Whether the content of a chunk is too long for `id3_chunk`, which reads it as a whole (iff/chunk.rs 266-278, 285). -/
def tooLong (limit : Nat) (o : FileTags.Opts) (h : Iff.Hdr) : Prop :=
  (h.fourcc = ascii "ID3 " ∨ h.fourcc = ascii "id3 ") ∧ o.readTags = true ∧ limit < h.size

instance (limit : Nat) (o : FileTags.Opts) (h : Iff.Hdr) : Decidable (tooLong limit o h) := by unfold tooLong; infer_instance

/-- One chunk of the loop of `read_from`, iff/wav/read.rs 56-116, with the limit for ID3v2 chunks (99-101); that for `fmt ` chunks
and for the texts of INFO lists is left out. -/
def wavChunk (limit : Nat) (o : FileTags.Opts) (fileLen : Nat) (h : Iff.Hdr) (c : Iff.Chunks) (a : IffFiles.WavAcc) :
    Except Err (Iff.Chunks × IffFiles.WavAcc) :=
  if tooLong limit o h then .error .alloc else IffFiles.wavChunk o fileLen h c a

/-- `read_from`, iff/wav/read.rs 32-134. -/
def readWav (limit : Nat) (o : FileTags.Opts) (f : Bytes) : Except Err IffFiles.WavFile := do
  let _ ← Iff.verifyWav f
  let fileLen := f.length - 12
  let (a, pos) ← IffFiles.chunkLoop false (o.id3.mode = .strict) (wavChunk limit o fileLen) (fileLen + 1) (Iff.Chunks.new f 12 fileLen) ⟨⟨0, 0, []⟩, [], none⟩
  if o.readProps then do
    let p ← Lossless.wav a.audio.fmt a.audio.samples a.audio.stream pos
    .ok ⟨some p, a.items, a.id3v2⟩
  else .ok ⟨none, a.items, a.id3v2⟩

/-- One chunk of the loop of `read_from`, iff/aiff/read.rs 73-171, with the limit for ID3v2 chunks (82-84); that for `COMM` chunks and
for the texts is left out. -/
def aiffChunk (limit : Nat) (o : FileTags.Opts) (h : Iff.Hdr) (c : Iff.Chunks) (a : IffFiles.AiffAcc) :
    Except Err (Iff.Chunks × IffFiles.AiffAcc) :=
  if tooLong limit o h then .error .alloc else IffFiles.aiffChunk o h c a

/-- `read_from`, iff/aiff/read.rs 47-221. -/
def readAiff (limit : Nat) (o : FileTags.Opts) (f : Bytes) : Except Err IffFiles.AiffFile := do
  let _ ← Iff.verifyAiff f
  let aifc := decide ((f.drop 8).take 4 = ascii "AIFC")
  let fileLen := f.length - 12
  let (a, pos) ← IffFiles.chunkLoop true (o.id3.mode = .strict) (aiffChunk limit o) (fileLen + 1) (Iff.Chunks.new f 12 fileLen)
    ⟨⟨none, 0⟩, ⟨none, none, none, [], []⟩, none⟩
  let text : Iff.Aiff := ⟨a.text.name, a.text.author, a.text.copyright,
    if a.text.annotations.isEmpty then none else some a.text.annotations,
    if a.text.comments.isEmpty then none else some a.text.comments⟩
  if o.readProps then do
    let p ← IffFiles.aiffProps a.audio aifc pos
    .ok ⟨some p, text, a.id3v2⟩
  else .ok ⟨none, text, a.id3v2⟩

end Lofty.Limits
