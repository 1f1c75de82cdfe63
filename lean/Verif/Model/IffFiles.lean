import Verif.Model.Iff
import Verif.Model.Lossless
import Verif.Model.FileTags
/-!
# Whole WAV and AIFF files

`lofty/src/id3/v2/write/chunk_file.rs`: the ID3v2 tag of such a file, in a chunk of its own.  `lofty/src/iff/wav/read.rs`,
`lofty/src/iff/aiff/read.rs`: all tags and the properties.
-/
namespace Lofty.IffFiles
open Lofty.Iff Lofty.FileTags

/-- `B::write_u32`: a number in the byte order of the format. -/
def u32 (be : Bool) (n : Nat) : Bytes := if be then beBytes 4 n else leBytes 4 n

/-! ## Saving ID3v2 tags -/

/-- `write_id3v2_chunk`, id3/v2/write/chunk_file.rs 26-51 (`tag.len() as u32` truncates). -/
def tagChunk (be upper : Bool) (tag : Bytes) : Bytes :=
  (if upper then ascii "ID3 " else ascii "id3 ") ++ (u32 be tag.length ++ (tag ++ (if tag.length % 2 ≠ 0 then [0] else [])))

/-- The loop of `find_existing_id3v2_tag`, id3/v2/write/chunk_file.rs 239-261: where the first ID3v2 chunk starts and
ends. -/
def findId3Loop (be strict : Bool) : Nat → Chunks → Except Err (Option (Nat × Nat))
  | 0, _ => .error .diverge
  | fuel + 1, c => do
    let (h, c) ← c.next be strict
    match h with
    | none => .ok none
    | some h =>
      if h.fourcc = ascii "ID3 " ∨ h.fourcc = ascii "id3 " then do
        let c ← c.skip
        .ok (some (h.start + 12, c.streamPosition + 12))
      else findId3Loop be strict fuel c

/-- `find_existing_id3v2_tag`, id3/v2/write/chunk_file.rs 193-264: the size of the stream and the place of the tag.  The
second reader starts behind the twelve bytes of the first chunk, but is only made eight bytes shorter. -/
def findId3 (be strict : Bool) (f : Bytes) : Except Err (Nat × Option (Nat × Nat)) := do
  let (h, _) ← (Chunks.new f 0 f.length).next be strict
  match h with
  | none => .error .parse
  | some h =>
    if f.length < h.size + 8 then .error .sizeMismatch
    else do
      let r ← findId3Loop be strict (h.size + 8 + 1) (Chunks.new f 12 (h.size + 8 - 8))
      .ok (h.size + 8, r)

/-- The update of the size in the first chunk, id3/v2/write/chunk_file.rs 110-111 and 178-179: `(len as u32) - 8`. -/
def setStream (be : Bool) (g : Bytes) (len : Nat) : Except Err Bytes :=
  if len % 2 ^ 32 < 8 then .error .panic else .ok (writeAt g 4 (u32 be (len % 2 ^ 32 - 8)))

/-- `tag_chunk_size`, id3/v2/write/chunk_file.rs 62-73. -/
def tagChunkSize (tag : Bytes) : Nat := (if tag.isEmpty then 0 else tag.length + 8) + (if tag.length % 2 ≠ 0 then 1 else 0)

/-- The rewriting of the whole file, id3/v2/write/chunk_file.rs 154-185. -/
def rewrite (be upper : Bool) (f tag : Bytes) (stream : Nat) (old : Option (Nat × Nat)) : Except Err Bytes := do
  let g ← splice f stream stream (if tag.isEmpty then [] else tagChunk be upper tag)
  match old with
  | none => setStream be g (stream + tagChunkSize tag)
  | some (a, b) =>
    if b < a ∨ stream < b - a then .error .panic
    else do
      let g ← splice g a b []
      setStream be g (stream - (b - a) + tagChunkSize tag)

/-- The tag at the end of the file, id3/v2/write/chunk_file.rs 88-114. -/
def overwriteLast (be upper : Bool) (f tag : Bytes) (stream a b : Nat) : Except Err Bytes :=
  if tag.isEmpty then
    if stream < b - a then .error .panic else setStream be (truncate f a) (stream - (b - a))
  else
    let g := writeAt f a (tagChunk be upper tag)
    if b - a > tagChunkSize tag then
      let remainder := b - a - tagChunkSize tag
      if stream < remainder then .error .panic else setStream be (truncate g (b - remainder)) (stream - remainder)
    else if stream < tagChunkSize tag - (b - a) then .error .panic
    else setStream be g (stream - (tagChunkSize tag - (b - a)))

/-- `write_to_chunk_file`, id3/v2/write/chunk_file.rs 53-186: `isWav` is the format, `padded` whether there is a
`preferred_padding`, `upper` is `uppercase_id3v2_chunk`. -/
def writeChunkFile (be isWav strict upper padded : Bool) (f tag : Bytes) : Except Err Bytes := do
  let (stream, old) ← findId3 be strict f
  match old with
  | none => if tag.isEmpty then .ok f else rewrite be upper f tag stream none
  | some (a, b) =>
    if b = stream ∧ f.length = stream then overwriteLast be upper f tag stream a b
    else if isWav ∧ padded ∧ tag.isEmpty then .ok (writeAt f a (ascii "JUNK"))
    else if isWav ∧ padded ∧ b - a < 8 then .error .panic
    else if isWav ∧ padded ∧ b - a - 8 ≥ tagChunkSize tag then
      .ok (writeAt f a (tagChunk be upper tag ++ (ascii "JUNK" ++ u32 be (b - a - tagChunkSize tag))))
    else rewrite be upper f tag stream (some (a, b))

/-- `write_id3v2`, id3/v2/write/mod.rs 37-73, for WAV and AIFF files: without footer. -/
def saveId3 (be isWav strict upper : Bool) (fl : Id3v2.Flags) (w : Id3v2.WriteOpts) (padding : Option Nat)
    (fs : List Id3v2.Frame) (f : Bytes) : Except Err Bytes := do
  let new ← (if fs.isEmpty then .ok [] else do
    let body ← Id3v2.createItems w fs
    Id3v2.createTag { fl with footer := false } w.v23 padding body)
  writeChunkFile be isWav strict upper padding.isSome f new

/-! ## Reading -/

/-- `Chunk::id3_chunk`, iff/chunk.rs 280-303, of the content of the chunk. -/
def id3Chunk (o : Opts) (b : Bytes) : Except Err (Option Id3Tag) :=
  if b.length < 10 then (if o.id3.mode = .strict then .error .parse else .ok none)
  else
    match Id3v2.parseHeader b 0 with
    | .error (e, _) => .error e
    | .ok (h, p) => do
      let t ← parseId3 o h (b.drop p)
      .ok (some t)

/-- A further tag is added to the first, iff/wav/read.rs 99-113, iff/aiff/read.rs 82-94. -/
def addTag : Option Id3Tag → Option Id3Tag → Option Id3Tag
  | old, none => old
  | none, some t => some t
  | some old, some t => some (addFrames old t.frames)

/-- The loops over all chunks of the readers, iff/wav/read.rs 55-118 and iff/aiff/read.rs 72-173: `fn` is their body; the
position of the reader at the end. -/
def chunkLoop {α : Type} (be strict : Bool) (fn : Hdr → Chunks → α → Except Err (Chunks × α)) :
    Nat → Chunks → α → Except Err (α × Nat)
  | 0, _, _ => .error .diverge
  | fuel + 1, c, a => do
    let (h, c) ← c.next be strict
    match h with
    | none => .ok (a, c.pos)
    | some h => do
      let (c, a) ← fn h c a
      chunkLoop be strict fn fuel c a

/-- What the WAV reader collects for the properties, iff/wav/read.rs 47-49. -/
structure WavAudio where
  stream : Nat
  samples : Nat
  fmt : Bytes

/-- What the WAV reader collects, iff/wav/read.rs 47-53. -/
structure WavAcc where
  audio : WavAudio
  items : List Item
  id3v2 : Option Id3Tag

/-- One chunk of the loop of `read_from`, iff/wav/read.rs 56-116. -/
def wavChunk (o : Opts) (fileLen : Nat) (h : Hdr) (c : Chunks) (a : WavAcc) : Except Err (Chunks × WavAcc) :=
  if h.fourcc = ascii "fmt " ∧ o.readProps ∧ a.audio.fmt = [] then do
    let (b, c) ← c.readExact h.size
    .ok (c, { a with audio.fmt := b })
  else if h.fourcc = ascii "fact" ∧ o.readProps ∧ a.audio.samples = 0 then do
    let (b, c) ← c.readExact 4
    .ok (c, { a with audio.samples := fromLE b })
  else if h.fourcc = ascii "data" ∧ o.readProps ∧ a.audio.stream = 0 then .ok (c, { a with audio.stream := h.size })
  else if h.fourcc = ascii "LIST" then
    if o.readTags then do
      let (c, items) ← Iff.wavChunk (o.id3.mode = .strict) (fun _ => .ok ()) fileLen h c a.items
      .ok (c, { a with items := items })
    else if h.size < 4 then .error .sizeMismatch
    else do
      let (_, c) ← c.readExact 4
      .ok (c, a)
  else if (h.fourcc = ascii "ID3 " ∨ h.fourcc = ascii "id3 ") ∧ o.readTags then do
    let (b, c) ← c.readExact h.size
    let t ← id3Chunk o b
    .ok (c, { a with id3v2 := addTag a.id3v2 t })
  else .ok (c, a)

/-- `WavFile`, iff/wav/mod.rs 16-29; no items are no INFO list (read.rs 131). -/
structure WavFile where
  props : Option Lossless.Wav
  info : List Item
  id3v2 : Option Id3Tag

/-- `read_from`, iff/wav/read.rs 32-134. -/
def readWav (o : Opts) (f : Bytes) : Except Err WavFile := do
  let _ ← verifyWav f
  let fileLen := f.length - 12
  let (a, pos) ← chunkLoop false (o.id3.mode = .strict) (wavChunk o fileLen) (fileLen + 1) (Chunks.new f 12 fileLen) ⟨⟨0, 0, []⟩, [], none⟩
  if o.readProps then do
    let p ← Lossless.wav a.audio.fmt a.audio.samples a.audio.stream pos
    .ok ⟨some p, a.items, a.id3v2⟩
  else .ok ⟨none, a.items, a.id3v2⟩

/-- What the AIFF reader collects for the properties, iff/aiff/read.rs 64-65. -/
structure AiffAudio where
  comm : Option Bytes
  stream : Nat

/-- What the AIFF reader collects, iff/aiff/read.rs 64-70. -/
structure AiffAcc where
  audio : AiffAudio
  text : Iff.AiffAcc
  id3v2 : Option Id3Tag

/-- One chunk of the loop of `read_from`, iff/aiff/read.rs 73-171.  `Iff.aiffChunk` is the part for text chunks
(104-170). -/
def aiffChunk (o : Opts) (h : Hdr) (c : Chunks) (a : AiffAcc) : Except Err (Chunks × AiffAcc) :=
  if (h.fourcc = ascii "ID3 " ∨ h.fourcc = ascii "id3 ") ∧ o.readTags then do
    let (b, c) ← c.readExact h.size
    let t ← id3Chunk o b
    .ok (c, { a with id3v2 := addTag a.id3v2 t })
  else if h.fourcc = ascii "COMM" ∧ o.readProps ∧ a.audio.comm = none then
    if h.size < 18 then .error .notEnough
    else do
      let (b, c) ← c.readExact h.size
      .ok (c, { a with audio.comm := some b })
  else if h.fourcc = ascii "SSND" ∧ o.readProps then .ok (c, { a with audio.stream := h.size })
  else if o.readTags then do
    let (c, t) ← Iff.aiffChunk (o.id3.mode = .strict) (fun _ => .ok ()) h c a.text
    .ok (c, { a with text := t })
  else .ok (c, a)

/-- `AiffFile`, iff/aiff/mod.rs 17-30; a tag without any text is no tag (read.rs 209-218). -/
structure AiffFile where
  props : Option Lossless.Aiff
  text : Aiff
  id3v2 : Option Id3Tag

/-- The properties, iff/aiff/read.rs 185-205. -/
def aiffProps (a : AiffAudio) (aifc : Bool) (pos : Nat) : Except Err Lossless.Aiff :=
  match a.comm with
  | none => .error .parse
  | some comm => if a.stream = 0 then .error .parse else Lossless.aiff comm aifc a.stream pos

/-- `read_from`, iff/aiff/read.rs 47-221. -/
def readAiff (o : Opts) (f : Bytes) : Except Err AiffFile := do
  let _ ← verifyAiff f
  let aifc := decide ((f.drop 8).take 4 = ascii "AIFC")
  let fileLen := f.length - 12
  let (a, pos) ← chunkLoop true (o.id3.mode = .strict) (aiffChunk o) (fileLen + 1) (Chunks.new f 12 fileLen)
    ⟨⟨none, 0⟩, ⟨none, none, none, [], []⟩, none⟩
  let text : Aiff := ⟨a.text.name, a.text.author, a.text.copyright,
    if a.text.annotations.isEmpty then none else some a.text.annotations,
    if a.text.comments.isEmpty then none else some a.text.comments⟩
  if o.readProps then do
    let p ← aiffProps a.audio aifc pos
    .ok ⟨some p, text, a.id3v2⟩
  else .ok ⟨none, text, a.id3v2⟩

end Lofty.IffFiles
