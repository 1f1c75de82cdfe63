import Verif.Model.Paths
/-!
# What is in the file when a save fails

`lofty/src/tag/tag_ext.rs`, `lofty/src/file/tagged_file.rs`, `lofty_attr/src/lofty_file.rs` and the writers of all formats.  `Save`
gives the file after a successful save; here the calls of `truncate` and `write_all` are made one after the other, in the order of
the code, so there also is a file after a save that failed.  A save can fail because the library refuses, or because the device
that the file is on is full.
-/
namespace Lofty.Storage
open Item Save

/-- Why a save failed: an error (or a panic) of the library, or a `write_all` found no more space. -/
inductive Failure
  | lib (e : Err)
  | full
  deriving DecidableEq

/-- A computation on a file: it is given the number of bytes that the device has for the file and the bytes of the file, and
leaves a file behind whether it succeeds or not. -/
def Store (α : Type) : Type := Nat → Bytes → Except Failure α × Bytes

/-- The `?` operator: what follows is done in the file that was left. -/
instance : Monad Store where
  pure a := fun _ f => (.ok a, f)
  bind x k := fun cap f =>
    match x cap f with
    | (.ok a, g) => k a cap g
    | (.error e, g) => (.error e, g)

/-! ## The operations on files (util/io.rs 18-240) -/

/-- Reading does not change the file. -/
def contents : Store Bytes := fun _ f => (.ok f, f)

/-- A computation that reads or encodes and may fail, but does not write. -/
def check {α : Type} (x : Except Err α) : Store α := fun _ f =>
  match x with
  | .ok a => (.ok a, f)
  | .error e => (.error (.lib e), f)

/-- `Truncate::truncate`, util/io.rs 18-24 and 196-224; it does not fail. -/
def cut (n : Nat) : Store Unit := fun _ f => (.ok (), truncate f n)

/-- `seek(SeekFrom::Start(p))`, then `write_all(w)`: on a full device the part that there was space for is written, and the
call fails. -/
def put (p : Nat) (w : Bytes) : Store Unit := fun cap f =>
  if (writeAt f p w).length ≤ cap then (.ok (), writeAt f p w) else (.error .full, (writeAt f p w).take cap)

/-- `rewind`, `truncate(0)`, `write_all`: the end of most writers. -/
def replaceFile (g : Bytes) : Store Unit := do
  cut 0
  put 0 g

/-! ## The writers -/

/-- `write_to`, ape/tag/write.rs 23-51, with `write_tag` (147-177). -/
def writeApe (t : Ape.Tag) : Store Unit := do
  let f ← contents
  let e ← check (Ape.findExisting {} f)
  let new ← check (Ape.createTag t)
  let g ← check (Ape.writeTag e new f)
  replaceFile g

/-- `write_id3v1`, id3/v1/write.rs 15-45. -/
def writeId3v1 (lossy : Bool) (t : Id3v1.Tag) : Store Unit := do
  let f ← contents
  let (found, _, pos) ← check (Id3v1.find false false f)
  if t.isEmpty && found then cut (f.length - 128)
  else do
    let b ← check (Id3v1.encode lossy t)
    put pos b

/-- `create_tag`, id3/v2/write/mod.rs 95-192: no frames, no tag. -/
def encodeId3v2 (fl : Id3v2.Flags) (w : Id3v2.WriteOpts) (padding : Option Nat) (fs : List Id3v2.Frame) : Except Err Bytes :=
  if fs.isEmpty then .ok [] else do
    let body ← Id3v2.createItems w fs
    Id3v2.createTag fl w.v23 padding body

/-- `write_id3v2`, id3/v2/write/mod.rs 37-92, for files that are no IFF files. -/
def writeFront (o : Options) (fl : Id3v2.Flags) (fs : List Id3v2.Frame) : Store Unit := do
  let new ← check (encodeId3v2 fl o.frames o.padding fs)
  let f ← contents
  let g ← check (Id3v2.writeFile f o.junk new)
  replaceFile g

/-- The update of the size in the first chunk, id3/v2/write/chunk_file.rs 109-111: `(len as u32) - 8`. -/
def putStream (be : Bool) (len : Nat) : Store Unit :=
  if len % 2 ^ 32 < 8 then check (.error .panic) else put 4 (IffFiles.u32 be (len % 2 ^ 32 - 8))

/-- The tag at the end of the file, id3/v2/write/chunk_file.rs 88-114: the tag is written before the new size of the stream is
computed. -/
def overwriteLast (be upper : Bool) (tag : Bytes) (stream a b : Nat) : Store Unit :=
  if tag.isEmpty then
    if stream < b - a then check (.error .panic)
    else do
      cut a
      putStream be (stream - (b - a))
  else do
    put a (IffFiles.tagChunk be upper tag)
    if b - a > IffFiles.tagChunkSize tag then
      let remainder := b - a - IffFiles.tagChunkSize tag
      if stream < remainder then check (.error .panic)
      else do
        cut (b - remainder)
        putStream be (stream - remainder)
    else if stream < IffFiles.tagChunkSize tag - (b - a) then check (.error .panic)
    else putStream be (stream - (IffFiles.tagChunkSize tag - (b - a)))

/-- `write_to_chunk_file`, id3/v2/write/chunk_file.rs 53-186. -/
def writeChunkFile (be isWav strict upper padded : Bool) (tag : Bytes) : Store Unit := do
  let f ← contents
  let (stream, old) ← check (IffFiles.findId3 be strict f)
  match old with
  | none =>
    if tag.isEmpty then pure ()
    else do
      let g ← check (IffFiles.rewrite be upper f tag stream none)
      replaceFile g
  | some (a, b) =>
    if b = stream ∧ f.length = stream then overwriteLast be upper tag stream a b
    else if isWav ∧ padded ∧ tag.isEmpty then put a (ascii "JUNK")
    else if isWav ∧ padded ∧ b - a < 8 then check (.error .panic)
    else if isWav ∧ padded ∧ b - a - 8 ≥ IffFiles.tagChunkSize tag then
      put a (IffFiles.tagChunk be upper tag ++ (ascii "JUNK" ++ IffFiles.u32 be (b - a - IffFiles.tagChunkSize tag)))
    else do
      let g ← check (IffFiles.rewrite be upper f tag stream (some (a, b)))
      replaceFile g

/-- `write_id3v2`, id3/v2/write/mod.rs 37-92. -/
def writeId3v2 (o : Options) (ft : FileType) (fl : Id3v2.Flags) (fs : List Id3v2.Frame) : Store Unit :=
  match ft with
  | .wav => do
    let new ← check (encodeId3v2 { fl with footer := false } o.frames o.padding fs)
    writeChunkFile false true (o.mode = .strict) o.upper o.padding.isSome new
  | .aiff => do
    let new ← check (encodeId3v2 { fl with footer := false } o.frames o.padding fs)
    writeChunkFile true false (o.mode = .strict) o.upper o.padding.isSome new
  | _ => writeFront o fl fs

/-- `write_to`, mp4/ilst/write.rs 31-215: everything is done on a copy of the file in memory (`AtomWriter`), which is written
to the file at the end (mp4/write.rs 170-179), unless there is nothing to do (88-91 and 117-120). -/
def writeMp4 (o : Options) (t : Ilst.Tag) : Store Unit := do
  let f ← contents
  let g ← check (Mp4Write.writeTo f t o.mode o.padding)
  if t.isEmpty && Paths.mp4Quiet o f then pure () else replaceFile g

/-- `extend_storage`, flac/write.rs 233-248. -/
def extend (B : Nat) (hB : 0 < B) (amount : Nat) : Store Unit :=
  if _h : amount = 0 then pure ()
  else do
    let f ← contents
    put f.length (List.replicate (min amount B) 0)
    extend B hB (amount - min amount B)
termination_by amount
decreasing_by omega

/-- `shift_right`, flac/write.rs 250-277. -/
def shiftRight (B : Nat) (hB : 0 < B) (start cursor amount : Nat) : Store Unit :=
  if _h : cursor > start then do
    let f ← contents
    let buf ← check (readAt f (cursor - min (cursor - start) B) (min (cursor - start) B))
    put (cursor - min (cursor - start) B + amount) buf
    shiftRight B hB start (cursor - min (cursor - start) B) amount
  else pure ()
termination_by cursor - start
decreasing_by omega

/-- `shift_left`, flac/write.rs 279-305. -/
def shiftLeft (B : Nat) (hB : 0 < B) (cursor stop amount : Nat) : Store Unit :=
  if _h : cursor < stop then do
    let f ← contents
    let buf ← check (readAt f cursor (min (stop - cursor) B))
    put (cursor - amount) buf
    shiftLeft B hB (cursor + min (stop - cursor) B) stop amount
  else pure ()
termination_by stop - cursor
decreasing_by omega

/-- `replace_range`, flac/write.rs 186-231. -/
def replaceRange (B : Nat) (hB : 0 < B) (start stop : Nat) (new : Bytes) : Store Unit := do
  let f ← contents
  if start > stop then check (.error .sizeMismatch)
  else if stop > f.length then check (.error .sizeMismatch)
  else do
    if new.length > stop - start then do
      extend B hB (new.length - (stop - start))
      shiftRight B hB stop f.length (new.length - (stop - start))
    else if new.length < stop - start then do
      shiftLeft B hB stop f.length (stop - start - new.length)
      cut (f.length - (stop - start - new.length))
    else pure ()
    put start new

/-- `write_to_inner`, flac/write.rs 48-182. -/
def writeFlac (t : Vorbis.Tag) (preferred : Option Nat) : Store Unit := do
  let f ← contents
  let (_, pos) ← check (Id3v2.find f 0 false none)
  let si ← check (Flac.verify f pos)
  let s ← check (Flac.scan f (f.length + 1) si.last ⟨[{ si with last := false }], si.stop, t.vendor, false, false⟩)
  if !s.remove && t.items.isEmpty && t.pictures.isEmpty then pure ()
  else do
    let new ← check (Flac.encodeTag s.vendor t.items t.pictures)
    let out ← check (Flac.writeBlocks (Flac.markLast ((s.blocks ++ new) ++
      Flac.paddingBlocks s.padding preferred (s.stop - si.start) (s.blocks ++ new))))
    replaceRange Flac.moveBufferSize (by decide) si.start s.stop out

/-- The pages written by `Packets::write_to`, ogg_pager/src/packets.rs 399-402, one after the other. -/
def sendAll : List Bytes → Store Unit
  | [] => pure ()
  | b :: bs => do
    let f ← contents
    put f.length b
    sendAll bs

/-- The loop over the remaining pages, ogg/tag/write.rs 127-137. -/
def renumber : Nat → Nat → Bytes → Store Unit
  | 0, _, _ => check (.error .diverge)
  | fuel + 1, seq, d =>
    match Ogg.Page.read 0 d with
    | .error _ => pure ()
    | .ok (p, d) =>
      if 2 ^ 32 ≤ seq then check (.error .panic)
      else do
        let f ← contents
        put f.length ({ p with header := { p.header with seq := seq } } : Ogg.Page).genCrc.asBytes
        renumber fuel (seq + 1) d

/-- `write`, ogg/tag/write.rs 40-140: the pages are made and written after the file was truncated. -/
def writeOgg (fmt : OggWrite.Format) (t : Vorbis.Tag) : Store Unit := do
  let f ← contents
  let (first, _) ← check (Ogg.PageHeader.read 0 f)
  let (packets, rest) ← check (Ogg.Packets.readCount f fmt.count)
  let comment? ← check (packets.get 1)
  match comment?, rest with
  | some comment, some rest =>
    if OggProps.hasSignature comment fmt.sig = false then check (.error .parse)
    else do
      let vendor ← check (OggWrite.oldVendor (comment.drop fmt.sig.length))
      let new ← check (Vorbis.createPacket { t with vendor := vendor } fmt.sig fmt.framing)
      let (packets, _) ← check (packets.set 1 new)
      cut 0
      let pages ← check (packets.paginate first.serial 0 Ogg.firstPageFlag)
      sendAll (pages.map fun q => q.genCrc.asBytes)
      renumber (rest.length + 1) (pages.length % 2 ^ 32) rest
  | _, _ => check (.error .parse)

/-- `VorbisCommentsRef::write_to`, ogg/tag.rs 707-720, with the match on the format at the start of `write`,
ogg/tag/write.rs 50-55. -/
def writeVorbis (o : Options) (ft : FileType) (t : Vorbis.Tag) : Store Unit :=
  match ft with
  | .flac => writeFlac t o.padding
  | .opus => writeOgg .opus t
  | .vorbis => writeOgg .vorbis t
  | .speex => writeOgg .speex t
  | _ => check (.error .panic)

/-- `write_riff_info`, iff/wav/tag/write.rs 22-108: the list is put together and all checks are made before the file is
truncated (75-77 and 101-103). -/
def writeInfo (strict : Bool) (t : List Iff.Item) : Store Unit := do
  let f ← contents
  let g ← check (Iff.writeInfo strict f t)
  replaceFile g

/-- `AiffTextChunksRef::write_to_inner`, iff/aiff/tag/mod.rs 427-473: everything is done before the file is truncated
(468-470). -/
def writeAiff (strict : Bool) (t : Iff.Aiff) : Store Unit := do
  let f ← contents
  let g ← check (Iff.writeAiff strict f t)
  replaceFile g

/-! ## Saving -/

/-- `TagWriteExt::save_to` of the tags (the lines cited at `Save.Own.write`). -/
def write (o : Options) (ft : FileType) : Own → Store Unit
  | .ape t => writeApe t
  | .id3v1 t => writeId3v1 o.lossy t
  | .id3v2 fl fs => writeId3v2 o ft fl fs
  | .mp4Ilst t => writeMp4 o t
  | .vorbisComments t => writeVorbis o ft t
  | .riffInfo t => writeInfo (o.mode = .strict) t
  | .aiffText t => writeAiff (o.mode = .strict) t

/-- `TagExt::save_to`, tag/tag_ext.rs 100-117. -/
def save (o : Options) (x : Own) : Store Unit := do
  let f ← contents
  let ft ← check (verified f)
  if !(ft.tagSupport x.type).writable && !x.isEmpty then check (.error .unsupported)
  else write o ft x

/-- `AudioFile::save_to` of the file of a format, lofty_attr/src/lofty_file.rs 483-515: its tags one after the other. -/
def saveAll (o : Options) : List Own → Store Unit
  | [] => pure ()
  | x :: xs => do
    save o x
    saveAll o xs

end Lofty.Storage
