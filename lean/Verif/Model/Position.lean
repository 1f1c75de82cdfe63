import Verif.Model.Save
/-!
# Saving to a file whose cursor is anywhere

`lofty/src/tag/{tag_ext,tag_type}.rs`, `lofty/src/util/io.rs` and the writers of all formats: `TagExt::save_to` and
`TagType::remove_from` do not rewind the file they are given.  Its type is guessed at the position of the cursor, the guess
leaves the cursor where it was (probe.rs 322-399), and the writer of the format starts there.  `Save` has the same functions
for a cursor at the start; here `p` is the position of the cursor.
-/
namespace Lofty.Position
open Item Save

/-- `VerifiedFile::new`, util/io.rs 251-260, with the cursor at `p`. -/
def verified (f : Bytes) (p : Nat) : Except Err FileType :=
  match Probe.guessFileType ⟨f, p, none, none⟩ with
  | .error e => .error e
  | .ok s =>
    match s.type with
    | some t => .ok t
    | none => .error .parse

/-! ## The writers -/

/-- `write_to`, ape/tag/write.rs 23-51, with `find_existing_ape_tags` (60-145): the ID3v2 tag and the APE tag in front of the
audio are searched from the cursor, the one at the end of the file from the end. -/
def findApe (f : Bytes) (p : Nat) : Except Err Ape.Existing := do
  let (_, p) ← Id3v2.find f p false none
  let _ ← readAt f p 8
  let head ← Ape.readTag {} f (p + 8) false
  let (_, _, q) ← Id3v1.find false false f
  if q < 15 then .error .eof
  else if q < 32 then .error .eof
  else do
    let foot ← Ape.readTag {} f (q - 32) true
    let range ← Ape.footRange q foot
    .ok ⟨Ape.headRange (p + 8) head, range, q⟩

/-- `write_to`, ape/tag/write.rs 23-51: the file is rewound before its bytes are read (148-150). -/
def writeApe (f : Bytes) (p : Nat) (t : Ape.Tag) : Except Err Bytes := do
  let e ← findApe f p
  let new ← Ape.createTag t
  Ape.writeTag e new f

/-- `write_id3v2`, id3/v2/write/mod.rs 37-92, for files that are no IFF files: the tag is searched from the cursor, what is
behind it is read, the file is rewound, truncated and written. -/
def saveId3v2 (fl : Id3v2.Flags) (w : Id3v2.WriteOpts) (padding : Option Nat) (junk : Nat) (fs : List Id3v2.Frame) (f : Bytes)
    (p : Nat) : Except Err Bytes := do
  let new ← (if fs.isEmpty then .ok [] else do
    let body ← Id3v2.createItems w fs
    Id3v2.createTag fl w.v23 padding body)
  let (_, q) ← Id3v2.find f p false (some junk)
  .ok (new ++ f.drop q)

/-- `find_existing_id3v2_tag`, id3/v2/write/chunk_file.rs 193-264: the first chunk is read at the cursor, the others from the
twelfth byte of the file. -/
def findId3 (be strict : Bool) (f : Bytes) (p : Nat) : Except Err (Nat × Option (Nat × Nat)) := do
  let (h, _) ← (Iff.Chunks.new f p f.length).next be strict
  match h with
  | none => .error .parse
  | some h =>
    if f.length < h.size + 8 then .error .sizeMismatch
    else do
      let r ← IffFiles.findId3Loop be strict (h.size + 8 + 1) (Iff.Chunks.new f 12 (h.size + 8 - 8))
      .ok (h.size + 8, r)

/-- `write_to_chunk_file`, id3/v2/write/chunk_file.rs 53-186: all places are counted from the start of the file. -/
def writeChunkFile (be isWav strict upper padded : Bool) (f : Bytes) (p : Nat) (tag : Bytes) : Except Err Bytes := do
  let (stream, old) ← findId3 be strict f p
  match old with
  | none => if tag.isEmpty then .ok f else IffFiles.rewrite be upper f tag stream none
  | some (a, b) =>
    if b = stream ∧ f.length = stream then IffFiles.overwriteLast be upper f tag stream a b
    else if isWav ∧ padded ∧ tag.isEmpty then .ok (writeAt f a (ascii "JUNK"))
    else if isWav ∧ padded ∧ b - a < 8 then .error .panic
    else if isWav ∧ padded ∧ b - a - 8 ≥ IffFiles.tagChunkSize tag then
      .ok (writeAt f a (IffFiles.tagChunk be upper tag ++ (ascii "JUNK" ++ IffFiles.u32 be (b - a - IffFiles.tagChunkSize tag))))
    else IffFiles.rewrite be upper f tag stream (some (a, b))

/-- `write_id3v2`, id3/v2/write/mod.rs 37-73, for WAV and AIFF files. -/
def saveId3 (be isWav strict upper : Bool) (fl : Id3v2.Flags) (w : Id3v2.WriteOpts) (padding : Option Nat)
    (fs : List Id3v2.Frame) (f : Bytes) (p : Nat) : Except Err Bytes := do
  let new ← (if fs.isEmpty then .ok [] else do
    let body ← Id3v2.createItems w fs
    Id3v2.createTag { fl with footer := false } w.v23 padding body)
  writeChunkFile be isWav strict upper padding.isSome f p new

/-- `Id3v2TagRef::write_to`, i.e. `write_id3v2`, id3/v2/write/mod.rs 37-92. -/
def writeId3v2 (o : Options) (ft : FileType) (fl : Id3v2.Flags) (fs : List Id3v2.Frame) (f : Bytes) (p : Nat) :
    Except Err Bytes :=
  match ft with
  | .wav => saveId3 false true (o.mode = .strict) o.upper fl o.frames o.padding fs f p
  | .aiff => saveId3 true false (o.mode = .strict) o.upper fl o.frames o.padding fs f p
  | _ => saveId3v2 fl o.frames o.padding o.junk fs f p

/-- `write_to`, mp4/ilst/write.rs 31-215: the file type atom is read at the cursor (`AtomReader::new`, atom_reader.rs 34-43:
the bounds are those of the whole file), then the file is rewound (49). -/
def writeMp4 (f : Bytes) (p : Nat) (t : Ilst.Tag) (mode : Mode) (pad : Option Nat) : Except Err Bytes := do
  let _ ← Mp4.verifyMp4 ⟨f, 0, f.length, p, f.length⟩ mode
  let (atoms, _, _) ← Mp4Write.readAtoms mode (f.length + 1) (Mp4.Rd.new f) f.length
  match Mp4Write.findTop atoms (ascii "moov") with
  | none => .error .parse
  | some moov => do
    let ilst ← Ilst.build t
    Mp4Write.writeMoov f atoms moov ilst mode pad

/-- `VorbisCommentsRef::write_to`, ogg/tag.rs 707-720: `flac::write::write_to_inner` rewinds the file first (flac/write.rs 60);
`write` (ogg/tag/write.rs 40-140) reads from the cursor to the end, rewinds, truncates and writes. -/
def writeVorbis (o : Options) (ft : FileType) (t : Vorbis.Tag) (f : Bytes) (p : Nat) : Except Err Bytes :=
  match ft with
  | .flac => Flac.writeTo f t o.padding
  | .opus => OggWrite.write .opus t (f.drop p)
  | .vorbis => OggWrite.write .vorbis t (f.drop p)
  | .speex => OggWrite.write .speex t (f.drop p)
  | _ => .error .panic

/-- `write_riff_info`, iff/wav/tag/write.rs 22-108: the size of the stream is read at the cursor, then the file is rewound
(38). -/
def writeInfo (strict : Bool) (f : Bytes) (p : Nat) (items : List Iff.Item) : Except Err Bytes := do
  let orig ← Iff.verifyWav (f.drop p)
  let info ← Iff.createInfo items
  if 2 ^ 32 ≤ orig + 8 then .error .panic
  else if f.length < orig + 8 then .error .sizeMismatch
  else if orig < 4 then .error .panic
  else do
    let found ← Iff.findInfo strict (orig + 1) (Iff.Chunks.new f 12 (orig - 4))
    match found with
    | none =>
      let new := info.length + orig
      if new > 2 ^ 32 - 1 then .error .tooMuch
      else do
        let g ← Iff.splice f (orig + 8) (orig + 8) info
        .ok (writeAt g 4 (leBytes 4 new))
    | some (size, pos) =>
      let start := pos - 12
      if 2 ^ 32 ≤ 8 + size then .error .panic
      else if orig < 8 + size then .error .panic
      else
        let new := info.length + (orig - (8 + size))
        if new > 2 ^ 32 - 1 then .error .tooMuch
        else do
          let g ← Iff.splice f start (start + (8 + size)) info
          Iff.splice g 4 8 (leBytes 4 new)

/-- `AiffTextChunksRef::write_to_inner`, iff/aiff/tag/mod.rs 427-473: the chunks are read from twelve bytes behind the cursor,
their places are counted as if it had been at the start (486-532), and the length is that of the whole file (438). -/
def writeAiff (strict : Bool) (f : Bytes) (p : Nat) (t : Iff.Aiff) : Except Err Bytes := do
  let _ ← Iff.verifyAiff (f.drop p)
  let fileLen := f.length - 12
  let text ← Iff.createText t
  let (ranges, comm) ← Iff.findText strict (fileLen + 1) (Iff.Chunks.new f (p + 12) fileLen) [] none
  let g ← match ranges with
    | [] => Iff.splice f comm comm text
    | (a, b) :: rs => do
      let g ← Iff.drainRanges f rs.reverse
      Iff.splice g a b text
  if g.length < 8 then .error .panic
  else Iff.splice g 4 8 (beBytes 4 ((g.length - 8) % 2 ^ 32))

/-! ## Saving -/

/-- `TagWriteExt::save_to` of the tags (the lines cited at `Save.Own.write`); `write_id3v1` seeks from the end of the file
(id3/v1/write.rs 26, id3/mod.rs 126-160). -/
def write (o : Options) (ft : FileType) (f : Bytes) (p : Nat) : Own → Except Err Bytes
  | .ape t => writeApe f p t
  | .id3v1 t => Id3v1.write o.lossy f t
  | .id3v2 fl fs => writeId3v2 o ft fl fs f p
  | .mp4Ilst t => writeMp4 f p t o.mode o.padding
  | .vorbisComments t => writeVorbis o ft t f p
  | .riffInfo t => writeInfo (o.mode = .strict) f p t
  | .aiffText t => writeAiff (o.mode = .strict) f p t

/-- `TagExt::save_to`, tag/tag_ext.rs 100-117, with the cursor at `p`: the file afterwards. -/
def save (o : Options) (x : Own) (p : Nat) (f : Bytes) : Except Err Bytes :=
  match verified f p with
  | .error e => .error e
  | .ok ft =>
    if !(ft.tagSupport x.type).writable && !x.isEmpty then .error .unsupported
    else write o ft f p x

end Lofty.Position
