import Verif.Model.Save
/-!
# Tags of files named by a path

`lofty/src/tag/{tag_ext,tag_type}.rs`, `lofty/src/util/io.rs`, `lofty/src/probe.rs`: `save_to_path` opens the file for reading
and writing and guesses its type by its content; `remove_from_path` opens it for reading only and takes its type from the
extension.  A path is an extension and the bytes of the file it names.
-/
namespace Lofty.Paths
open Item Save

/-- A file with the extension of its path, if there is one. -/
structure Path where
  ext : Option Str
  bytes : Bytes

/-- Why a call failed: an error of the library, or the operating system refused to write. -/
inductive Failure
  | lib (e : Err)
  | notWritable
  deriving DecidableEq

/-- `TagExt::save_to_path`, tag/tag_ext.rs 81-94: opened for reading and writing, with the cursor at the start. -/
def saveToPath (o : Options) (t : Tag) (p : Path) : Except Failure Path :=
  match saveTo o t p.bytes with
  | .ok g => .ok { p with bytes := g }
  | .error e => .error (.lib e)

/-- `flac::write::write_to_inner` without items and pictures returns before it writes anything, flac/write.rs 130-134. -/
def flacQuiet (f : Bytes) : Bool :=
  let r : Except Err Bool := do
    let (_, pos) ← Id3v2.find f 0 false none
    let si ← Flac.verify f pos
    let s ← Flac.scan f (f.length + 1) si.last ⟨[{ si with last := false }], si.stop, [], false, false⟩
    .ok !s.remove
  r.toOption.getD false

/-- `write_to_chunk_file` without a tag in the file and without a new one writes nothing, id3/v2/write/chunk_file.rs
148-152. -/
def chunksQuiet (o : Options) (be : Bool) (f : Bytes) : Bool :=
  let r : Except Err Bool := do
    let (_, old) ← IffFiles.findId3 be (o.mode = .strict) f
    .ok old.isNone
  r.toOption.getD false

/-- `write_to` without items writes nothing if there is no `udta` or no `meta` atom, mp4/ilst/write.rs 88-91 and
117-120. -/
def mp4Quiet (o : Options) (f : Bytes) : Bool :=
  let r : Except Err Bool := do
    let (atoms, _, _) ← Mp4Write.readAtoms o.mode (f.length + 1) (Mp4.Rd.new f) f.length
    match Mp4Write.findTop atoms (ascii "moov") with
    | none => .ok false
    | some moov => do
      let (udta, r) ← Mp4.findChild (f.length + 1) (Mp4.Rd.at f (moov.info.start + moov.info.headerSize)) moov.info.len
        (ascii "udta") o.mode
      match udta with
      | none => .ok true
      | some u => do
        let (m, _) ← Mp4.findChild (f.length + 1) r u.len (ascii "meta") o.mode
        .ok m.isNone
  r.toOption.getD false

/-- Whether `write_tag` of an empty tag (tag/utils.rs 20-47) returns without a call of `write` or `truncate`.  All other
writers have such a call on every path to their end: ape/tag/write.rs 172-174, id3/v1/write.rs 31-42, id3/v2/write/mod.rs
85-89, mp4/write.rs 169-175, ogg/tag/write.rs 110-111, iff/wav/tag/write.rs 75-77 and 101-103, iff/aiff/tag/mod.rs 468-470,
iff chunk files: id3/v2/write/chunk_file.rs 88-185, flac/write.rs 179. -/
def quiet (o : Options) (ft : FileType) (t : TagType) (f : Bytes) : Bool :=
  match ft, t with
  | .flac, .vorbisComments => flacQuiet f
  | .mp4, _ => mp4Quiet o f
  | .wav, .id3v2 => chunksQuiet o false f
  | .aiff, .id3v2 => chunksQuiet o true f
  | _, _ => false

/-- `TagType::remove_from_path`, tag/tag_type.rs 126-133, with `VerifiedFile::new_from_path` (util/io.rs 270-281) and
`Probe::open` (probe.rs 257-272): `File::open` opens for reading only, so the first call of `write` or `truncate`
(util/io.rs 199-224) fails, and the writer returns that error.  The file afterwards. -/
def removeFromPath (o : Options) (t : TagType) (p : Path) : Except Failure Unit × Path :=
  match p.ext.bind FileType.fromExt with
  | none => (.error (.lib .parse), p)
  | some ft =>
    if !(ft.tagSupport t).readable then (.error (.lib .unsupported), p)
    else
      match writeTag o ft (Tag.new t) p.bytes with
      | .error e => (.error (.lib e), p)
      | .ok _ => (if quiet o ft t p.bytes then .ok () else .error .notWritable, p)

/-- What the documentation says: "Remove a tag from a path", like `TagType::remove_from` on the file opened for reading and
writing (tag/tag_type.rs 121-156). -/
def removeFromOpened (o : Options) (t : TagType) (p : Path) : Except Failure Path :=
  match removeFrom o t p.bytes with
  | .ok g => .ok { p with bytes := g }
  | .error e => .error (.lib e)

end Lofty.Paths
