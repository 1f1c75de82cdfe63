import Verif.Model.FileType
import Verif.Model.FileTags
import Verif.Model.IffFiles
import Verif.Model.OggWrite
import Verif.Model.Mp4Write
import Verif.Model.Flac
import Verif.Model.Convert
import Verif.Model.ConvertId3v2
import Verif.Model.ConvertIlst
/-!
# Saving tags to files of any format

`lofty/src/tag/{mod,utils,tag_ext,tag_type}.rs`, `lofty/src/util/io.rs`, `lofty/src/flac/write.rs`, `lofty/src/ogg/tag/write.rs`,
`lofty_attr/src/{internal,lofty_file}.rs`: what becomes of a tag that is saved to a file, depending on the format of the
file and the type of the tag.  A file is the list of its bytes, with the reader at its start.
-/
namespace Lofty.Save
open Item

/-- `WriteOptions`, config/write_options.rs 11-19, with the parts of `ParseOptions` used for saving: `junk` is
`max_junk_bytes`, `mode` is `parsing_mode`.  `custom` is the user's mapping of ratings, `order` the order in which a
`HashSet` of frames is iterated, `ne` the byte order of the machine.  `respect_read_only` has no effect (see
`Ape.createTag`). -/
structure Options where
  padding : Option Nat
  removeOthers : Bool
  upper : Bool
  v23 : Bool
  lossy : Bool
  junk : Nat
  mode : Mode
  custom : Rating.Provider
  order : List Id3v2.Frame → List Id3v2.Frame
  ne : Bool

/-- The options for frames. -/
def Options.frames (o : Options) : Id3v2.WriteOpts := ⟨o.v23, o.lossy, o.ne⟩

/-- `VerifiedFile::new`, util/io.rs 251-260: the file type according to the content; a probe has default options, so 1024
bytes of junk are searched (probe.rs 306-319). -/
def verified (f : Bytes) : Except Err FileType :=
  match Probe.guessFileType ⟨f, 0, none, none⟩ with
  | .error e => .error e
  | .ok p =>
    match p.type with
    | some t => .ok t
    | none => .error .parse

/-! ## Tags of a format -/

/-- The tags of the formats. -/
inductive Own
  | ape (t : Ape.Tag)
  | id3v1 (t : Id3v1.Tag)
  | id3v2 (fl : Id3v2.Flags) (fs : List Id3v2.Frame)
  | mp4Ilst (t : Ilst.Tag)
  | vorbisComments (t : Vorbis.Tag)
  | riffInfo (t : List Iff.Item)
  | aiffText (t : Iff.Aiff)

/-- `Accessor`/`TagExt::tag_type` of the tags. -/
def Own.type : Own → TagType
  | .ape _ => .ape
  | .id3v1 _ => .id3v1
  | .id3v2 _ _ => .id3v2
  | .mp4Ilst _ => .mp4Ilst
  | .vorbisComments _ => .vorbisComments
  | .riffInfo _ => .riffInfo
  | .aiffText _ => .aiffText

/-- `TagExt::is_empty`: ape/tag/mod.rs 451-453, id3/v1/tag.rs 245-253, id3/v2/tag.rs 553-555, mp4/ilst/mod.rs 630-632,
ogg/tag.rs 464-466, iff/wav/tag/mod.rs 223-225, iff/aiff/tag/mod.rs 187-198. -/
def Own.isEmpty : Own → Bool
  | .ape t => t.items.isEmpty
  | .id3v1 t => t.isEmpty
  | .id3v2 _ fs => fs.isEmpty
  | .mp4Ilst t => t.isEmpty
  | .vorbisComments t => t.items.isEmpty && t.pictures.isEmpty
  | .riffInfo t => t.isEmpty
  | .aiffText t => t.name.isNone && t.author.isNone && t.copyright.isNone && t.annotations.isNone && t.comments.isNone

/-- `Id3v2TagRef::write_to`, i.e. `write_id3v2`, id3/v2/write/mod.rs 37-92. -/
def writeId3v2 (o : Options) (ft : FileType) (fl : Id3v2.Flags) (fs : List Id3v2.Frame) (f : Bytes) : Except Err Bytes :=
  match ft with
  | .wav => IffFiles.saveId3 false true (o.mode = .strict) o.upper fl o.frames o.padding fs f
  | .aiff => IffFiles.saveId3 true false (o.mode = .strict) o.upper fl o.frames o.padding fs f
  | _ => FileTags.saveId3v2 fl o.frames o.padding o.junk fs f

/-- `VorbisCommentsRef::write_to`, ogg/tag.rs 707-720, with the match on the format at the start of `write`,
ogg/tag/write.rs 50-55. -/
def writeVorbis (o : Options) (ft : FileType) (t : Vorbis.Tag) (f : Bytes) : Except Err Bytes :=
  match ft with
  | .flac => Flac.writeTo f t o.padding
  | .opus => OggWrite.write .opus t f
  | .vorbis => OggWrite.write .vorbis t f
  | .speex => OggWrite.write .speex t f
  | _ => .error .panic

/-- `TagWriteExt::save_to` of the tags: ape/tag/mod.rs 479-492, id3/v1/tag.rs 276-285, id3/v2/tag.rs 576-589,
mp4/ilst/mod.rs 650-659, ogg/tag.rs 498-512, iff/wav/tag/mod.rs 247-261, iff/aiff/tag/mod.rs 222-238. -/
def Own.write (o : Options) (ft : FileType) (f : Bytes) : Own → Except Err Bytes
  | .ape t => Ape.writeTo {} f t
  | .id3v1 t => Id3v1.write o.lossy f t
  | .id3v2 fl fs => writeId3v2 o ft fl fs f
  | .mp4Ilst t => Mp4Write.writeTo f t o.mode o.padding
  | .vorbisComments t => writeVorbis o ft t f
  | .riffInfo t => Iff.writeInfo (o.mode = .strict) f t
  | .aiffText t => Iff.writeAiff (o.mode = .strict) f t

/-- `TagExt::save_to`, tag/tag_ext.rs 100-117. -/
def Own.saveTo (o : Options) (x : Own) (f : Bytes) : Except Err Bytes :=
  match verified f with
  | .error e => .error e
  | .ok ft =>
    if !(ft.tagSupport x.type).writable && !x.isEmpty then .error .unsupported
    else x.write o ft f

/-! ## Generic tags -/

/-- The pictures of `create_vorbis_comments_ref`, ogg/tag.rs 750-754: no properties for pictures that have none. -/
def refPictures : List Picture.Pic → Except Err (List (Picture.Pic × Picture.Info))
  | [] => .ok []
  | p :: ps =>
    match Picture.infoOf p with
    | .ok i => (refPictures ps).map fun r => (p, i) :: r
    | .error .panic => .error .panic
    | .error .diverge => .error .diverge
    | .error _ => (refPictures ps).map fun r => (p, ⟨0, 0, 0, 0⟩) :: r

/-- `create_vorbis_comments_ref`, ogg/tag.rs 733-757. -/
def vorbisTag (t : Tag) : Except Err Vorbis.Tag :=
  (refPictures t.pictures).map fun pics => ⟨(Convert.vorbisRef t).1, (Convert.vorbisRef t).2, pics⟩

/-- `tag_frames` of a tag without companion, id3/v2/tag/conversion.rs 452-495. -/
def frames (o : Options) (t : Tag) : List Id3v2.Frame :=
  Convert.tagFrames (o.order (Convert.fromTag o.custom false t.items)) [] t.pictures

/-- `Id3v2TagFlags::default()`. -/
def noFlags : Id3v2.Flags := ⟨false, false, false, false, none⟩

/-- `FileType::is_strippable`: the formats of `ID3V2_STRIPPABLE`, lofty_attr/src/internal.rs 17. -/
def strippable : FileType → Bool
  | .flac | .ape => true
  | _ => false

/-- The lookup table of the generated module `write`, lofty_attr/src/internal.rs 34-90. -/
def writeAs (o : Options) (ft : FileType) (t : Tag) (f : Bytes) : TagType → Except Err Bytes
  | .ape => Ape.writeTo {} f ⟨false, Convert.apeRef t⟩
  | .id3v1 => Id3v1.write o.lossy f (Convert.id3v1Ref t)
  | .id3v2 => if strippable ft then writeId3v2 o ft noFlags [] f else writeId3v2 o ft noFlags (frames o t) f
  | .riffInfo => Iff.writeInfo (o.mode = .strict) f (Convert.riffRef o.custom t)
  | .aiffText => Iff.writeAiff (o.mode = .strict) f (Convert.aiffRef t)
  | _ => .error .unsupported

/-- The tag fields of the file types with a generated module `write` (lofty_attr/src/internal.rs 92-128): aac/mod.rs
24-26, iff/aiff/mod.rs 23-26, ape/mod.rs 32-38, musepack/mod.rs 65-71, mpeg/mod.rs 23-29, iff/wav/mod.rs 22-25,
wavpack/mod.rs 20-23. -/
def fields : FileType → List TagType
  | .aac => [.id3v2, .id3v1]
  | .aiff => [.aiffText, .id3v2]
  | .ape => [.id3v1, .id3v2, .ape]
  | .mpc => [.id3v2, .id3v1, .ape]
  | .mpeg => [.id3v2, .id3v1, .ape]
  | .wav => [.riffInfo, .id3v2]
  | .wavPack => [.id3v1, .ape]
  | _ => []

/-- `write_tag`, tag/utils.rs 20-47, with `flac::write::write_to` (flac/write.rs 20-46), `ogg::tag::write::write_to`
(ogg/tag/write.rs 20-37) and the generated `write_to` (lofty_attr/src/internal.rs 110-128). -/
def writeTag (o : Options) (ft : FileType) (t : Tag) (f : Bytes) : Except Err Bytes :=
  match ft with
  | .flac =>
    match t.type with
    | .vorbisComments => (vorbisTag t).bind fun v => writeVorbis o ft v f
    | .id3v2 => writeId3v2 o ft noFlags [] f
    | _ => .error .panic
  | .opus | .speex | .vorbis => (vorbisTag t).bind fun v => writeVorbis o ft v f
  | .mp4 => Mp4Write.writeTo f (Convert.mergeIlst [] t) o.mode o.padding
  | _ => if (fields ft).contains t.type then writeAs o ft t f t.type else .error .unsupported

/-- `TagExt::save_to` of a generic tag, tag/tag_ext.rs 100-117 and tag/mod.rs 675-703. -/
def saveTo (o : Options) (t : Tag) (f : Bytes) : Except Err Bytes :=
  match verified f with
  | .error e => .error e
  | .ok ft =>
    if !(ft.tagSupport t.type).writable && !(t.items.isEmpty && t.pictures.isEmpty) then .error .unsupported
    else writeTag o ft t f

/-- `TagType::remove_from`, tag/tag_type.rs 141-170. -/
def removeFrom (o : Options) (t : TagType) (f : Bytes) : Except Err Bytes :=
  match verified f with
  | .error e => .error e
  | .ok ft =>
    if !(ft.tagSupport t).readable then .error .unsupported
    else writeTag o ft (Tag.new t) f

/-- `TaggedFile::save_to`, file/tagged_file.rs 439-457: the file of the tags may be of another type than the one they are
saved to. -/
def saveAll (o : Options) (ft : FileType) : List Tag → Bytes → Except Err Bytes
  | [], f => .ok f
  | t :: ts, f =>
    if !(ft.tagSupport t.type).writable then saveAll o ft ts f
    else (saveTo o t f).bind (saveAll o ft ts)

/-- `AudioFile::save_to` of the file of a format, lofty_attr/src/lofty_file.rs 483-515: its tags one after the other.  The
file is left as it is after the last successful save if one fails, so both the result and the file are given. -/
def saveOwn (o : Options) : List Own → Bytes → Except Err Unit × Bytes
  | [], f => (.ok (), f)
  | x :: xs, f =>
    match x.saveTo o f with
    | .error e => (.error e, f)
    | .ok g => saveOwn o xs g

/-- `FlacFile::write_to`, flac/mod.rs 60-104: the ID3v2 tag, then the comments with the pictures of the file. -/
def saveFlac (o : Options) (id3v2 : Option (Id3v2.Flags × List Id3v2.Frame)) (comments : Option Vorbis.Tag)
    (pictures : List (Picture.Pic × Picture.Info)) (f : Bytes) : Except Err Bytes := do
  let f ← (match id3v2 with
    | some (fl, fs) => (Own.id3v2 fl fs).saveTo o f
    | none => .ok f)
  let ft ← verified f
  match comments with
  | some c => writeVorbis o ft { c with pictures := c.pictures ++ pictures } f
  | none => if pictures.isEmpty then .ok f else writeVorbis o ft ⟨[], [], pictures⟩ f

end Lofty.Save
