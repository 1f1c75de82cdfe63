import Verif.Model.Save
import Verif.Model.AudioFiles
import Verif.Model.Mp4Read
/-!
# Reading the tags of files of any format

`lofty/src/probe.rs`, `lofty/src/flac/mod.rs`, `lofty_attr/src/lofty_file.rs`: the generic tags of a file that is opened
without its properties (`read_properties(false)`; `read_tags` is true).
-/
namespace Lofty.Opened
open Item Lofty.Save

/-- `ParseOptions`, config/parse_options.rs 9-16, with `GlobalOptions::allocation_limit` as `limit`, the zlib decoder
`inflate`, the depth to which chapters may be nested, and the user's mapping of ratings.  `preserve_format_specific_items`
is false: no companion tags are made. -/
structure ReadOptions where
  mode : Mode
  junk : Nat
  cover : Bool
  implicit : Bool
  limit : Nat
  inflate : Bytes → Option Bytes
  depth : Nat
  custom : Rating.Provider

/-- The options, for the readers of files with tags around the audio. -/
def ReadOptions.files (o : ReadOptions) : FileTags.Opts := ⟨true, false, o.junk, ⟨o.mode, o.cover, o.implicit, o.inflate⟩, o.depth⟩

/-- The options, for the readers of comments. -/
def ReadOptions.comments (o : ReadOptions) : Vorbis.Opts :=
  ⟨match o.mode with
    | .strict => .strict
    | .bestAttempt => .bestAttempt
    | .relaxed => .relaxed, o.cover, o.implicit⟩

/-- The options, for the reader of MP4 files. -/
def ReadOptions.mp4 (o : ReadOptions) : Mp4Read.Config := ⟨⟨o.mode, o.cover, o.implicit⟩, true, false, o.limit⟩

/-- `From<Id3v2Tag> for Tag`, id3/v2/tag.rs 981-991. -/
def ofId3v2 (custom : Rating.Provider) (t : FileTags.Id3Tag) : Tag := (Convert.splitId3v2 custom t.frames).2

/-- `From<MpegFile> for TaggedFile`, generated by lofty_attr/src/lofty_file.rs 517-556 from mpeg/mod.rs 20-32; in the same
order for Musepack (musepack/mod.rs 59-77). -/
def tagsOf (custom : Rating.Provider) (id3v2 : Option FileTags.Id3Tag) (id3v1 : Option Id3v1.Tag) (ape : Option Ape.Tag) : List Tag :=
  (id3v2.map (ofId3v2 custom)).toList ++ (id3v1.map Convert.ofId3v1).toList ++ (ape.map Convert.ofApe).toList

/-- `From<ApeFile> for TaggedFile`, generated from ape/mod.rs 28-43; without ID3v2 tag for WavPack (wavpack/mod.rs 16-29). -/
def macTagsOf (custom : Rating.Provider) (m : FileTags.TagsOf) : List Tag :=
  (m.id3v1.map Convert.ofId3v1).toList ++ (m.id3v2.map (ofId3v2 custom)).toList ++ (m.ape.map Convert.ofApe).toList

/-- `From<WavFile> for TaggedFile`, generated from iff/wav/mod.rs 18-30; an empty list is no tag (iff/wav/read.rs 131). -/
def wavTagsOf (custom : Rating.Provider) (m : IffFiles.WavFile) : List Tag :=
  (if m.info.isEmpty then [] else [Convert.ofRiff m.info]) ++ (m.id3v2.map (ofId3v2 custom)).toList

/-- `From<AiffFile> for TaggedFile`, generated from iff/aiff/mod.rs 19-31; no text chunks are no tag (iff/aiff/read.rs
208-218). -/
def aiffTagsOf (custom : Rating.Provider) (m : IffFiles.AiffFile) : List Tag :=
  (if (Own.aiffText m.text).isEmpty then [] else [Convert.ofAiff m.text]) ++ (m.id3v2.map (ofId3v2 custom)).toList

/-- `From<FlacFile> for TaggedFile`, flac/mod.rs 113-147. -/
def flacTagsOf (custom : Rating.Provider) (id3v2 : Option FileTags.Id3Tag) (m : Flac.Found) : List Tag :=
  (id3v2.map (ofId3v2 custom)).toList ++
    match m.comments with
    | some c => [Convert.ofVorbis custom { c with pictures := c.pictures ++ m.pictures }]
    | none => if m.pictures.isEmpty then [] else [Convert.ofVorbis custom ⟨[], [], m.pictures⟩]

/-- `read_from` of FLAC, flac/read.rs 40-162, with the ID3v2 tag in front (59-74). -/
def openFlac (o : ReadOptions) (f : Bytes) : Except Err (List Tag) := do
  let (r, _) ← Id3v2.find f 0 true none
  let id3v2 ← FileTags.contentOf o.files r
  let m ← Flac.readFrom o.comments f
  .ok (flacTagsOf o.custom id3v2 m)

/-- `Probe::read_inner`, probe.rs 462-497, for a known file type. -/
def openAs (o : ReadOptions) (f : Bytes) : FileType → Except Err (List Tag)
  | .aac => (FileTags.readAac o.files f).map fun m => tagsOf o.custom m.id3v2 m.id3v1 none
  | .aiff => (IffFiles.readAiff o.files f).map (aiffTagsOf o.custom)
  | .ape => (FileTags.readMac o.files f).map (macTagsOf o.custom)
  | .flac => openFlac o f
  | .mpeg => (FileTags.readMpeg o.files f).map fun m => tagsOf o.custom m.id3v2 m.id3v1 m.ape
  | .opus => (OggWrite.read .opus o.comments f).map fun v => [Convert.ofVorbis o.custom v]
  | .vorbis => (OggWrite.read .vorbis o.comments f).map fun v => [Convert.ofVorbis o.custom v]
  | .wav => (IffFiles.readWav o.files f).map (wavTagsOf o.custom)
  | .mp4 => (Mp4Read.readFrom o.mp4 f).map fun m => (m.2.ilst.map fun t => (Convert.ofIlst false t).tag).toList
  | .mpc => (FileTags.readMpc o.files f).map fun m => tagsOf o.custom m.id3v2 m.id3v1 m.ape
  | .speex => (OggWrite.read .speex o.comments f).map fun v => [Convert.ofVorbis o.custom v]
  | .wavPack => (FileTags.readWavPack o.files f).map (macTagsOf o.custom)

/-- `Probe::new(file).guess_file_type()?.options(o).read()`, i.e. `lofty::read_from` (probe.rs 553-555) with options: the tags
of the file. -/
def openFile (o : ReadOptions) (f : Bytes) : Except Err (List Tag) := (verified f).bind (openAs o f)

end Lofty.Opened
