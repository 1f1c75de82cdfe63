import Verif.Model.Save
/-!
# Dumping tags

`TagExt::dump_to`: the bytes of a tag, without a file around them.
-/
namespace Lofty.Save
open Item

/-- `create_tag` with the frames, id3/v2/write/mod.rs 95-192: nothing without frames (102-105). -/
def id3v2Bytes (o : Options) (fl : Id3v2.Flags) (fs : List Id3v2.Frame) : Except Err Bytes :=
  if fs.isEmpty then .ok [] else do
    let body ← Id3v2.createItems o.frames fs
    Id3v2.createTag fl o.v23 o.padding body

/-- `TagExt::dump_to` of the tags: ape/tag/mod.rs 460-471 and 657-666, id3/v1/tag.rs 260-268 and 451-460,
id3/v2/tag.rs 557-570 with id3/v2/tag/conversion.rs 509-518, mp4/ilst/mod.rs 634-642 with mp4/ilst/ref.rs 41-50,
ogg/tag.rs 477-489 and 722-730, iff/wav/tag/mod.rs 227-239 and 344-355, iff/aiff/tag/mod.rs 200-214 and 337-346. -/
def Own.dump (o : Options) : Own → Except Err Bytes
  | .ape t => Ape.createTag t
  | .id3v1 t => Id3v1.encode o.lossy t
  | .id3v2 fl fs => id3v2Bytes o fl fs
  | .mp4Ilst t => Ilst.build t
  | .vorbisComments t => Vorbis.createPacket t [] false
  | .riffInfo t => Iff.createInfo t
  | .aiffText t => Iff.createText t

/-- `dump_tag`, tag/utils.rs 51-107, of a generic tag without companion (tag/mod.rs 679-685). -/
def dump (o : Options) (t : Tag) : Except Err Bytes :=
  match t.type with
  | .ape => (Own.ape ⟨false, Convert.apeRef t⟩).dump o
  | .id3v1 => (Own.id3v1 (Convert.id3v1Ref t)).dump o
  | .id3v2 => (Own.id3v2 noFlags (frames o t)).dump o
  | .mp4Ilst => (Own.mp4Ilst (Convert.mergeIlst [] t)).dump o
  | .vorbisComments => (vorbisTag t).bind fun v => (Own.vorbisComments v).dump o
  | .riffInfo => (Own.riffInfo (Convert.riffRef o.custom t)).dump o
  | .aiffText => (Own.aiffText (Convert.aiffRef t)).dump o

end Lofty.Save
