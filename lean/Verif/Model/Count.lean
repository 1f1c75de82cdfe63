import Verif.Model.Save
/-!
# How many items a tag has and which: `len`, `contains` and `clear` of `TagExt`

`is_empty` is `Save.Own.isEmpty`; for the generic tag, `len`, `contains` and `clear` are in Model/Tag.
-/
namespace Lofty.Save
open Item

/-- 1 for a field that is set: `usize::from(self.title.is_some())`. -/
def one (o : Option α) : Nat := if o.isSome then 1 else 0

/-- `TagExt::len`: ape/tag/mod.rs 443-445, id3/v1/tag.rs 222-230, id3/v2/tag.rs 545-547, mp4/ilst/mod.rs 622-624,
ogg/tag.rs 454-456, iff/wav/tag/mod.rs 213-215, iff/aiff/tag/mod.rs 169-175. -/
def Own.len : Own → Nat
  | .ape t => t.items.length
  | .id3v1 t => one t.title + one t.artist + one t.album + one t.year + one t.comment + one t.track + one t.genre
  | .id3v2 _ fs => fs.length
  | .mp4Ilst t => t.length
  | .vorbisComments t => t.items.length + t.pictures.length
  | .riffInfo t => t.length
  | .aiffText t => one t.name + one t.author + one t.copyright + (t.annotations.map List.length).getD 0 +
      (t.comments.map List.length).getD 0

/-- `TagExt::clear`: ape/tag/mod.rs 473-475, id3/v1/tag.rs 270-272, id3/v2/tag.rs 570-572, mp4/ilst/mod.rs 644-646,
ogg/tag.rs 491-494, iff/wav/tag/mod.rs 241-243, iff/aiff/tag/mod.rs 216-218. -/
def Own.clear : Own → Own
  | .ape t => .ape { t with items := [] }
  | .id3v1 _ => .id3v1 Id3v1.Tag.empty
  | .id3v2 fl _ => .id3v2 fl []
  | .mp4Ilst _ => .mp4Ilst []
  | .vorbisComments t => .vorbisComments { t with items := [], pictures := [] }
  | .riffInfo _ => .riffInfo []
  | .aiffText _ => .aiffText ⟨none, none, none, none, none⟩

end Lofty.Save

namespace Lofty

/-- `ApeTag::contains`, ape/tag/mod.rs 447-449. -/
def Ape.contains (l : List Ape.Item) (k : Str) : Bool := l.any fun i => eqIc i.key k

/-- `Id3v2Tag::contains`, id3/v2/tag.rs 549-551. -/
def Id3v2.contains (l : List Id3v2.Frame) (id : Id3v2.FrameId) : Bool := l.any fun f => decide (f.id = id)

/-- `Ilst::contains`, mp4/ilst/mod.rs 626-628. -/
def Ilst.contains (t : Ilst.Tag) (i : Mp4.Ident) : Bool := t.any fun a => decide (a.ident = i)

/-- `VorbisComments::contains`, ogg/tag.rs 458-462. -/
def Vorbis.contains (t : Vorbis.Tag) (k : Str) : Bool := t.items.any fun i => eqIc i.1 k

/-- `RiffInfoList::contains`, iff/wav/tag/mod.rs 217-221. -/
def Iff.contains (l : List Iff.Item) (k : Str) : Bool := l.any fun i => eqIc i.1 k

/-- `Id3v1Tag::contains`, id3/v1/tag.rs 232-243. -/
def Id3v1.Tag.contains (t : Id3v1.Tag) : Item.ItemKey → Bool
  | .TrackTitle => t.title.isSome
  | .AlbumTitle => t.album.isSome
  | .TrackArtist => t.artist.isSome
  | .TrackNumber => t.track.isSome
  | .Year => t.year.isSome
  | .Genre => t.genre.isSome
  | .Comment => t.comment.isSome
  | _ => false

/-- `AiffTextChunks::contains`, iff/aiff/tag/mod.rs 177-185. -/
def Iff.Aiff.contains (t : Iff.Aiff) : Item.ItemKey → Bool
  | .TrackTitle => t.name.isSome
  | .TrackArtist => t.author.isSome
  | .CopyrightMessage => t.copyright.isSome
  | .Comment => t.annotations.isSome || t.comments.isSome
  | _ => false

end Lofty
