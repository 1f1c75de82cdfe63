import Verif.Model.Tag
import Verif.Model.Id3v1
import Verif.Model.Id3v2Genres
import Verif.Model.Vorbis
import Verif.Model.Ape
import Verif.Model.Ilst
import Verif.Model.Iff
/-!
# The accessors of the tags

The trait `Accessor` of `lofty/src/tag/accessor.rs` and its implementations for the generic tag and for the tag of
every format.  Getters and setters of the ten fields are gathered into one function each.
-/
namespace Lofty.Accessor

/-- The fields of the trait, tag/accessor.rs 139-145. -/
inductive Field
  | artist | title | album | genre | comment
  | track | trackTotal | disk | diskTotal
  | date
  deriving DecidableEq, Repr

/-- What a field holds: `String`, `u32` or `Timestamp`, tag/accessor.rs 139-145. -/
inductive Value
  | text (s : Str)
  | number (n : Nat)
  | date (d : Timestamp)
  deriving DecidableEq, Repr

/-- An implementation of the trait for the tags `T`, tag/accessor.rs 31-137.  `set` with a value of another type than the
field has does not exist in Rust; here it changes nothing. -/
structure Impl (T : Type) where
  get : Field → T → Option Value
  set : Field → Value → T → T
  remove : Field → T → T

/-- `try_parse_timestamp`, tag/mod.rs 120-127. -/
def tryParse (s : Str) : Option Timestamp :=
  match Timestamp.parse .relaxed (utf8 s) with
  | .ok d => d
  | .error _ => none

/-! ## The generic tag -/

/-- The key of a field, tag/mod.rs 130-184 (the date has two, see there). -/
def genericKey : Field → Item.ItemKey
  | .artist => .TrackArtist
  | .title => .TrackTitle
  | .album => .AlbumTitle
  | .genre => .Genre
  | .comment => .Comment
  | .track => .TrackNumber
  | .trackTotal => .TrackTotal
  | .disk => .DiscNumber
  | .diskTotal => .DiscTotal
  | .date => .RecordingDate

/-- `impl Accessor for Tag`, tag/mod.rs 31-53 and 129-205. -/
def generic : Impl Item.Tag where
  get f t := match f with
    | .artist | .title | .album | .genre | .comment => (t.getString (genericKey f)).map .text
    | .track | .trackTotal | .disk | .diskTotal => (t.getU32 (genericKey f)).map .number
    | .date => t.date.map .date
  set f v t := match f, v with
    | .artist, .text s | .title, .text s | .album, .text s | .genre, .text s | .comment, .text s =>
      t.setText (genericKey f) s
    | .track, .number n | .trackTotal, .number n | .disk, .number n | .diskTotal, .number n =>
      t.setNumber (genericKey f) n
    | .date, .date d => t.setDate d
    | _, _ => t
  remove f t := match f with
    | .date => t.removeDate
    | f => t.removeKey (genericKey f)

/-! ## ID3v1 -/

/-- `impl Accessor for Id3v1Tag`, id3/v1/tag.rs 17-40 and 135-212.  There are no totals and no disks: those methods are the
ones of the trait, which do nothing (tag/accessor.rs 84-86, 109-111, 132-134). -/
def id3v1 : Impl Id3v1.Tag where
  get f t := match f with
    | .artist => t.artist.map .text
    | .title => t.title.map .text
    | .album => t.album.map .text
    | .genre => t.genreName.map .text
    | .comment => t.comment.map .text
    | .track => t.trackNumber.map .number
    | .date => t.year.map fun y => .date ⟨y, none, none, none, none, none⟩
    | _ => none
  set f v t := match f, v with
    | .artist, .text s => { t with artist := some s }
    | .title, .text s => { t with title := some s }
    | .album, .text s => { t with album := some s }
    | .genre, .text s => t.setGenre s
    | .comment, .text s => t.setComment s
    | .track, .number n => t.setTrack n
    | .date, .date d => { t with year := some d.year }
    | _, _ => t
  remove f t := match f with
    | .artist => { t with artist := none }
    | .title => { t with title := none }
    | .album => { t with album := none }
    | .genre => { t with genre := none }
    | .comment => { t with comment := none }
    | .track => { t with track := none }
    | .date => { t with year := none }
    | _ => t

/-! ## Vorbis comments -/

/-- The keys of the text fields and of the disk number, ogg/tag.rs 338-344 and 389; the first keys of the others. -/
def vorbisKey : Field → Str
  | .artist => str "ARTIST"
  | .title => str "TITLE"
  | .album => str "ALBUM"
  | .genre => str "GENRE"
  | .comment => str "COMMENT"
  | .track => str "TRACKNUMBER"
  | .trackTotal => str "TRACKTOTAL"
  | .disk => str "DISCNUMBER"
  | .diskTotal => str "DISCTOTAL"
  | .date => str "DATE"

/-- `date`, ogg/tag.rs 425-431. -/
def vorbisDate (t : Vorbis.Tag) : Option Timestamp :=
  ((Vorbis.get t (str "DATE")).or (Vorbis.get t (str "YEAR"))).bind tryParse

/-- Removing two keys: `remove_track`, ogg/tag.rs 362-365, `remove_track_total` 383-386, `remove_disk_total` 420-423,
`remove_date` 440-443. -/
def vorbisRemove2 (t : Vorbis.Tag) (a b : Str) : Vorbis.Tag := (Vorbis.remove (Vorbis.remove t a).2 b).2

/-- `impl Accessor for VorbisComments`, ogg/tag.rs 30-49 and 337-444. -/
def vorbis : Impl Vorbis.Tag where
  get f t := match f with
    | .artist | .title | .album | .genre | .comment => (Vorbis.get t (vorbisKey f)).map .text
    | .track => (Vorbis.track t).map .number
    | .trackTotal => (Vorbis.trackTotal t).map .number
    | .disk => (Vorbis.disk t).map .number
    | .diskTotal => (Vorbis.diskTotal t).map .number
    | .date => (vorbisDate t).map .date
  set f v t := match f, v with
    | .artist, .text s | .title, .text s | .album, .text s | .genre, .text s | .comment, .text s =>
      Vorbis.insert t (vorbisKey f) s
    | .track, .number n => Vorbis.setTrack t n
    | .trackTotal, .number n => Vorbis.setTrackTotal t n
    | .disk, .number n => Vorbis.setDisk t n
    | .diskTotal, .number n => Vorbis.setDiskTotal t n
    | .date, .date d => (Vorbis.remove (Vorbis.insert t (str "DATE") d.fmt) (str "YEAR")).2
    | _, _ => t
  remove f t := match f with
    | .artist | .title | .album | .genre | .comment | .disk => (Vorbis.remove t (vorbisKey f)).2
    | .track => vorbisRemove2 t (str "TRACKNUMBER") (str "TRACKNUM")
    | .trackTotal => vorbisRemove2 t (str "TRACKTOTAL") (str "TOTALTRACKS")
    | .diskTotal => vorbisRemove2 t (str "DISCTOTAL") (str "TOTALDISCS")
    | .date => vorbisRemove2 t (str "DATE") (str "YEAR")

/-! ## APE -/

/-- The keys, ape/tag/mod.rs 347-353, 356, 385 and 417. -/
def apeKey : Field → Str
  | .artist => str "Artist"
  | .title => str "Title"
  | .album => str "Album"
  | .genre => str "GENRE"
  | .comment => str "Comment"
  | .track | .trackTotal => str "Track"
  | .disk | .diskTotal => str "Disc"
  | .date => str "Year"

/-- The text of an item: the getters, ape/tag/mod.rs 31-41, and the match of `date`, 415-418. -/
def apeText (l : List Ape.Item) (key : Str) : Option Str :=
  match Ape.get l key with
  | some ⟨_, _, .text s⟩ => some s
  | _ => none

/-- `impl Accessor for ApeTag`, ape/tag/mod.rs 27-60 and 346-433, on the items of the tag. -/
def ape : Impl (List Ape.Item) where
  get f l := match f with
    | .artist | .title | .album | .genre | .comment => (apeText l (apeKey f)).map .text
    | .track | .disk => (Ape.splitNumPair l (apeKey f)).1.map .number
    | .trackTotal | .diskTotal => (Ape.splitNumPair l (apeKey f)).2.map .number
    | .date => ((apeText l (apeKey f)).bind tryParse).map .date
  set f v l := match f, v with
    | .artist, .text s | .title, .text s | .album, .text s | .genre, .text s | .comment, .text s =>
      Ape.insert l ⟨false, apeKey f, .text s⟩
    | .track, .number n | .disk, .number n => Ape.stepPair (apeKey f) l (.setNumber n)
    | .trackTotal, .number n | .diskTotal, .number n => Ape.stepPair (apeKey f) l (.setTotal n)
    | .date, .date d => Ape.insert l ⟨false, apeKey f, .text d.fmt⟩
    | _, _ => l
  remove f l := match f with
    | .trackTotal | .diskTotal => Ape.stepPair (apeKey f) l .removeTotal
    | f => Ape.remove l (apeKey f)

/-! ## MP4 -/

/-- The identifiers, mp4/ilst/mod.rs 37-45, 504-510 and 593. -/
def mp4Key : Field → Mp4.Ident
  | .artist => Ilst.four 0xA9 "ART"
  | .title => Ilst.four 0xA9 "nam"
  | .album => Ilst.four 0xA9 "alb"
  | .genre => Ilst.four 0xA9 "gen"
  | .comment => Ilst.four 0xA9 "cmt"
  | .track | .trackTotal => Ilst.trkn
  | .disk | .diskTotal => Ilst.disk
  | .date => Ilst.four 0xA9 "day"

/-- The text `date` looks at, mp4/ilst/mod.rs 592-600 (UTF-16 texts are not considered). -/
def mp4DateText (t : Ilst.Tag) : Option Str :=
  match Ilst.get t (mp4Key .date) with
  | some a => match a.data.toList.head? with
    | some (.utf8 s) => some s
    | _ => none
  | none => none

/-- `impl Accessor for Ilst`, mp4/ilst/mod.rs 47-74 and 503-612. -/
def mp4 : Impl Ilst.Tag where
  get f t := match f with
    | .artist | .title | .album | .genre | .comment => (Ilst.getText t (mp4Key f)).map .text
    | .track | .disk => (Ilst.number t (mp4Key f) 4).map .number
    | .trackTotal | .diskTotal => (Ilst.number t (mp4Key f) 6).map .number
    | .date => ((mp4DateText t).bind tryParse).map .date
  set f v t := match f, v with
    | .artist, .text s | .title, .text s | .album, .text s | .genre, .text s | .comment, .text s =>
      Ilst.setText t (mp4Key f) s
    | .track, .number n | .disk, .number n => Ilst.setNumber t (mp4Key f) n
    | .trackTotal, .number n | .diskTotal, .number n => Ilst.setTotal t (mp4Key f) n
    | .date, .date d => Ilst.setText t (mp4Key f) d.fmt
    | _, _ => t
  remove f t := match f with
    | .trackTotal | .diskTotal => Ilst.removeTotal t (mp4Key f)
    | f => (Ilst.remove t (mp4Key f)).2

/-! ## RIFF INFO -/

/-- The keys, iff/wav/tag/mod.rs 130-136, 139, 155 and 171. -/
def riffKey : Field → Option Str
  | .artist => some (str "IART")
  | .title => some (str "INAM")
  | .album => some (str "IPRD")
  | .genre => some (str "IGNR")
  | .comment => some (str "ICMT")
  | .track => some (str "IPRT")
  | .trackTotal => some (str "IFRM")
  | .date => some (str "ICRD")
  | .disk | .diskTotal => none

/-- A text as the value of a field: the getters, iff/wav/tag/mod.rs 27-29, 138-144, 154-160 and 170-176. -/
def riffValue (f : Field) (s : Str) : Option Value := match f with
  | .artist | .title | .album | .genre | .comment => some (.text s)
  | .track | .trackTotal | .disk | .diskTotal => (parseU32 s).map .number
  | .date => (tryParse s).map .date

/-- The text a value is stored as: the setters, iff/wav/tag/mod.rs 31-33, 146-148, 162-164 and 178-180. -/
def valueText : Value → Str
  | .text s => s
  | .number n => toDec n
  | .date d => d.fmt

/-- Whether a value has the type of the field. -/
def Typed : Field → Value → Bool
  | .artist, .text _ | .title, .text _ | .album, .text _ | .genre, .text _ | .comment, .text _ => true
  | .track, .number _ | .trackTotal, .number _ | .disk, .number _ | .diskTotal, .number _ => true
  | .date, .date _ => true
  | _, _ => false

/-- `impl Accessor for RiffInfoList`, iff/wav/tag/mod.rs 23-41 and 129-185.  There are no disks: those methods are the ones
of the trait. -/
def riff : Impl (List Iff.Item) where
  get f l := ((riffKey f).bind (Iff.get l)).bind (riffValue f)
  set f v l := match riffKey f with
    | some k => if Typed f v then Iff.insert l k (valueText v) else l
    | none => l
  remove f l := match riffKey f with
    | some k => (Iff.remove l k).2
    | none => l

/-! ## AIFF text chunks -/

/-- `comment`, iff/aiff/tag/mod.rs 108-120. -/
def aiffComment (t : Iff.Aiff) : Option Str :=
  match t.annotations with
  | some (a :: _) => some a
  | _ => match t.comments with
    | some cs => cs.head?.map (·.text)
    | none => none

/-- `impl Accessor for AiffTextChunks`, iff/aiff/tag/mod.rs 87-127; all other methods are the ones of the trait. -/
def aiff : Impl Iff.Aiff where
  get f t := match f with
    | .artist => t.author.map .text
    | .title => t.name.map .text
    | .comment => (aiffComment t).map .text
    | _ => none
  set f v t := match f, v with
    | .artist, .text s => { t with author := some s }
    | .title, .text s => { t with name := some s }
    | .comment, .text s => { t with annotations := some [s] }
    | _, _ => t
  remove f t := match f with
    | .artist => { t with author := none }
    | .title => { t with name := none }
    | .comment => { t with annotations := none }
    | _ => t

/-! ## ID3v2 -/

/-- The version the tag was read with and the frames, id3/v2/tag.rs 117-121 (the flags of the tag are not looked at). -/
structure Id3v2Tag where
  version : Id3v2.Version
  frames : List Id3v2.Frame

/-- The ids, id3/v2/tag.rs 381-388. -/
def id3v2Id : Field → Id3v2.FrameId
  | .artist => .valid (str "TPE1")
  | .title => .valid (str "TIT2")
  | .album => .valid (str "TALB")
  | .genre => .valid (str "TCON")
  | .comment => .valid (str "COMM")
  | .track | .trackTotal => .valid (str "TRCK")
  | .disk | .diskTotal => .valid (str "TPOS")
  | .date => .valid (str "TDRC")

/-- `remove_separators_from_frame_text`, id3/v2/tag.rs 42-48. -/
def removeSeparators (v : Id3v2.Version) (s : Str) : Str :=
  if s.contains '\x00' && v == .v4 then s.map (fun c => if c = '\x00' then '/' else c) else s

/-- `split_num_pair`, id3/v2/tag.rs 202-211. -/
def id3v2Pair (l : List Id3v2.Frame) (id : Id3v2.FrameId) : Option Nat × Option Nat :=
  Pairs.get Pairs.id3Sep (Id3v2.getText l id)

/-- `Frame::text`, id3/v2/frame/mod.rs 162-168, and `new_text_frame`, id3/v2/tag.rs 345-347. -/
def newText (id : Id3v2.FrameId) (s : Str) : Id3v2.Frame := .leaf {} (.text ⟨id, .utf8, s⟩)

/-- `insert_number_pair`, id3/v2/tag.rs 225-236. -/
def id3v2InsertPair (l : List Id3v2.Frame) (id : Id3v2.FrameId) (number total : Option Nat) : List Id3v2.Frame :=
  match Pairs.format number total with
  | some s => (Id3v2.insert l (newText id s)).2
  | none => l

/-- `remove_track_total`, id3/v2/tag.rs 417-424, and `remove_disk_total`, 446-456. -/
def id3v2RemoveTotal (l : List Id3v2.Frame) (id : Id3v2.FrameId) : List Id3v2.Frame :=
  match (id3v2Pair l id).1 with
  | some n => (Id3v2.insert (Id3v2.remove l id).2 (newText id (toDec n))).2
  | none => (Id3v2.remove l id).2

/-- The loop of `genre` over all but the first genre, id3/v2/tag.rs 466-470. -/
def joinSlash : List Str → Str
  | [] => []
  | g :: gs => str " / " ++ g ++ joinSlash gs

/-- `genre`, id3/v2/tag.rs 458-473. -/
def id3v2Genre (l : List Id3v2.Frame) : Option Str :=
  match Id3v2.genresOf l with
  | some (g :: gs) => some (g ++ joinSlash gs)
  | _ => none

/-- `date`, id3/v2/tag.rs 483-491. -/
def id3v2Date (l : List Id3v2.Frame) : Option Timestamp :=
  match Id3v2.get l (id3v2Id .date) with
  | some (.leaf _ (.time t)) => some t.time
  | _ => none

/-- `filter_comment_frame_by_description` with an empty description, id3/v2/tag.rs 321-331. -/
def plainComment : Id3v2.Frame → Option Id3v2.LangF
  | .leaf _ (.comment c) => if c.desc = [] then some c else none
  | _ => none

/-- `comment`, id3/v2/tag.rs 501-506. -/
def id3v2Comment (l : List Id3v2.Frame) : Option Str := (l.findSome? plainComment).map (·.content)

/-- `*content = value` in the frame found, id3/v2/tag.rs 517. -/
def withContent (s : Str) : Id3v2.Frame → Id3v2.Frame
  | .leaf fl (.comment c) => .leaf fl (.comment { c with content := s })
  | f => f

/-- `set_comment`, id3/v2/tag.rs 508-528: the first comment without description gets the text, the others are removed; a
new frame if there is none (`new_comment_frame`, 364-371, of unknown language). -/
def id3v2SetComment (s : Str) : List Id3v2.Frame → List Id3v2.Frame
  | [] => [.leaf {} (.comment ⟨.utf8, (88, 88, 88), [], s⟩)]
  | f :: l =>
    if (plainComment f).isSome then withContent s f :: l.filter fun g => (plainComment g).isNone
    else f :: id3v2SetComment s l

/-- `impl Accessor for Id3v2Tag`, id3/v2/tag.rs 50-76 and 390-535. -/
def id3v2 : Impl Id3v2Tag where
  get f t := match f with
    | .artist | .title | .album => ((Id3v2.getText t.frames (id3v2Id f)).map (removeSeparators t.version)).map .text
    | .genre => (id3v2Genre t.frames).map .text
    | .comment => (id3v2Comment t.frames).map .text
    | .track | .disk => (id3v2Pair t.frames (id3v2Id f)).1.map .number
    | .trackTotal | .diskTotal => (id3v2Pair t.frames (id3v2Id f)).2.map .number
    | .date => (id3v2Date t.frames).map .date
  set f v t := match f, v with
    | .artist, .text s | .title, .text s | .album, .text s | .genre, .text s =>
      { t with frames := (Id3v2.insert t.frames (newText (id3v2Id f) s)).2 }
    | .comment, .text s => { t with frames := id3v2SetComment s t.frames }
    | .track, .number n | .disk, .number n =>
      { t with frames := id3v2InsertPair t.frames (id3v2Id f) (some n) (id3v2Pair t.frames (id3v2Id f)).2 }
    | .trackTotal, .number n | .diskTotal, .number n =>
      { t with frames := id3v2InsertPair t.frames (id3v2Id f) (id3v2Pair t.frames (id3v2Id f)).1 (some n) }
    | .date, .date d => { t with frames := (Id3v2.insert t.frames (newText (id3v2Id f) d.fmt)).2 }
    | _, _ => t
  remove f t := match f with
    | .comment => { t with frames := t.frames.filter fun g => (plainComment g).isNone }
    | .trackTotal | .diskTotal => { t with frames := id3v2RemoveTotal t.frames (id3v2Id f) }
    | f => { t with frames := (Id3v2.remove t.frames (id3v2Id f)).2 }

end Lofty.Accessor
