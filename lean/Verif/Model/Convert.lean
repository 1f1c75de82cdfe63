import Verif.Model.Tag
import Verif.Model.Ape
import Verif.Model.Vorbis
import Verif.Model.Iff
import Verif.Model.Id3v1
import Verif.Model.Rating
/-!
# Conversion between the generic tag and the tags of the formats

The `SplitTag`/`MergeTag`/`From` implementations of APE tags, Vorbis comments, RIFF INFO
lists, AIFF text chunks and ID3v1 tags, and the borrowed forms (`..Ref`) that are used
when a generic tag is saved directly.
-/
namespace Lofty.Convert
open Lofty.Item (Tag TagItem ItemValue ItemKey TagType fromKey mapKey)

/-- `flag_item`, util/mod.rs 6-12. -/
def flagItem (s : Str) : Option Bool :=
  if s = str "1" ∨ s = str "true" then some true else if s = str "0" ∨ s = str "false" then some false else none

/-- `u8::from(flag).to_string()`. -/
def flagText (b : Bool) : Str := if b then str "1" else str "0"

/-- `str::trim_matches('\0')`. -/
def trimNul (s : Str) : Str := Text.trimEndNulls (s.dropWhile (· = '\x00'))

/-- `char::is_whitespace`: the characters with the Unicode property `White_Space`. -/
def isWhite (c : Char) : Bool :=
  let n := c.toNat
  (9 ≤ n && n ≤ 13) || n == 0x20 || n == 0x85 || n == 0xA0 || n == 0x1680 || (0x2000 ≤ n && n ≤ 0x200A) || n == 0x2028 ||
    n == 0x2029 || n == 0x202F || n == 0x205F || n == 0x3000

/-- `str::trim`. -/
def trim (s : Str) : Str := ((s.dropWhile isWhite).reverse.dropWhile isWhite).reverse

/-! ## RIFF INFO -/

/-- One step of `From<Tag> for RiffInfoList`, iff/wav/tag/mod.rs 306-312. -/
def riffItem (i : TagItem) : Option Iff.Item :=
  i.value.intoString.bind fun v => (mapKey .riffInfo i.key).map fun k => (k, v)

/-- `From<Tag> for RiffInfoList`, iff/wav/tag/mod.rs 302-316. -/
def toRiff (t : Tag) : List Iff.Item := t.items.filterMap riffItem

/-- One step of `From<RiffInfoList> for Tag`, iff/wav/tag/mod.rs 287-296. -/
def ofRiffItem (i : Iff.Item) : Option TagItem :=
  (fromKey .riffInfo i.1).map fun k => TagItem.new k (.text (trimNul i.2))

/-- `From<RiffInfoList> for Tag`, iff/wav/tag/mod.rs 283-300; `split_tag` (270-272) is the
same with an empty remainder. -/
def ofRiff (l : List Iff.Item) : Tag := { Tag.new .riffInfo with items := l.filterMap ofRiffItem }

/-- `tagitems_into_riff`, iff/wav/tag/mod.rs 358-383. -/
def riffRef (custom : Rating.Provider) (t : Tag) : List Iff.Item :=
  t.items.filterMap fun i =>
    i.value.intoString.bind fun v =>
      (mapKey .riffInfo i.key).bind fun k =>
        if i.key = .Popularimeter then
          (Rating.fromStr custom v).map fun p => (k, toDec (p.mappedValue custom .riffInfo))
        else some (k, v)

/-! ## AIFF text chunks -/

/-- `push_item`, iff/aiff/tag/mod.rs 264-269. -/
def optItem (k : ItemKey) (s : Option Str) : List TagItem := (s.map fun v => TagItem.new k (.text v)).toList

/-- `From<AiffTextChunks> for Tag`, iff/aiff/tag/mod.rs 260-291. -/
def ofAiff (a : Iff.Aiff) : Tag :=
  { Tag.new .aiffText with
    items := optItem .TrackTitle a.name ++ optItem .TrackArtist a.author ++ optItem .CopyrightMessage a.copyright ++
      (a.annotations.getD []).map (fun s => TagItem.new .Comment (.text s)) ++
      (a.comments.getD []).map fun c => TagItem.new .Comment (.text c.text) }

/-- `From<Tag> for AiffTextChunks`, iff/aiff/tag/mod.rs 293-308. -/
def toAiff (t : Tag) : Iff.Aiff :=
  let (names, t) := t.takeStrings .TrackTitle
  let (authors, t) := t.takeStrings .TrackArtist
  let (copyrights, t) := t.takeStrings .CopyrightMessage
  let (annotations, _) := t.takeStrings .Comment
  ⟨names.head?, authors.head?, copyrights.head?, if annotations.isEmpty then none else some annotations, none⟩

/-- The borrowed form, tag/utils.rs 92-101 and lofty_attr/src/internal.rs 79-88. -/
def aiffRef (t : Tag) : Iff.Aiff :=
  ⟨t.getString .TrackTitle, t.getString .TrackArtist, t.getString .CopyrightMessage, some (t.getStrings .Comment), none⟩

/-! ## ID3v1 -/

/-- The genre of a tag, id3/v1/tag.rs 364-372 and 416-424: the index of the name, or the text as a number. -/
def genreOf (s : Option Str) : Option UInt8 :=
  s.bind fun g =>
    match Id3v1.genres.findIdx? (fun v => v = g) with
    | some p => some (UInt8.ofNat p)
    | none => (parseUInt (2 ^ 8) g).map UInt8.ofNat

/-- The year of a tag, id3/v1/tag.rs 349-352 and 407-410. -/
def yearOf (t : Tag) : Option Nat :=
  ((t.getString .Year).bind (parseUInt (2 ^ 16))).or (t.date.map fun d => d.year)

/-- `From<Tag> for Id3v1Tag`, id3/v1/tag.rs 344-375. -/
def toId3v1 (t : Tag) : Id3v1.Tag :=
  let (title, t) := t.takeStrings .TrackTitle
  let (artist, t) := t.takeStrings .TrackArtist
  let (album, t) := t.takeStrings .AlbumTitle
  let year := yearOf t
  let (comment, t) := t.takeStrings .Comment
  ⟨title.head?, artist.head?, album.head?, year, comment.head?,
    (t.getString .TrackNumber).bind fun g => (parseUInt (2 ^ 8) g).map UInt8.ofNat, genreOf (t.getString .Genre)⟩

/-- The borrowed form, id3/v1/tag.rs 401-427. -/
def id3v1Ref (t : Tag) : Id3v1.Tag :=
  ⟨t.getString .TrackTitle, t.getString .TrackArtist, t.getString .AlbumTitle, yearOf t, t.getString .Comment,
    (t.getString .TrackNumber).bind fun g => (parseUInt (2 ^ 8) g).map UInt8.ofNat, genreOf (t.getString .Genre)⟩

/-- `Option::take().map(|t| tag.insert_text(k, t))`. -/
def insertOpt (t : Tag) (k : ItemKey) (s : Option Str) : Tag :=
  match s with
  | some v => (t.insertText k v).2
  | none => t

/-- The track number is pushed, not inserted, id3/v1/tag.rs 313-318. -/
def pushOpt (t : Tag) (k : ItemKey) (s : Option Str) : Tag :=
  match s with
  | some v => t.pushUnchecked (TagItem.new k (.text v))
  | none => t

/-- `split_tag` of ID3v1, id3/v1/tag.rs 294-327. -/
def ofId3v1 (a : Id3v1.Tag) : Tag :=
  let t := insertOpt (Tag.new .id3v1) .TrackTitle a.title
  let t := insertOpt t .TrackArtist a.artist
  let t := insertOpt t .AlbumTitle a.album
  let t := insertOpt t .Year (a.year.map toDec)
  let t := insertOpt t .Comment a.comment
  let t := pushOpt t .TrackNumber (a.track.map fun n => toDec n.toNat)
  insertOpt t .Genre a.genreName

/-! ## Vorbis comments -/

/-- One step of `split_tag` of Vorbis comments, ogg/tag.rs 544-586: the generic item, or
`none` if the comment stays. -/
def splitComment (custom : Rating.Provider) (i : Vorbis.Item) : Option TagItem :=
  match fromKey .vorbisComments i.1 with
  | some k => some (TagItem.new k (.text i.2))
  | none =>
    if i.1.take 7 = str "RATING:" then
      (parseUInt (2 ^ 8) i.2).bind fun value =>
        (Rating.mapped custom (i.1.drop 7) .vorbisComments value 0).map fun p =>
          TagItem.new .Popularimeter (.text p.fmt)
    else none

/-- The vendor as an item, ogg/tag.rs 589-599. -/
def addVendor (vendor : Str) (items : List TagItem) : List TagItem :=
  if items.any fun i => i.key = .EncoderSoftware then items
  else items ++ [TagItem.new .EncoderSoftware (.text vendor)]

/-- `split_tag` of Vorbis comments, ogg/tag.rs 538-606: the remainder and the generic tag. -/
def splitVorbis (custom : Rating.Provider) (v : Vorbis.Tag) : Vorbis.Tag × Tag :=
  ({ v with items := v.items.filter fun i => (splitComment custom i).isNone, pictures := [] },
   { Tag.new .vorbisComments with
     items := addVendor v.vendor (v.items.filterMap (splitComment custom))
     pictures := v.pictures.map fun p => p.1 })

/-- One step of `merge_tag` of Vorbis comments, ogg/tag.rs 623-667. -/
def mergeComment (custom : Rating.Provider) (i : TagItem) : Option Vorbis.Item :=
  i.value.intoString.bind fun val =>
    (if i.key = .FlagCompilation then (flagItem val).map flagText else some val).bind fun val =>
      (mapKey .vorbisComments i.key).bind fun key =>
        if i.key = .Popularimeter then
          (Rating.fromStr custom val).bind fun p =>
            let value := toDec (p.mappedValue custom .vorbisComments)
            match p.email with
            | some e => if Vorbis.validKey (utf8 e) then some (key ++ ':' :: e, value) else none
            | none => some (key, value)
        else some (key, val)

/-- The picture loop of `merge_tag`, ogg/tag.rs 669-673: a picture whose properties cannot be
read is left out. -/
def mergePictures : List Picture.Pic → Except Err (List (Picture.Pic × Picture.Info))
  | [] => .ok []
  | p :: ps =>
    match Picture.infoOf p with
    | .ok i => (mergePictures ps).map fun r => (p, i) :: r
    | .error .panic => .error .panic
    | .error .diverge => .error .diverge
    | .error _ => mergePictures ps

/-- The new vendor, ogg/tag.rs 615-621. -/
def vendorOf (old : Str) (l : List TagItem) : Str :=
  match l.head? with
  | some i => i.value.textOf.getD old
  | none => old

/-- `merge_tag` of Vorbis comments, ogg/tag.rs 612-676. -/
def mergeVorbis (custom : Rating.Provider) (v : Vorbis.Tag) (t : Tag) : Except Err Vorbis.Tag :=
  let (vendors, t) := t.take .EncoderSoftware
  (mergePictures t.pictures).map fun pics =>
    ⟨vendorOf v.vendor vendors, v.items ++ t.items.filterMap (mergeComment custom), v.pictures ++ pics⟩

/-- `From<Tag> for VorbisComments`, ogg/tag.rs 685-689. -/
def toVorbis (custom : Rating.Provider) (t : Tag) : Except Err Vorbis.Tag := mergeVorbis custom ⟨[], [], []⟩ t

/-- `From<VorbisComments> for Tag`, ogg/tag.rs 679-683. -/
def ofVorbis (custom : Rating.Provider) (v : Vorbis.Tag) : Tag := (splitVorbis custom v).2

/-- The borrowed form, `create_vorbis_comments_ref`, ogg/tag.rs 733-755: vendor and comments. -/
def vorbisRef (t : Tag) : Str × List Vorbis.Item :=
  ((t.getString .EncoderSoftware).getD [],
   t.items.filterMap fun i => i.value.intoString.bind fun v => (mapKey .vorbisComments i.key).map fun k => (k, v))

/-! ## APE tags -/

/-- The values of APE tags are those of generic items. -/
def apeValue : ItemValue → Ape.Value
  | .text s => .text s
  | .locator s => .locator s
  | .binary d => .binary d

/-- The same, backwards. -/
def ofApeValue : Ape.Value → ItemValue
  | .text s => .text s
  | .locator s => .locator s
  | .binary d => .binary d

/-- `set_number`, id3/v2/util/pairs.rs 51-70: the number that is handed to the setter. -/
def numberOf (v : ItemValue) : Option Nat := parseU32 (trim (v.textOf.getD []))

/-- `set_number` with one of the setters of APE tags (ape/tag/mod.rs 356-389). -/
def setPair (l : List Ape.Item) (key : Str) (op : Nat → Pairs.Op) (v : ItemValue) : List Ape.Item :=
  match numberOf v with
  | some n => Ape.stepPair key l (op n)
  | none => l

/-- `insert_item`, ape/tag/mod.rs 272-304. -/
def insertItem (l : List Ape.Item) (i : TagItem) : List Ape.Item :=
  match i.key with
  | .TrackNumber => setPair l (str "Track") .setNumber i.value
  | .TrackTotal => setPair l (str "Track") .setTotal i.value
  | .DiscNumber => setPair l (str "Disc") .setNumber i.value
  | .DiscTotal => setPair l (str "Disc") .setTotal i.value
  | .FlagCompilation =>
    match i.value.textOf.bind flagItem with
    | some f => Ape.insert l ⟨false, str "Compilation", .text (flagText f)⟩
    | none => l
  | k =>
    match mapKey .ape k with
    | some name =>
      match Ape.Item.new name (apeValue i.value) with
      | .ok a => Ape.push l a
      | .error _ => l
    | none => l

/-- One picture in `merge_tag`, ape/tag/mod.rs 609-616. -/
def insertPicture (l : List Ape.Item) (p : Picture.Pic) : List Ape.Item :=
  match p.ty.asApeKey with
  | some key =>
    match Ape.Item.new key (.binary (Picture.asApeBytes p)) with
    | .ok a => Ape.insert l a
    | .error _ => l
  | none => l

/-- `merge_tag` of APE tags, ape/tag/mod.rs 602-619. -/
def mergeApe (a : Ape.Tag) (t : Tag) : Ape.Tag :=
  { a with items := t.pictures.foldl insertPicture (t.items.foldl insertItem a.items) }

/-- `From<Tag> for ApeTag`, ape/tag/mod.rs 628-632. -/
def toApe (t : Tag) : Ape.Tag := mergeApe ⟨false, []⟩ t

/-- The keys of the text pairs, ape/tag/mod.rs 544-570. -/
def pairKeys : ItemKey → Option (ItemKey × ItemKey)
  | .TrackNumber | .TrackTotal => some (.TrackNumber, .TrackTotal)
  | .DiscNumber | .DiscTotal => some (.DiscNumber, .DiscTotal)
  | .MovementNumber | .MovementTotal => some (.MovementNumber, .MovementTotal)
  | _ => none

/-- `split_pair`, ape/tag/mod.rs 516-534. -/
def splitPair (v : Str) (number total : ItemKey) : List TagItem :=
  let (a, b) := split2 '/' v
  TagItem.new number (.text a) :: optItem total b

/-- A text with several values becomes several items, ape/tag/mod.rs 571-591; `value.text()` is only there for
texts, so that the branch for locators is never taken. -/
def splitValues (k : ItemKey) (v : Ape.Value) : List TagItem :=
  match v with
  | .text s => (Pairs.splitOn (· = '\x00') s).map fun x => TagItem.new k (.text x)
  | v => [TagItem.new k (ofApeValue v)]

/-- One step of `split_tag` of APE tags, ape/tag/mod.rs 538-592; `none` if the item stays. -/
def splitItem (i : Ape.Item) : Option (List TagItem) :=
  (fromKey .ape i.key).map fun k =>
    match pairKeys k, i.value with
    | some (a, b), .text v => splitPair v a b
    | _, v => splitValues k v

/-- `split_tag` of APE tags, ape/tag/mod.rs 515-596: the remainder and the generic tag. -/
def splitApe (a : Ape.Tag) : Ape.Tag × Tag :=
  ({ a with items := a.items.filter fun i => (splitItem i).isNone },
   { Tag.new .ape with items := a.items.flatMap fun i => (splitItem i).getD [] })

/-- `From<ApeTag> for Tag`, ape/tag/mod.rs 622-626. -/
def ofApe (a : Ape.Tag) : Tag := (splitApe a).2

/-- `format_number_pair` on texts, id3/v2/util/pairs.rs 34-48. -/
def formatPair (number total : Option Str) : Option Str :=
  match number, total with
  | some n, none => some n
  | none, some t => some (toDec 0 ++ '/' :: t)
  | some n, some t => some (n ++ '/' :: t)
  | none, none => none

/-- `NUMBER_PAIR_KEYS`, id3/v2/util/pairs.rs 15-20. -/
def numberKeys : List ItemKey := [.TrackNumber, .TrackTotal, .DiscNumber, .DiscTotal]

/-- The borrowed form, `tagitems_into_ape`, ape/tag/mod.rs 669-701. -/
def apeRef (t : Tag) : List Ape.Item :=
  (t.items.filter fun i => !numberKeys.contains i.key).filterMap (fun i =>
      (mapKey .ape i.key).map fun k => (⟨false, k, apeValue i.value⟩ : Ape.Item)) ++
    ((formatPair (t.getString .TrackNumber) (t.getString .TrackTotal)).map fun v =>
      (⟨false, str "Track", .text v⟩ : Ape.Item)).toList ++
    ((formatPair (t.getString .DiscNumber) (t.getString .DiscTotal)).map fun v =>
      (⟨false, str "Disc", .text v⟩ : Ape.Item)).toList

end Lofty.Convert
