import Verif.Model.Convert
import Verif.Model.Id3v2Genres
import Verif.Model.Ilst
/-!
# Conversion between the generic tag and ID3v2 tags

`handle_tag_split`, `SplitTag`/`MergeTag`/`From` of `lofty/src/id3/v2/tag.rs`, and
`from_tag`, `tag_frames` of `lofty/src/id3/v2/tag/conversion.rs`.

`from_tag` collects frames in hash maps and a hash set, so that the order of its result is not
determined.  Here it is a list in the order of insertion; statements about the code hold for
every permutation of it.
-/
namespace Lofty.Convert
open Lofty.Item (Tag TagItem ItemValue ItemKey TagType fromKey mapKey)
open Lofty.Id3v2 (Frame Content FrameId sameFrame)

/-- A language, `[u8; 3]` (tag/items/lang.rs 13), as the frames have it; lists of another length do not occur. -/
def langOf : Bytes → UInt8 × UInt8 × UInt8
  | [a, b, c] => (a, b, c)
  | _ => (88, 88, 88)

/-- The same, backwards. -/
def langBytes (l : UInt8 × UInt8 × UInt8) : Bytes := [l.1, l.2.1, l.2.2]

/-! ## From generic items to frames -/

/-- The texts that may have several values, conversion.rs 118-143. -/
def multiText : List ItemKey :=
  [.TrackArtist, .AlbumArtist, .TrackTitle, .AlbumTitle, .SetSubtitle, .TrackSubtitle, .OriginalAlbumTitle, .OriginalArtist,
   .OriginalLyricist, .ContentGroup, .AppleId3v2ContentGroup, .Genre, .Mood, .Composer, .Conductor, .Writer, .Lyricist,
   .InternetRadioStationName, .InternetRadioStationOwner, .Remixer, .Work, .Movement, .FileOwner, .CopyrightMessage, .Language,
   .Publisher]

/-- The user texts that may have several values, conversion.rs 157-168. -/
def multiUser : List ItemKey :=
  [.TrackArtists, .AlbumArtists, .Director, .AcoustId, .AcoustIdFingerprint, .CatalogNumber, .MusicBrainzArtistId,
   .MusicBrainzReleaseArtistId, .MusicBrainzWorkId, .MusicBrainzReleaseType, .ReleaseCountry, .Barcode]

/-- The user texts with one value, conversion.rs 182-185. -/
def singleUser : List ItemKey := [.ReplayGainAlbumGain, .ReplayGainAlbumPeak, .ReplayGainTrackGain, .ReplayGainTrackPeak]

/-- `TIPL_MAPPINGS`, id3/v2/util/mappings.rs 3-9. -/
def tiplMap : List (ItemKey × Str) :=
  [(.Producer, str "producer"), (.Arranger, str "arranger"), (.Engineer, str "engineer"), (.MixDj, str "DJ-mix"),
   (.MixEngineer, str "mix")]

/-- `MUSICBRAINZ_UFID_OWNER`, id3/v2/frame/mod.rs 22. -/
def musicbrainz : Str := str "http://musicbrainz.org"

/-- `GenericConversionContext`, conversion.rs 353-380; the maps are association lists with distinct keys. -/
structure Ctx where
  tipl : List (Str × Str) := []
  texts : List (Str × Str) := []
  users : List (Str × Str) := []
  comments : List ((Bytes × Str) × Str) := []
  lyrics : List ((Bytes × Str) × Str) := []
  track : Option Nat := none
  trackTotal : Option Nat := none
  disc : Option Nat := none
  discTotal : Option Nat := none

/-- `map.entry(k).and_modify(f).or_insert(v)`. -/
def upsert {κ : Type} [DecidableEq κ] (f : Str → Str) (k : κ) (v : Str) : List (κ × Str) → List (κ × Str)
  | [] => [(k, v)]
  | e :: l => if e.1 = k then (k, f e.2) :: l else e :: upsert f k v l

/-- `extend_text`, conversion.rs 96-107. -/
def extendText (v current : Str) : Str := current ++ '\x00' :: v

/-- `take_item_text_and_description`, conversion.rs 63-94: owned items give texts and locators, borrowed ones only
texts. -/
def itemText (owned : Bool) (i : TagItem) : Option Str := if owned then i.value.intoString else i.value.textOf

/-- `new_text_frame`, id3/v2/tag.rs 345-347. -/
def newText (id value : Str) : Frame := .leaf {} (.text ⟨.valid id, .utf8, value⟩)

/-- `new_user_text_frame`, id3/v2/tag.rs 353-362. -/
def newUserText (desc content : Str) : Frame := .leaf {} (.userText ⟨.utf8, desc, content⟩)

/-- `new_url_frame`, id3/v2/tag.rs 349-351. -/
def newUrl (id value : Str) : Frame := .leaf {} (.url ⟨.valid id, value⟩)

/-- `new_timestamp_frame`, id3/v2/tag.rs 377-379. -/
def newTime (id : Str) (t : Timestamp) : Frame := .leaf {} (.time ⟨.valid id, .utf8, t⟩)

/-- `new_picture_frame`, id3/v2/tag.rs 373-375. -/
def newPicture (p : Picture.Pic) : Frame := .leaf {} (.picture ⟨.utf8, p⟩)

/-- `CommentFrame::new`, conversion.rs 420-427. -/
def newComment (e : (Bytes × Str) × Str) : Frame := .leaf {} (.comment ⟨.utf8, langOf e.1.1, e.1.2, e.2⟩)

/-- `UnsynchronizedTextFrame::new`, conversion.rs 429-436. -/
def newLyrics (e : (Bytes × Str) × Str) : Frame := .leaf {} (.lyrics ⟨.utf8, langOf e.1.1, e.1.2, e.2⟩)

/-- `PopularimeterFrame::from(popm)`, id3/v2/items/popularimeter.rs 175-185. -/
def newPop (custom : Rating.Provider) (p : Rating.Pop) : Frame :=
  .leaf {} (.pop ⟨p.email.getD [], UInt8.ofNat (p.mappedValue custom .id3v2), p.counter⟩)

/-- The date frames, conversion.rs 251-269. -/
def dateFrame (id s : Str) : Frame :=
  match Timestamp.fromStr s with
  | .ok t => newTime id t
  | .error _ => newText id s

/-- "Anything else", conversion.rs 331-349. -/
def otherFrame (owned : Bool) (i : TagItem) : Option Frame :=
  (mapKey .id3v2 i.key).bind fun m =>
    if (utf8 m).length = 4 then
      match FrameId.new m with
      | .ok id =>
        if m.head? = some 'T' then (itemText owned i).map fun v => .leaf {} (.text ⟨id, .utf8, v⟩)
        else if m.head? = some 'W' then (itemText owned i).map fun v => .leaf {} (.url ⟨id, v⟩)
        else none
      | .error _ => none
    else none

/-- The frame of an item that does not wait for other items: flags, advisory rating, dates, recording id, rating and
everything else, conversion.rs 215-349. -/
def ownFrame (custom : Rating.Provider) (owned : Bool) (i : TagItem) : Option Frame :=
  match i.key with
  | .FlagCompilation | .FlagPodcast =>
    (i.value.textOf.bind flagItem).bind fun f => (mapKey .id3v2 i.key).map fun id => newText id (flagText f)
  | .ParentalAdvisory =>
    (i.value.textOf.bind fun s => (parseUInt (2 ^ 8) s).bind Ilst.ratingOf).map fun r =>
      newUserText (str "ITUNESADVISORY") (toDec r)
  | .RecordingDate | .OriginalReleaseDate =>
    (itemText owned i).bind fun s => (mapKey .id3v2 i.key).map fun id => dateFrame id s
  | .MusicBrainzRecordingId =>
    (itemText owned i).bind fun s =>
      if s.all fun c => c.toNat < 128 then some (.leaf {} (.ufid ⟨musicbrainz, utf8 s⟩)) else none
  | .Popularimeter => (itemText owned i).bind fun s => (Rating.fromStr custom s).map (newPop custom)
  | _ => otherFrame owned i

/-- The keys whose items are collected, conversion.rs 116-213, 271-286 and 316-328. -/
def collected (k : ItemKey) : Bool :=
  multiText.contains k || multiUser.contains k || singleUser.contains k || k == .Comment || k == .UnsyncLyrics ||
    Convert.numberKeys.contains k || tiplMap.any fun e => e.1 == k

/-- `parse_number`, conversion.rs 109-112. -/
def parseNumber (i : TagItem) : Option Nat := i.value.textOf.bind parseU32

/-- The collected items, conversion.rs 116-213, 271-286 and 316-328. -/
def collect (owned : Bool) (c : Ctx) (i : TagItem) : Ctx :=
  if multiText.contains i.key then
    match itemText owned i, mapKey .id3v2 i.key with
    | some v, some id => { c with texts := upsert (extendText v) id v c.texts }
    | _, _ => c
  else if multiUser.contains i.key then
    match itemText owned i, mapKey .id3v2 i.key with
    | some v, some id => { c with users := upsert (extendText v) id v c.users }
    | _, _ => c
  else if singleUser.contains i.key then
    match itemText owned i, mapKey .id3v2 i.key with
    | some v, some id => { c with users := upsert (fun _ => v) id v c.users }
    | _, _ => c
  else
    match i.key with
    | .Comment =>
      match itemText owned i with
      | some v => { c with comments := upsert (extendText v) (i.lang, i.description) v c.comments }
      | none => c
    | .UnsyncLyrics =>
      match itemText owned i with
      | some v => { c with lyrics := upsert (extendText v) (i.lang, i.description) v c.lyrics }
      | none => c
    | .TrackNumber => { c with track := parseNumber i }
    | .TrackTotal => { c with trackTotal := parseNumber i }
    | .DiscNumber => { c with disc := parseNumber i }
    | .DiscTotal => { c with discTotal := parseNumber i }
    | k =>
      match tiplMap.find? (fun e => e.1 = k), itemText owned i with
      | some e, some v => { c with tipl := c.tipl ++ [(e.2, v)] }
      | _, _ => c

/-- `item_to_frame`, conversion.rs 59-351. -/
def itemToFrame (custom : Rating.Provider) (owned : Bool) (c : Ctx) (i : TagItem) : Ctx × Option Frame :=
  if collected i.key then (collect owned c i, none) else (c, ownFrame custom owned i)

/-- `HashSet::insert`: an equal frame that is there already stays. -/
def insertSet (l : List Frame) (f : Frame) : List Frame := if l.any fun g => sameFrame g f then l else l ++ [f]

/-- `new_number_pair_frame`, id3/v2/util/pairs.rs 22-32. -/
def numberFrame (id : Str) (number total : Option Nat) : Option Frame :=
  (formatPair (number.map toDec) (total.map toDec)).map (newText id)

/-- The frames in the order in which `from_tag` inserts them, conversion.rs 398-449. -/
def allFrames (custom : Rating.Provider) (owned : Bool) (items : List TagItem) : List Frame :=
  let r := items.foldl (fun (s : Ctx × List Frame) i =>
    let x := itemToFrame custom owned s.1 i
    (x.1, s.2 ++ x.2.toList)) ({}, [])
  let c := r.1
  r.2 ++ (if c.tipl.isEmpty then [] else [.leaf {} (.keyValue ⟨.valid (str "TIPL"), .utf8, c.tipl⟩)]) ++
    c.texts.map (fun e => newText e.1 e.2) ++ c.users.map (fun e => newUserText e.1 e.2) ++
    c.comments.map newComment ++ c.lyrics.map newLyrics ++
    (numberFrame (str "TRCK") c.track c.trackTotal).toList ++ (numberFrame (str "TPOS") c.disc c.discTotal).toList

/-- `from_tag`, conversion.rs 56-450, in order of insertion. -/
def fromTag (custom : Rating.Provider) (owned : Bool) (items : List TagItem) : List Frame :=
  (allFrames custom owned items).foldl insertSet []

/-! ## From frames to generic items -/

/-- The separators of number pairs, id3/v2/tag.rs 637. -/
def pairSep (c : Char) : Bool := c = '\x00' || c = '/'

/-- `splitn(2, ..)` at the separators. -/
def splitSep : Str → Str × Option Str
  | [] => ([], none)
  | c :: s => if pairSep c then ([], some s) else (c :: (splitSep s).1, (splitSep s).2)

/-- `parse_number`, id3/v2/tag.rs 621-635: the trimmed text, if it is a number. -/
def pairNumber (s : Str) : Option Str :=
  if (trim s).isEmpty then none else if (parseU32 (trim s)).isSome then some (trim s) else none

/-- `split_pair`, id3/v2/tag.rs 615-659. -/
def splitNumbers (content : Str) (number total : ItemKey) : Option (List TagItem) :=
  (pairNumber (splitSep content).1).bind fun n =>
    match (splitSep content).2 with
    | none => some [TagItem.new number (.text n)]
    | some t => (pairNumber t).map fun t => [TagItem.new number (.text n), TagItem.new total (.text t)]

/-- The keys of the number pairs, id3/v2/tag.rs 663-695. -/
def pairIds : List (Str × ItemKey × ItemKey) :=
  [(str "TRCK", .TrackNumber, .TrackTotal), (str "TPOS", .DiscNumber, .DiscTotal), (str "MVIN", .MovementNumber, .MovementTotal)]

/-- The first three arms, id3/v2/tag.rs 663-695. -/
def pairItems (id content : Str) : Option (List TagItem) :=
  (pairIds.find? fun e => e.1 = id).bind fun e => splitNumbers content e.2.1 e.2.2

/-- Several values of a text, `content.split(V4_MULTI_VALUE_SEPARATOR)`. -/
def values (k : ItemKey) (content : Str) : List TagItem := (Id3v2.splitOn '\x00' content).map fun c => TagItem.new k (.text c)

/-- The values of a comment or of lyrics, id3/v2/tag.rs 800-829: `take` leaves the description to the first value
only. -/
def langValues (k : ItemKey) (f : Id3v2.LangF) : List TagItem :=
  match Id3v2.splitOn '\x00' f.content with
  | [] => []
  | c :: cs => ⟨langBytes f.lang, f.desc, k, .text c⟩ :: cs.map fun c => ⟨langBytes f.lang, [], k, .text c⟩

/-- What `handle_tag_split` makes of one frame: items, pictures, and the frame that is held back. -/
structure Split where
  items : List TagItem := []
  pictures : List Picture.Pic := []
  kept : Option Frame := none

/-- A text that has a key, or a frame to keep. -/
def keyed (name : Str) (f : Frame) (g : ItemKey → List TagItem) : Split :=
  match fromKey .id3v2 name with
  | some k => { items := g k }
  | none => { kept := some f }

/-- `handle_tag_split`, id3/v2/tag.rs 609-913. -/
def splitFrame (custom : Rating.Provider) (f : Frame) : Split :=
  match f with
  | .leaf flags (.text t) =>
    match pairItems t.id.asStr t.value with
    | some l => { items := l }
    | none =>
      if t.id.asStr = str "TCON" then
        { items := (Id3v2.genreList t.value.length t.value).map fun g => TagItem.new .Genre (.text g) }
      else keyed t.id.asStr (.leaf flags (.text t)) fun k => values k t.value
  | .leaf flags (.keyValue kv) =>
    if kv.id.asStr = str "TIPL" then
      let rest := kv.pairs.filter fun p => !(tiplMap.any fun e => e.2 = p.1)
      { items := kv.pairs.filterMap fun p => (tiplMap.find? fun e => e.2 = p.1).map fun e => TagItem.new e.1 (.text p.2)
        kept := if rest.isEmpty then none else some (.leaf flags (.keyValue { kv with pairs := rest })) }
    else { kept := some f }
  | .leaf _ (.userText u) => if u.desc.isEmpty then { kept := some f } else keyed u.desc f fun k => values k u.content
  | .leaf _ (.userUrl u) =>
    if u.desc.isEmpty || (utf8 u.desc).length = 4 then { kept := some f }
    else keyed u.desc f fun k => (Id3v2.splitOn '\x00' u.content).map fun c => TagItem.new k (.locator c)
  | .leaf _ (.ufid o) =>
    if o.owner ≠ musicbrainz then { kept := some f }
    else { items := [TagItem.new .MusicBrainzRecordingId (.text (Text.latin1Decode o.data))] }
  | .leaf _ (.comment l) => { items := langValues .Comment l }
  | .leaf _ (.lyrics l) => { items := langValues .UnsyncLyrics l }
  | .leaf _ (.picture p) => { pictures := [p.pic] }
  | .leaf _ (.time t) =>
    if t.time.verify then keyed t.id.asStr f fun k => [TagItem.new k (.text t.time.fmt)] else { kept := some f }
  | .leaf _ (.pop p) =>
    match Rating.mapped custom p.email .id3v2 p.rating.toNat p.counter with
    | some g => { items := [TagItem.new .Popularimeter (.text g.fmt)] }
    | none => { kept := some f }
  | .leaf _ (.url u) => keyed u.id.asStr f fun k => [TagItem.new k (.locator u.url)]
  | f => { kept := some f }

/-- `split_tag` of ID3v2, id3/v2/tag.rs 915-926: the frames that remain and the generic tag. -/
def splitId3v2 (custom : Rating.Provider) (l : List Frame) : List Frame × Tag :=
  (l.filterMap fun f => (splitFrame custom f).kept,
   { Tag.new .id3v2 with
     items := l.flatMap fun f => (splitFrame custom f).items
     pictures := l.flatMap fun f => (splitFrame custom f).pictures })

/-- More pairs for a frame, id3/v2/tag.rs 953-959. -/
def extendPairs (l : List (Str × Str)) : Frame → Frame
  | .leaf fl (.keyValue kv) => .leaf fl (.keyValue { kv with pairs := kv.pairs ++ l })
  | f => f

/-- One frame in `merge_tag`, id3/v2/tag.rs 935-967. -/
def mergeFrame (l : List Frame) (f : Frame) : Except Err (List Frame) :=
  if f.id.asStr = str "TIPL" then
    match Id3v2.takeFirstId l (.valid (str "TIPL")) with
    | (none, _) => .ok (l ++ [f])
    | (some g, rest) =>
      match f with
      | .leaf _ (.keyValue kv) => .ok (rest ++ [extendPairs kv.pairs g])
      | _ => .error .panic
  else .ok (l ++ [f])

/-- The frames in `merge_tag`, in the order `fs` in which the set yields them. -/
def mergeFrames (l : List Frame) : List Frame → Except Err (List Frame)
  | [] => .ok l
  | f :: fs => (mergeFrame l f).bind fun l => mergeFrames l fs

/-- `merge_tag` of ID3v2, id3/v2/tag.rs 928-979, if the set of frames comes in the order `fs`. -/
def mergeId3v2 (rest fs : List Frame) (pictures : List Picture.Pic) : Except Err (List Frame) :=
  (mergeFrames rest fs).map fun l => pictures.foldl (fun l p => (Id3v2.insert l (newPicture p)).2) l

/-- `tag_frames`, conversion.rs 452-495: a generic tag saved directly, if the set of frames comes in the order `fs`;
`companion` are the frames that were held back. -/
def tagFrames (fs companion : List Frame) (pictures : List Picture.Pic) : List Frame :=
  fs ++ companion ++ pictures.map newPicture

end Lofty.Convert
