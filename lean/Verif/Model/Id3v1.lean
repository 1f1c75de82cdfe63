import Verif.Model.File
import Verif.Model.Ascii
/-!
# ID3v1

`lofty/src/id3/v1/*.rs` and `find_id3v1` of `lofty/src/id3/mod.rs`.
-/
namespace Lofty.Id3v1

/-- `GENRES`, id3/v1/constants.rs 4-197. -/
def genres : List Str := [
  str "Blues", str "Classic rock", str "Country", str "Dance", str "Disco", str "Funk",
  str "Grunge", str "Hip-Hop", str "Jazz", str "Metal", str "New Age", str "Oldies", str "Other",
  str "Pop", str "R&B", str "Rap", str "Reggae", str "Rock", str "Techno", str "Industrial",
  str "Alternative", str "Ska", str "Death metal", str "Pranks", str "Soundtrack",
  str "Euro-Techno", str "Ambient", str "Trip-Hop", str "Vocal", str "Jazz & Funk", str "Fusion",
  str "Trance", str "Classical", str "Instrumental", str "Acid", str "House", str "Game",
  str "Sound clip", str "Gospel", str "Noise", str "Alternative Rock", str "Bass", str "Soul",
  str "Punk", str "Space", str "Meditative", str "Instrumental Pop", str "Instrumental Rock",
  str "Ethnic", str "Gothic", str "Darkwave", str "Techno-Industrial", str "Electronic",
  str "Pop-Folk", str "Eurodance", str "Dream", str "Southern Rock", str "Comedy", str "Cult",
  str "Gangsta", str "Top 40", str "Christian Rap", str "Pop/Funk", str "Jungle", str "Native US",
  str "Cabaret", str "New Wave", str "Psychedelic", str "Rave", str "Show tunes", str "Trailer",
  str "Lo-Fi", str "Tribal", str "Acid Punk", str "Acid Jazz", str "Polka", str "Retro",
  str "Musical", str "Rock ’n’ Roll", str "Hard Rock", str "Folk", str "Folk-Rock",
  str "National Folk", str "Swing", str "Fast Fusion", str "Bebop", str "Latin", str "Revival",
  str "Celtic", str "Bluegrass", str "Avantgarde", str "Gothic Rock", str "Progressive Rock",
  str "Psychedelic Rock", str "Symphonic Rock", str "Slow rock", str "Big Band", str "Chorus",
  str "Easy Listening", str "Acoustic", str "Humour", str "Speech", str "Chanson", str "Opera",
  str "Chamber music", str "Sonata", str "Symphony", str "Booty bass", str "Primus",
  str "Porn groove", str "Satire", str "Slow jam", str "Club", str "Tango", str "Samba",
  str "Folklore", str "Ballad", str "Power Ballad", str "Rhythmic Soul", str "Freestyle",
  str "Duet", str "Punk Rock", str "Drum Solo", str "A cappella", str "Euro-House",
  str "Dance Hall", str "Goa music", str "Drum & Bass", str "Club-House", str "Hardcore Techno",
  str "Terror", str "Indie", str "BritPop", str "Negerpunk", str "Polsk Punk", str "Beat",
  str "Christian Gangsta Rap", str "Heavy Metal", str "Black Metal", str "Crossover",
  str "Contemporary Christian", str "Christian rock", str "Merengue", str "Salsa",
  str "Thrash Metal", str "Anime", str "Jpop", str "Synthpop", str "Abstract", str "Art Rock",
  str "Baroque", str "Bhangra", str "Big beat", str "Breakbeat", str "Chillout", str "Downtempo",
  str "Dub", str "EBM", str "Eclectic", str "Electro", str "Electroclash", str "Emo",
  str "Experimental", str "Garage", str "Global", str "IDM", str "Illbient", str "Industro-Goth",
  str "Jam Band", str "Krautrock", str "Leftfield", str "Lounge", str "Math Rock",
  str "New Romantic", str "Nu-Breakz", str "Post-Punk", str "Post-Rock", str "Psytrance",
  str "Shoegaze", str "Space Rock", str "Trop Rock", str "World Music", str "Neoclassical",
  str "Audiobook", str "Audio theatre", str "Neue Deutsche Welle", str "Podcast", str "Indie-Rock",
  str "G-Funk", str "Dubstep", str "Garage Rock", str "Psybient"]

/-- `Id3v1Tag`, id3/v1/tag.rs 82-113; the numbers are a `u16` and two `u8`. -/
structure Tag where
  title : Option Str
  artist : Option Str
  album : Option Str
  year : Option Nat
  comment : Option Str
  track : Option UInt8
  genre : Option UInt8
  deriving DecidableEq

/-- `Id3v1Tag::default`. -/
def Tag.empty : Tag := ⟨none, none, none, none, none, none, none⟩

/-- `is_empty`, id3/v1/tag.rs 239-247. -/
def Tag.isEmpty (t : Tag) : Bool :=
  t.title.isNone && t.artist.isNone && t.album.isNone && t.year.isNone && t.comment.isNone && t.track.isNone
    && t.genre.isNone

/-! ## Reading -/

/-- `decode_text`, id3/v1/read.rs 55-70. -/
def decodeText (d : Bytes) : Option Str :=
  if d.head? = some 0 then none else some (Text.latin1Decode (d.takeWhile (· ≠ 0)))

/-- `try_parse_year`, id3/v1/read.rs 72-91. -/
def parseYear (strict : Bool) (d : Bytes) : Except Err (Option Nat) :=
  let digits := d.takeWhile fun c => 48 ≤ c.toNat ∧ c.toNat ≤ 57
  if digits.length ≠ 4 then if strict then .error .parse else .ok none
  else .ok (some (digits.foldl (fun y c => y * 10 + (c.toNat - 48)) 0))

/-- `Id3v1Tag::parse`, id3/v1/read.rs 11-52, of 128 bytes. -/
def parse (strict : Bool) (b : Bytes) : Except Err Tag :=
  if b.take 3 ≠ ascii "TAG" then .error .parse
  else
    let r := b.drop 3
    do
      let year ← parseYear strict ((r.drop 90).take 4)
      let v11 := r.getD 122 0 = 0 ∧ r.getD 123 0 ≠ 0
      .ok {
        title := decodeText (r.take 30)
        artist := decodeText ((r.drop 30).take 30)
        album := decodeText ((r.drop 60).take 30)
        year := year
        track := if v11 then some (r.getD 123 0) else none
        comment := decodeText ((r.drop 94).take (if v11 then 29 else 30))
        genre := if (r.getD 124 0).toNat < genres.length then some (r.getD 124 0) else none }

/-! ## Writing -/

/-- `resize_string`, id3/v1/write.rs 51-66: `latin1_encode(..).take(size)` is lazy, so only
the first `size` characters are encoded. -/
def resizeString (lossy : Bool) (size : Nat) : Option Str → Except Err Bytes
  | none => .ok (List.replicate size 0)
  | some s =>
    match Text.latin1Encode (s.take size) lossy with
    | .ok b => .ok (b ++ List.replicate (size - b.length) 0)
    | .error _ => .error .encode

/-- The year digits, id3/v1/write.rs 81-97. -/
def yearDigits : Option Nat → Bytes
  | none => [0, 0, 0, 0]
  | some y =>
    let y := min y 9999
    [UInt8.ofNat (48 + y / 1000 % 10), UInt8.ofNat (48 + y / 100 % 10), UInt8.ofNat (48 + y / 10 % 10),
      UInt8.ofNat (48 + y % 10)]

/-- `encode`, id3/v1/write.rs 47-109. -/
def encode (lossy : Bool) (t : Tag) : Except Err Bytes := do
  let title ← resizeString lossy 30 t.title
  let artist ← resizeString lossy 30 t.artist
  let album ← resizeString lossy 30 t.album
  let comment ← resizeString lossy 28 t.comment
  .ok (ascii "TAG" ++ title ++ artist ++ album ++ yearDigits t.year ++ comment
    ++ [0, t.track.getD 0, t.genre.getD 255])

/-! ## Files -/

/-- `find_id3v1`, id3/mod.rs 108-152: whether there is a tag, the tag if `read`, and the
position afterwards.  Seeking to a negative position is an error of `seek`. -/
def find (strict read : Bool) (f : Bytes) : Except Err (Bool × Option Tag × Nat) :=
  if f.length < 128 then .ok (false, none, f.length)
  else do
    let h ← readAt f (f.length - 128) 3
    if h ≠ ascii "TAG" then .ok (false, none, f.length)
    else if read then do
      let b ← readAt f (f.length - 128) 128
      let t ← parse strict b
      .ok (true, some t, f.length - 128)
    else .ok (true, none, f.length - 128)

/-- `write_id3v1`, id3/v1/write.rs 15-45. -/
def write (lossy : Bool) (f : Bytes) (t : Tag) : Except Err Bytes := do
  let (found, _, pos) ← find false false f
  if t.isEmpty && found then .ok (truncate f (f.length - 128))
  else do
    let b ← encode lossy t
    .ok (writeAt f pos b)

/-! ## Editing -/

/-- `genre`, id3/v1/tag.rs 138-148. -/
def Tag.genreName (t : Tag) : Option Str := t.genre.bind fun g => genres[g.toNat]?

/-- `set_genre`, id3/v1/tag.rs 150-159: the first genre of that name, ignoring case; an
unknown name changes nothing. -/
def Tag.setGenre (t : Tag) (name : Str) : Tag :=
  match genres.findIdx? (fun g => eqIc g name) with
  | some i => { t with genre := some (UInt8.ofNat i) }
  | none => t

/-- `set_track`, id3/v1/tag.rs 169-171: `value as u8`. -/
def Tag.setTrack (t : Tag) (n : Nat) : Tag := { t with track := some (UInt8.ofNat n) }

/-- `track`, id3/v1/tag.rs 165-167. -/
def Tag.trackNumber (t : Tag) : Option Nat := t.track.map (·.toNat)

/-- The loop of `set_comment`, id3/v1/tag.rs 182-189; `len` is the size of `resized`. -/
def cutComment : Nat → Str → Str
  | _, [] => []
  | len, c :: cs => if len + (utf8 [c]).length > 28 then [] else c :: cutComment (len + (utf8 [c]).length) cs

/-- `set_comment`, id3/v1/tag.rs 181-192. -/
def Tag.setComment (t : Tag) (s : Str) : Tag := { t with comment := some (cutComment 0 s) }

end Lofty.Id3v1
