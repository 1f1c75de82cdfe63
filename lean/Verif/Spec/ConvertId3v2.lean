import Verif.Model.Tag
import Verif.Model.Id3v2Items
/-!
# Specification: what a generic tag keeps when it becomes an ID3v2 tag
-/
namespace Lofty.Convert.Spec
open Lofty.Item (Tag TagItem ItemValue ItemKey)

/-- The text an item gives: its text or, if the tag is converted (and not saved directly), its link. -/
def textFor (owned : Bool) : ItemValue → Option Str
  | .text s => some s
  | .locator s => if owned then some s else none
  | .binary _ => none

/-- The texts a tag gives for a key, in order. -/
def given (owned : Bool) (t : Tag) (k : ItemKey) : List Str := (t.getItems k).filterMap fun i => textFor owned i.value

/-- The parts of a text between NULs. -/
def pieces : Str → List Str
  | [] => [[]]
  | c :: s =>
    if c = '\x00' then [] :: pieces s
    else
      match pieces s with
      | p :: ps => (c :: p) :: ps
      | [] => [[c]]

/-- Items with a key and texts. -/
def items (k : ItemKey) (l : List Str) : List TagItem := l.map fun s => TagItem.new k (.text s)

/-- The elements whose key no earlier element has. -/
def firsts {α κ : Type} [DecidableEq κ] (key : α → κ) : List α → List α
  | [] => []
  | a :: l => a :: (firsts key l).filter fun b => key b ≠ key a

/-- Texts of which every value is kept. -/
def severalKeys : List ItemKey :=
  [.TrackArtist, .AlbumArtist, .TrackTitle, .AlbumTitle, .SetSubtitle, .TrackSubtitle, .OriginalAlbumTitle, .OriginalArtist,
   .OriginalLyricist, .ContentGroup, .AppleId3v2ContentGroup, .Mood, .Composer, .Conductor, .InternetRadioStationName,
   .InternetRadioStationOwner, .Remixer, .Work, .Movement, .FileOwner, .CopyrightMessage, .Language,
   .TrackArtists, .AlbumArtists, .Director, .AcoustId, .AcoustIdFingerprint, .CatalogNumber, .MusicBrainzArtistId,
   .MusicBrainzReleaseArtistId, .MusicBrainzWorkId, .MusicBrainzReleaseType, .ReleaseCountry, .Barcode]

/-- Texts of which the first value is kept. -/
def firstKeys : List ItemKey :=
  [.AlbumTitleSortOrder, .AlbumArtistSortOrder, .TrackTitleSortOrder, .TrackArtistSortOrder, .ComposerSortOrder,
   .ReleaseDate, .Isrc, .TaggingTime, .Length, .OriginalFileName, .OriginalMediaType, .EncodedBy,
   .EncodingTime, .InitialKey, .IntegerBpm, .PodcastDescription, .PodcastSeriesCategory,
   .PodcastGlobalUniqueId, .PodcastKeywords]

/-- Texts of which the last value is kept. -/
def lastKeys : List ItemKey := [.ReplayGainAlbumGain, .ReplayGainAlbumPeak, .ReplayGainTrackGain, .ReplayGainTrackPeak]

/-- Links, of which the first is kept. -/
def linkKeys : List ItemKey :=
  [.AudioFileUrl, .AudioSourceUrl, .CommercialInformationUrl, .CopyrightUrl, .TrackArtistUrl, .RadioStationUrl, .PaymentUrl,
   .PublisherUrl, .PodcastUrl]

/-- People of whom every name is kept. -/
def peopleKeys : List ItemKey := [.Producer, .Arranger, .Engineer, .MixDj, .MixEngineer]

/-- Keys under which nothing is ever found afterwards. -/
def goneKeys : List ItemKey :=
  [.ShowName, .ShowNameSortOrder, .Writer, .Performer, .Label, .Year, .MovementNumber, .MovementTotal, .MusicBrainzTrackId,
   .MusicBrainzReleaseId, .MusicBrainzReleaseGroupId, .EncoderSoftware, .R128TrackGain, .R128AlbumGain, .Color, .Bpm, .License,
   .Description, .Script, .Lyrics, .AppleXid]

/-- The remaining keys. -/
def otherKeys : List ItemKey :=
  [.Lyricist, .Publisher, .Genre, .EncoderSettings, .FlagCompilation, .FlagPodcast, .ParentalAdvisory, .RecordingDate,
   .OriginalReleaseDate, .TrackNumber, .TrackTotal, .DiscNumber, .DiscTotal, .MusicBrainzRecordingId, .Popularimeter, .Comment,
   .UnsyncLyrics]

/-- What one comment (or lyrics) with a language and a description becomes: the description stays with the first value. -/
def group (k : ItemKey) (lang : Bytes) (description : Str) : List Str → List TagItem
  | [] => []
  | v :: vs => ⟨lang, description, k, .text v⟩ :: vs.map fun v => ⟨lang, [], k, .text v⟩

/-- The decimal number the last item of a key gives. -/
def numberOf (t : Tag) (k : ItemKey) : Option Nat :=
  ((t.getItems k).getLast?).bind fun i => match i.value with | .text s => parseU32 s | _ => none

/-- A flag, as "1" or "0". -/
def flagOf : ItemValue → Option Str
  | .text s =>
    if s = str "1" ∨ s = str "true" then some (str "1") else if s = str "0" ∨ s = str "false" then some (str "0") else none
  | _ => none

/-- An advisory rating: 0, 1 or 2, or 4, which is an older 1. -/
def advisory : ItemValue → Option Str
  | .text s => (parseUInt 256 s).bind fun n => if n ≤ 2 then some (toDec n) else if n = 4 then some (str "1") else none
  | _ => none

end Lofty.Convert.Spec
