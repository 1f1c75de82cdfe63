import Verif.Model.Ascii
/-!
# Generic item keys and their names in the tag formats

`lofty/src/tag/item.rs`.  The tables are those of the source, in its order.
-/
namespace Lofty.Item

/-- `ItemKey`, tag/item.rs 549-968. -/
inductive ItemKey
  | AlbumTitle | SetSubtitle | ShowName | ContentGroup | TrackTitle | TrackSubtitle | OriginalAlbumTitle
  | OriginalArtist | OriginalLyricist | AlbumTitleSortOrder | AlbumArtistSortOrder | TrackTitleSortOrder
  | TrackArtistSortOrder | ShowNameSortOrder | ComposerSortOrder | AlbumArtist | AlbumArtists | TrackArtist
  | TrackArtists | Arranger | Writer | Composer | Conductor | Director | Engineer | Lyricist | MixDj | MixEngineer
  | Performer | Producer | Publisher | Label | InternetRadioStationName | InternetRadioStationOwner | Remixer
  | DiscNumber | DiscTotal | TrackNumber | TrackTotal | Popularimeter | ParentalAdvisory | RecordingDate | Year
  | ReleaseDate | OriginalReleaseDate | Isrc | Barcode | AcoustId | AcoustIdFingerprint | CatalogNumber | Work
  | Movement | MovementNumber | MovementTotal | ReleaseCountry | MusicBrainzRecordingId | MusicBrainzTrackId
  | MusicBrainzReleaseId | MusicBrainzReleaseGroupId | MusicBrainzArtistId | MusicBrainzReleaseArtistId
  | MusicBrainzWorkId | MusicBrainzReleaseType | FlagCompilation | FlagPodcast | FileOwner | TaggingTime | Length
  | OriginalFileName | OriginalMediaType | EncodedBy | EncoderSoftware | EncoderSettings | EncodingTime
  | ReplayGainAlbumGain | ReplayGainAlbumPeak | ReplayGainTrackGain | ReplayGainTrackPeak | R128TrackGain
  | R128AlbumGain | AudioFileUrl | AudioSourceUrl | CommercialInformationUrl | CopyrightUrl | TrackArtistUrl
  | RadioStationUrl | PaymentUrl | PublisherUrl | Genre | InitialKey | Color | Mood | Bpm | IntegerBpm
  | CopyrightMessage | License | PodcastDescription | PodcastSeriesCategory | PodcastUrl | PodcastGlobalUniqueId
  | PodcastKeywords | Comment | Description | Language | Script | Lyrics | UnsyncLyrics | AppleXid
  | AppleId3v2ContentGroup
  deriving DecidableEq, Repr

/-- All variants of `ItemKey`, tag/item.rs 549-968. -/
def ItemKey.all : List ItemKey :=
  [.AlbumTitle, .SetSubtitle, .ShowName, .ContentGroup, .TrackTitle, .TrackSubtitle, .OriginalAlbumTitle,
   .OriginalArtist, .OriginalLyricist, .AlbumTitleSortOrder, .AlbumArtistSortOrder, .TrackTitleSortOrder,
   .TrackArtistSortOrder, .ShowNameSortOrder, .ComposerSortOrder, .AlbumArtist, .AlbumArtists, .TrackArtist,
   .TrackArtists, .Arranger, .Writer, .Composer, .Conductor, .Director, .Engineer, .Lyricist, .MixDj, .MixEngineer,
   .Performer, .Producer, .Publisher, .Label, .InternetRadioStationName, .InternetRadioStationOwner, .Remixer,
   .DiscNumber, .DiscTotal, .TrackNumber, .TrackTotal, .Popularimeter, .ParentalAdvisory, .RecordingDate, .Year,
   .ReleaseDate, .OriginalReleaseDate, .Isrc, .Barcode, .AcoustId, .AcoustIdFingerprint, .CatalogNumber, .Work,
   .Movement, .MovementNumber, .MovementTotal, .ReleaseCountry, .MusicBrainzRecordingId, .MusicBrainzTrackId,
   .MusicBrainzReleaseId, .MusicBrainzReleaseGroupId, .MusicBrainzArtistId, .MusicBrainzReleaseArtistId,
   .MusicBrainzWorkId, .MusicBrainzReleaseType, .FlagCompilation, .FlagPodcast, .FileOwner, .TaggingTime, .Length,
   .OriginalFileName, .OriginalMediaType, .EncodedBy, .EncoderSoftware, .EncoderSettings, .EncodingTime,
   .ReplayGainAlbumGain, .ReplayGainAlbumPeak, .ReplayGainTrackGain, .ReplayGainTrackPeak, .R128TrackGain,
   .R128AlbumGain, .AudioFileUrl, .AudioSourceUrl, .CommercialInformationUrl, .CopyrightUrl, .TrackArtistUrl,
   .RadioStationUrl, .PaymentUrl, .PublisherUrl, .Genre, .InitialKey, .Color, .Mood, .Bpm, .IntegerBpm,
   .CopyrightMessage, .License, .PodcastDescription, .PodcastSeriesCategory, .PodcastUrl, .PodcastGlobalUniqueId,
   .PodcastKeywords, .Comment, .Description, .Language, .Script, .Lyrics, .UnsyncLyrics, .AppleXid,
   .AppleId3v2ContentGroup]

/-- One entry of `gen_map!`, tag/item.rs 43-45: the format's keys, the preferred one first, and the
generic keys, the preferred one first. -/
abbrev Row := List String × List ItemKey

/-- `AIFF_TEXT_MAP`, tag/item.rs 81-88. -/
def aiffTextMap : List Row :=
  [(["NAME"], [.TrackTitle]), (["AUTH"], [.TrackArtist]), (["(c) "], [.CopyrightMessage]),
   (["COMM", "ANNO"], [.Comment])]

/-- `APE_MAP`, tag/item.rs 90-161. -/
def apeMap : List Row :=
  [(["Album"], [.AlbumTitle]), (["DiscSubtitle"], [.SetSubtitle]), (["Grouping"], [.ContentGroup]),
   (["Title"], [.TrackTitle]), (["Subtitle"], [.TrackSubtitle]), (["WORKTITLE"], [.Work]),
   (["MOVEMENTNAME"], [.Movement]), (["MOVEMENT"], [.MovementNumber]), (["MOVEMENTTOTAL"], [.MovementTotal]),
   (["RELEASECOUNTRY"], [.ReleaseCountry]), (["ALBUMSORT"], [.AlbumTitleSortOrder]),
   (["ALBUMARTISTSORT"], [.AlbumArtistSortOrder]), (["TITLESORT"], [.TrackTitleSortOrder]),
   (["ARTISTSORT"], [.TrackArtistSortOrder]), (["Album Artist", "ALBUMARTIST"], [.AlbumArtist]),
   (["ALBUMARTISTS", "ALBUM ARTISTS"], [.AlbumArtists]), (["Artist"], [.TrackArtist]),
   (["Artists"], [.TrackArtists]), (["Arranger"], [.Arranger]), (["Writer"], [.Writer]), (["Composer"], [.Composer]),
   (["Conductor"], [.Conductor]), (["Director"], [.Director]), (["Engineer"], [.Engineer]),
   (["Lyricist"], [.Lyricist]), (["DjMixer"], [.MixDj]), (["Mixer"], [.MixEngineer]), (["Performer"], [.Performer]),
   (["Producer"], [.Producer]), (["Label"], [.Label]), (["MixArtist"], [.Remixer]), (["Disc"], [.DiscNumber]),
   (["Disc"], [.DiscTotal]), (["Track"], [.TrackNumber]), (["Track"], [.TrackTotal]),
   (["Year"], [.RecordingDate, .Year]), (["ORIGINALYEAR"], [.OriginalReleaseDate]),
   (["RELEASEDATE"], [.ReleaseDate]), (["ISRC"], [.Isrc]), (["Barcode"], [.Barcode]), (["ACOUSTID_ID"], [.AcoustId]),
   (["ACOUSTID_FINGERPRINT"], [.AcoustIdFingerprint]), (["CatalogNumber"], [.CatalogNumber]),
   (["Compilation"], [.FlagCompilation]), (["Media"], [.OriginalMediaType]), (["EncodedBy"], [.EncodedBy]),
   (["REPLAYGAIN_ALBUM_GAIN"], [.ReplayGainAlbumGain]), (["REPLAYGAIN_ALBUM_PEAK"], [.ReplayGainAlbumPeak]),
   (["REPLAYGAIN_TRACK_GAIN"], [.ReplayGainTrackGain]), (["REPLAYGAIN_TRACK_PEAK"], [.ReplayGainTrackPeak]),
   (["Genre"], [.Genre]), (["Color"], [.Color]), (["Mood"], [.Mood]), (["Copyright"], [.CopyrightMessage]),
   (["Comment"], [.Comment]), (["language"], [.Language]), (["Script"], [.Script]), (["Lyrics"], [.Lyrics]),
   (["UnsyncedLyrics"], [.UnsyncLyrics]), (["MUSICBRAINZ_TRACKID"], [.MusicBrainzRecordingId]),
   (["MUSICBRAINZ_RELEASETRACKID"], [.MusicBrainzTrackId]), (["MUSICBRAINZ_ALBUMID"], [.MusicBrainzReleaseId]),
   (["MUSICBRAINZ_RELEASEGROUPID"], [.MusicBrainzReleaseGroupId]),
   (["MUSICBRAINZ_ARTISTID"], [.MusicBrainzArtistId]),
   (["MUSICBRAINZ_ALBUMARTISTID"], [.MusicBrainzReleaseArtistId]), (["MUSICBRAINZ_WORKID"], [.MusicBrainzWorkId]),
   (["MUSICBRAINZ_ALBUMTYPE"], [.MusicBrainzReleaseType])]

/-- `ID3V2_MAP`, tag/item.rs 163-260. -/
def id3v2Map : List Row :=
  [(["TALB"], [.AlbumTitle]), (["TSST"], [.SetSubtitle]), (["TIT1"], [.ContentGroup]),
   (["GRP1"], [.AppleId3v2ContentGroup]), (["TIT2"], [.TrackTitle]), (["TIT3"], [.TrackSubtitle]),
   (["TOAL"], [.OriginalAlbumTitle]), (["TOPE"], [.OriginalArtist]), (["TOLY"], [.OriginalLyricist]),
   (["TSOA"], [.AlbumTitleSortOrder]), (["TSO2"], [.AlbumArtistSortOrder]), (["TSOT"], [.TrackTitleSortOrder]),
   (["TSOP"], [.TrackArtistSortOrder]), (["TSOC"], [.ComposerSortOrder]),
   (["TPE2", "ALBUMARTIST", "ALBUM ARTIST"], [.AlbumArtist]), (["ALBUMARTISTS", "ALBUM ARTISTS"], [.AlbumArtists]),
   (["TPE1"], [.TrackArtist]), (["ARTISTS"], [.TrackArtists]), (["TEXT"], [.Writer]), (["TCOM"], [.Composer]),
   (["TPE3"], [.Conductor]), (["DIRECTOR"], [.Director]), (["TEXT"], [.Lyricist]), (["TPUB"], [.Publisher, .Label]),
   (["TRSN"], [.InternetRadioStationName]), (["TRSO"], [.InternetRadioStationOwner]), (["TPE4"], [.Remixer]),
   (["TPOS"], [.DiscNumber]), (["TPOS"], [.DiscTotal]), (["TRCK"], [.TrackNumber]), (["TRCK"], [.TrackTotal]),
   (["POPM"], [.Popularimeter]), (["ITUNESADVISORY"], [.ParentalAdvisory]), (["TDRC"], [.RecordingDate]),
   (["TDOR"], [.OriginalReleaseDate]), (["TSRC"], [.Isrc]), (["BARCODE"], [.Barcode]),
   (["Acoustid Id"], [.AcoustId]), (["Acoustid Fingerprint"], [.AcoustIdFingerprint]),
   (["CATALOGNUMBER"], [.CatalogNumber]), (["WORK"], [.Work]), (["MVNM"], [.Movement]),
   (["MVIN"], [.MovementNumber]), (["MVIN"], [.MovementTotal]), (["TCMP"], [.FlagCompilation]),
   (["PCST"], [.FlagPodcast]), (["TOWN"], [.FileOwner]), (["TDTG"], [.TaggingTime]), (["TLEN"], [.Length]),
   (["TOFN"], [.OriginalFileName]), (["TMED"], [.OriginalMediaType]), (["TENC"], [.EncodedBy]),
   (["TSSE"], [.EncoderSoftware]), (["TSSE"], [.EncoderSettings]), (["TDEN"], [.EncodingTime]),
   (["REPLAYGAIN_ALBUM_GAIN"], [.ReplayGainAlbumGain]), (["REPLAYGAIN_ALBUM_PEAK"], [.ReplayGainAlbumPeak]),
   (["REPLAYGAIN_TRACK_GAIN"], [.ReplayGainTrackGain]), (["REPLAYGAIN_TRACK_PEAK"], [.ReplayGainTrackPeak]),
   (["WOAF"], [.AudioFileUrl]), (["WOAS"], [.AudioSourceUrl]), (["WCOM"], [.CommercialInformationUrl]),
   (["WCOP"], [.CopyrightUrl]), (["WOAR"], [.TrackArtistUrl]), (["WORS"], [.RadioStationUrl]),
   (["WPAY"], [.PaymentUrl]), (["WPUB"], [.PublisherUrl]), (["TCON"], [.Genre]), (["TKEY"], [.InitialKey]),
   (["COLOR"], [.Color]), (["TMOO"], [.Mood]), (["TBPM"], [.IntegerBpm]), (["TCOP"], [.CopyrightMessage]),
   (["TDES"], [.PodcastDescription]), (["TCAT"], [.PodcastSeriesCategory]), (["WFED"], [.PodcastUrl]),
   (["TDRL"], [.ReleaseDate]), (["TGID"], [.PodcastGlobalUniqueId]), (["TKWD"], [.PodcastKeywords]),
   (["COMM"], [.Comment]), (["TLAN"], [.Language]), (["USLT"], [.UnsyncLyrics]),
   (["MusicBrainz Release Track Id"], [.MusicBrainzTrackId]), (["MusicBrainz Album Id"], [.MusicBrainzReleaseId]),
   (["MusicBrainz Release Group Id"], [.MusicBrainzReleaseGroupId]),
   (["MusicBrainz Artist Id"], [.MusicBrainzArtistId]),
   (["MusicBrainz Album Artist Id"], [.MusicBrainzReleaseArtistId]), (["MusicBrainz Work Id"], [.MusicBrainzWorkId]),
   (["MusicBrainz Album Type"], [.MusicBrainzReleaseType]),
   (["MusicBrainz Album Release Country"], [.ReleaseCountry])]

/-- `ILST_MAP`, tag/item.rs 262-348. -/
def ilstMap : List Row :=
  [(["©alb"], [.AlbumTitle]), (["----:com.apple.iTunes:DISCSUBTITLE"], [.SetSubtitle]), (["tvsh"], [.ShowName]),
   (["©grp"], [.ContentGroup]), (["©nam"], [.TrackTitle]), (["----:com.apple.iTunes:SUBTITLE"], [.TrackSubtitle]),
   (["©wrk"], [.Work]), (["©mvn"], [.Movement]), (["©mvi"], [.MovementNumber]), (["©mvc"], [.MovementTotal]),
   (["soal"], [.AlbumTitleSortOrder]), (["soaa"], [.AlbumArtistSortOrder]), (["sonm"], [.TrackTitleSortOrder]),
   (["soar"], [.TrackArtistSortOrder]), (["sosn"], [.ShowNameSortOrder]), (["soco"], [.ComposerSortOrder]),
   (["aART"], [.AlbumArtist]), (["----:com.apple.iTunes:ALBUMARTISTS"], [.AlbumArtists]), (["©ART"], [.TrackArtist]),
   (["----:com.apple.iTunes:ARTISTS"], [.TrackArtists]), (["©wrt"], [.Composer]), (["©dir"], [.Director]),
   (["----:com.apple.iTunes:CONDUCTOR"], [.Conductor]), (["----:com.apple.iTunes:ENGINEER"], [.Engineer]),
   (["----:com.apple.iTunes:LYRICIST"], [.Lyricist]), (["----:com.apple.iTunes:DJMIXER"], [.MixDj]),
   (["----:com.apple.iTunes:MIXER"], [.MixEngineer]), (["----:com.apple.iTunes:PRODUCER"], [.Producer]),
   (["----:com.apple.iTunes:LABEL"], [.Label]), (["----:com.apple.iTunes:REMIXER"], [.Remixer]),
   (["disk"], [.DiscNumber]), (["disk"], [.DiscTotal]), (["trkn"], [.TrackNumber]), (["trkn"], [.TrackTotal]),
   (["rate"], [.Popularimeter]), (["rtng"], [.ParentalAdvisory]), (["©day"], [.RecordingDate]),
   (["----:com.apple.iTunes:ORIGINALDATE"], [.OriginalReleaseDate]),
   (["----:com.apple.iTunes:RELEASEDATE"], [.ReleaseDate]), (["----:com.apple.iTunes:ISRC"], [.Isrc]),
   (["----:com.apple.iTunes:BARCODE"], [.Barcode]), (["----:com.apple.iTunes:Acoustid Id"], [.AcoustId]),
   (["----:com.apple.iTunes:Acoustid Fingerprint"], [.AcoustIdFingerprint]),
   (["----:com.apple.iTunes:CATALOGNUMBER"], [.CatalogNumber]), (["cpil"], [.FlagCompilation]),
   (["pcst"], [.FlagPodcast]), (["----:com.apple.iTunes:MEDIA"], [.OriginalMediaType]), (["©enc"], [.EncodedBy]),
   (["©too"], [.EncoderSoftware]), (["©gen"], [.Genre]), (["----:com.apple.iTunes:COLOR"], [.Color]),
   (["----:com.apple.iTunes:MOOD"], [.Mood]), (["tmpo"], [.IntegerBpm]), (["----:com.apple.iTunes:BPM"], [.Bpm]),
   (["----:com.apple.iTunes:initialkey"], [.InitialKey]),
   (["----:com.apple.iTunes:replaygain_album_gain"], [.ReplayGainAlbumGain]),
   (["----:com.apple.iTunes:replaygain_album_peak"], [.ReplayGainAlbumPeak]),
   (["----:com.apple.iTunes:replaygain_track_gain"], [.ReplayGainTrackGain]),
   (["----:com.apple.iTunes:replaygain_track_peak"], [.ReplayGainTrackPeak]), (["cprt"], [.CopyrightMessage]),
   (["----:com.apple.iTunes:LICENSE"], [.License]), (["ldes"], [.PodcastDescription]),
   (["catg"], [.PodcastSeriesCategory]), (["purl"], [.PodcastUrl]), (["egid"], [.PodcastGlobalUniqueId]),
   (["keyw"], [.PodcastKeywords]), (["©cmt"], [.Comment]), (["desc"], [.Description]),
   (["----:com.apple.iTunes:LANGUAGE"], [.Language]), (["----:com.apple.iTunes:SCRIPT"], [.Script]),
   (["©lyr"], [.Lyrics, .UnsyncLyrics]), (["xid "], [.AppleXid]),
   (["----:com.apple.iTunes:MusicBrainz Track Id"], [.MusicBrainzRecordingId]),
   (["----:com.apple.iTunes:MusicBrainz Release Track Id"], [.MusicBrainzTrackId]),
   (["----:com.apple.iTunes:MusicBrainz Album Id"], [.MusicBrainzReleaseId]),
   (["----:com.apple.iTunes:MusicBrainz Release Group Id"], [.MusicBrainzReleaseGroupId]),
   (["----:com.apple.iTunes:MusicBrainz Artist Id"], [.MusicBrainzArtistId]),
   (["----:com.apple.iTunes:MusicBrainz Album Artist Id"], [.MusicBrainzReleaseArtistId]),
   (["----:com.apple.iTunes:MusicBrainz Work Id"], [.MusicBrainzWorkId]),
   (["----:com.apple.iTunes:MusicBrainz Album Type"], [.MusicBrainzReleaseType]),
   (["----:com.apple.iTunes:MusicBrainz Album Release Country"], [.ReleaseCountry])]

/-- `RIFF_INFO_MAP`, tag/item.rs 350-372. -/
def riffInfoMap : List Row :=
  [(["IPRD"], [.AlbumTitle]), (["INAM"], [.TrackTitle]), (["IART"], [.TrackArtist]), (["IWRI"], [.Writer]),
   (["IMUS"], [.Composer]), (["IPRO"], [.Producer]), (["IPRT", "ITRK"], [.TrackNumber]), (["IFRM"], [.TrackTotal]),
   (["IRTD"], [.Popularimeter]), (["ICRD"], [.RecordingDate]), (["TLEN"], [.Length]),
   (["ISRF"], [.OriginalMediaType]), (["ITCH"], [.EncodedBy]), (["ISFT"], [.EncoderSoftware]), (["IGNR"], [.Genre]),
   (["ICOP"], [.CopyrightMessage]), (["ICMT"], [.Comment]), (["ILNG"], [.Language]), (["ICNT"], [.ReleaseCountry])]

/-- `VORBIS_MAP`, tag/item.rs 374-464. -/
def vorbisMap : List Row :=
  [(["ALBUM"], [.AlbumTitle]), (["DISCSUBTITLE"], [.SetSubtitle]), (["GROUPING"], [.ContentGroup]),
   (["TITLE"], [.TrackTitle]), (["SUBTITLE"], [.TrackSubtitle]), (["WORK"], [.Work]),
   (["MOVEMENTNAME"], [.Movement]), (["MOVEMENT"], [.MovementNumber]), (["MOVEMENTTOTAL"], [.MovementTotal]),
   (["RELEASECOUNTRY"], [.ReleaseCountry]), (["ALBUMSORT"], [.AlbumTitleSortOrder]),
   (["ALBUMARTISTSORT"], [.AlbumArtistSortOrder]), (["TITLESORT"], [.TrackTitleSortOrder]),
   (["ARTISTSORT"], [.TrackArtistSortOrder]), (["ALBUMARTIST", "ALBUM ARTIST"], [.AlbumArtist]),
   (["ALBUMARTISTS", "ALBUM ARTISTS"], [.AlbumArtists]), (["ARTIST"], [.TrackArtist]),
   (["ARTISTS"], [.TrackArtists]), (["ARRANGER"], [.Arranger]), (["AUTHOR", "WRITER"], [.Writer]),
   (["COMPOSER"], [.Composer]), (["CONDUCTOR"], [.Conductor]), (["DIRECTOR"], [.Director]),
   (["ENGINEER"], [.Engineer]), (["LYRICIST"], [.Lyricist]), (["DJMIXER"], [.MixDj]), (["MIXER"], [.MixEngineer]),
   (["PERFORMER"], [.Performer]), (["PRODUCER"], [.Producer]), (["PUBLISHER"], [.Publisher]),
   (["LABEL", "ORGANIZATION"], [.Label]), (["REMIXER", "MIXARTIST"], [.Remixer]), (["DISCNUMBER"], [.DiscNumber]),
   (["DISCTOTAL", "TOTALDISCS"], [.DiscTotal]), (["TRACKNUMBER"], [.TrackNumber]),
   (["TRACKTOTAL", "TOTALTRACKS"], [.TrackTotal]), (["RATING"], [.Popularimeter]), (["DATE"], [.RecordingDate]),
   (["YEAR"], [.Year]), (["ORIGINALDATE", "ORIGINALYEAR"], [.OriginalReleaseDate]),
   (["RELEASEDATE"], [.ReleaseDate]), (["ISRC"], [.Isrc]), (["BARCODE"], [.Barcode]), (["ACOUSTID_ID"], [.AcoustId]),
   (["ACOUSTID_FINGERPRINT"], [.AcoustIdFingerprint]), (["CATALOGNUMBER"], [.CatalogNumber]),
   (["COMPILATION"], [.FlagCompilation]), (["MEDIA"], [.OriginalMediaType]),
   (["ENCODEDBY", "ENCODED-BY", "ENCODED_BY"], [.EncodedBy]), (["ENCODER"], [.EncoderSoftware]),
   (["ENCODING", "ENCODERSETTINGS"], [.EncoderSettings]), (["REPLAYGAIN_ALBUM_GAIN"], [.ReplayGainAlbumGain]),
   (["REPLAYGAIN_ALBUM_PEAK"], [.ReplayGainAlbumPeak]), (["REPLAYGAIN_TRACK_GAIN"], [.ReplayGainTrackGain]),
   (["REPLAYGAIN_TRACK_PEAK"], [.ReplayGainTrackPeak]), (["R128_TRACK_GAIN"], [.R128TrackGain]),
   (["R128_ALBUM_GAIN"], [.R128AlbumGain]), (["GENRE"], [.Genre]), (["COLOR"], [.Color]), (["MOOD"], [.Mood]),
   (["BPM"], [.Bpm]), (["INITIALKEY", "KEY"], [.InitialKey]), (["COPYRIGHT"], [.CopyrightMessage]),
   (["LICENSE"], [.License]), (["COMMENT"], [.Comment]), (["DESCRIPTION"], [.Description]),
   (["LANGUAGE"], [.Language]), (["SCRIPT"], [.Script]), (["LYRICS"], [.Lyrics]),
   (["UNSYNCEDLYRICS"], [.UnsyncLyrics]), (["MUSICBRAINZ_TRACKID"], [.MusicBrainzRecordingId]),
   (["MUSICBRAINZ_RELEASETRACKID"], [.MusicBrainzTrackId]), (["MUSICBRAINZ_ALBUMID"], [.MusicBrainzReleaseId]),
   (["MUSICBRAINZ_RELEASEGROUPID"], [.MusicBrainzReleaseGroupId]),
   (["MUSICBRAINZ_ARTISTID"], [.MusicBrainzArtistId]),
   (["MUSICBRAINZ_ALBUMARTISTID"], [.MusicBrainzReleaseArtistId]), (["MUSICBRAINZ_WORKID"], [.MusicBrainzWorkId]),
   (["RELEASETYPE"], [.MusicBrainzReleaseType])]

/-- `TagType`, tag/tag_type.rs 103-118. -/
inductive TagType
  | ape | id3v1 | id3v2 | mp4Ilst | vorbisComments | riffInfo | aiffText
  deriving DecidableEq, Repr

/-- The table of a tag type, tag/item.rs 534-545; ID3v1 has none. -/
def mapOf : TagType → Option (List Row)
  | .aiffText => some aiffTextMap
  | .ape => some apeMap
  | .id3v2 => some id3v2Map
  | .mp4Ilst => some ilstMap
  | .riffInfo => some riffInfoMap
  | .vorbisComments => some vorbisMap
  | .id3v1 => none

/-- `HashMap::insert`: an existing entry keeps its key and gets the new value.  Where a new entry ends up is up to the
hash map; here it is appended (theorem `Item.order_irrelevant`). -/
def mapInsert (m : List (String × List ItemKey)) (k : String) (v : List ItemKey) : List (String × List ItemKey) :=
  if m.any (fun e => e.1 = k) then m.map (fun e => if e.1 = k then (k, v) else e) else m ++ [(k, v)]

/-- The hash map of `get_item_key`, tag/item.rs 55-64. -/
def entries (rows : List Row) : List (String × List ItemKey) :=
  rows.foldl (fun m row => row.1.foldl (fun m k => mapInsert m k row.2) m) []

/-- The search of `get_item_key` among the entries of its map, tag/item.rs 65; the map is gone
through in its own order. -/
def lookup (m : List (String × List ItemKey)) (key : Str) : Option ItemKey :=
  (m.find? fun e => eqIc (str e.1) key).bind fun e => e.2.head?

/-- `ItemKey::from_key`, tag/item.rs 506-514. -/
def fromKey (t : TagType) (key : Str) : Option ItemKey := (mapOf t).bind fun rows => lookup (entries rows) key

/-- `get_key`, tag/item.rs 68-75: the first arm with this variant. -/
def getKey (rows : List Row) (k : ItemKey) : Option String :=
  (rows.find? fun row => row.2.contains k).bind fun row => row.1.head?

/-- `ItemKey::map_key`, tag/item.rs 516-528. -/
def mapKey (t : TagType) (k : ItemKey) : Option Str := ((mapOf t).bind fun rows => getKey rows k).map str

/-- `VALID_ITEMKEYS`, id3/v1/constants.rs 200-210. -/
def id3v1Keys : List ItemKey := [.TrackTitle, .TrackArtist, .AlbumTitle, .Comment, .TrackNumber, .Genre, .Year, .RecordingDate]

/-- `TagItem::re_map`, tag/item.rs 1156-1164, on the key. -/
def supports (t : TagType) (k : ItemKey) : Bool := if t = .id3v1 then id3v1Keys.contains k else (mapKey t k).isSome

end Lofty.Item
