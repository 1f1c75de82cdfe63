import Verif.Props.EndToEnd
import Verif.Props.Id3v23Dates
/-!
# Files with an ID3v2.2 or ID3v2.3 tag (C94, C95)

What opening such a file and saving it again shows.
-/
namespace Lofty.Opened
open Item FileType FileType.Spec Save

/-- An MPEG file with a tag of ID3v2.2. -/
def oldMp3 (frames : Bytes) : Bytes := ascii "ID3" ++ [2, 0, 0, 0, 0, 0, UInt8.ofNat frames.length] ++ frames ++ mp3

/-- What a file shows under some keys. -/
def showsIn (f : Bytes) (ks : List ItemKey) : Except Err (List (List (List Str))) := (openFile exRead f).map fun xs => xs.map fun x => ks.map x.getStrings

/-- The title, the artist and the comment of a file with an ID3v2.2 tag. -/
example : showsIn (oldMp3 (Id3v2.oldText "TT2" "Title" ++ Id3v2.oldText "TP1" "Artist" ++ Id3v22.frameBytes "COM" (0 :: ascii "eng" ++ 0 :: ascii "nice")))
    [.TrackTitle, .TrackArtist, .Comment] = .ok [[[str "Title"], [str "Artist"], [str "nice"]]] := by decide +kernel

/-- **Disagreement**: a file with an ID3v2.2 tag that names a lyricist shows no lyricist but an original lyricist, and one that names an original
artist shows an original album. -/
theorem lyricist_moved :
    showsIn (oldMp3 (Id3v2.oldText "TXT" "L" ++ Id3v2.oldText "TOA" "A")) [.Lyricist, .OriginalLyricist, .OriginalArtist, .OriginalAlbumTitle] =
      .ok [[[], [str "L"], [], [str "A"]]] := by decide +kernel

/-- **Disagreement**: the date of a recording is cut to the year. -/
theorem date_cut_file :
    showsIn (oldMp3 (Id3v2.oldText "TYE" "2001" ++ Id3v2.oldText "TDA" "1203")) [.RecordingDate] = .ok [[[str "2001"]]] := by decide +kernel

/-- An MPEG file with a tag of ID3v2.3. -/
def mp3With23 (frames : Bytes) : Bytes := ascii "ID3" ++ [3, 0, 0, 0, 0, 0, UInt8.ofNat frames.length] ++ frames ++ mp3

/-- The year, the day and the time in three frames. -/
example : showsIn (mp3With23 (Id3v2.frame23 (str "TYER") (0 :: ascii "2001") ++ Id3v2.frame23 (str "TDAT") (0 :: ascii "1203") ++
    Id3v2.frame23 (str "TIME") (0 :: ascii "0815"))) [.RecordingDate] = .ok [[[str "2001-03-12T08:15"]]] := by decide +kernel

/-- **Disagreement**: a file with an ID3v2.3 tag that has the whole date in the frame of ID3v2.4 shows no date. -/
theorem full_date_lost_file :
    showsIn (mp3With23 (Id3v2.frame23 (str "TIT2") (0 :: ascii "t") ++ Id3v2.frame23 (str "TDRC") (0 :: ascii "2001-03-12")))
      [.TrackTitle, .RecordingDate, .Year] = .ok [[[str "t"], [], []]] := by decide +kernel

end Lofty.Opened
