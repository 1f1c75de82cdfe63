import Verif.Spec.Accessor
/-!
# What the accessors leave alone

The items a field is stored in, format by format; a call to the accessors of a field must not change any other item.
-/
namespace Lofty.Accessor

/-- The field a call is about. -/
def Op.field : Op → Field
  | .set f _ => f
  | .remove f => f

/-- The items no call is about. -/
def other {I : Type} (own : Field → I → Bool) (ops : List Op) (i : I) : Bool := ops.all fun op => !own op.field i

/-- The items of the generic tag. -/
def genericOwn (f : Field) (i : Item.TagItem) : Bool := match f with
  | .artist => i.key = .TrackArtist
  | .title => i.key = .TrackTitle
  | .album => i.key = .AlbumTitle
  | .genre => i.key = .Genre
  | .comment => i.key = .Comment
  | .track => i.key = .TrackNumber
  | .trackTotal => i.key = .TrackTotal
  | .disk => i.key = .DiscNumber
  | .diskTotal => i.key = .DiscTotal
  | .date => i.key = .RecordingDate || i.key = .Year

/-- Of Vorbis comments. -/
def vorbisOwn (f : Field) (i : Vorbis.Item) : Bool := match f with
  | .artist => eqIc i.1 (str "ARTIST")
  | .title => eqIc i.1 (str "TITLE")
  | .album => eqIc i.1 (str "ALBUM")
  | .genre => eqIc i.1 (str "GENRE")
  | .comment => eqIc i.1 (str "COMMENT")
  | .track => eqIc i.1 (str "TRACKNUMBER") || eqIc i.1 (str "TRACKNUM")
  | .trackTotal => eqIc i.1 (str "TRACKTOTAL") || eqIc i.1 (str "TOTALTRACKS")
  | .disk => eqIc i.1 (str "DISCNUMBER")
  | .diskTotal => eqIc i.1 (str "DISCTOTAL") || eqIc i.1 (str "TOTALDISCS")
  | .date => eqIc i.1 (str "DATE") || eqIc i.1 (str "YEAR")

/-- Of APE tags. -/
def apeOwn (f : Field) (i : Ape.Item) : Bool := match f with
  | .artist => eqIc i.key (str "Artist")
  | .title => eqIc i.key (str "Title")
  | .album => eqIc i.key (str "Album")
  | .genre => eqIc i.key (str "Genre")
  | .comment => eqIc i.key (str "Comment")
  | .track | .trackTotal => eqIc i.key (str "Track")
  | .disk | .diskTotal => eqIc i.key (str "Disc")
  | .date => eqIc i.key (str "Year")

/-- Of MP4 tags. -/
def mp4Own (f : Field) (a : Ilst.Atom) : Bool := match f with
  | .artist => a.ident = .fourcc (0xA9 :: ascii "ART")
  | .title => a.ident = .fourcc (0xA9 :: ascii "nam")
  | .album => a.ident = .fourcc (0xA9 :: ascii "alb")
  | .genre => a.ident = .fourcc (0xA9 :: ascii "gen")
  | .comment => a.ident = .fourcc (0xA9 :: ascii "cmt")
  | .track | .trackTotal => a.ident = .fourcc (ascii "trkn")
  | .disk | .diskTotal => a.ident = .fourcc (ascii "disk")
  | .date => a.ident = .fourcc (0xA9 :: ascii "day")

/-- Of RIFF INFO lists. -/
def riffOwn (f : Field) (i : Iff.Item) : Bool := match f with
  | .artist => eqIc i.1 (str "IART")
  | .title => eqIc i.1 (str "INAM")
  | .album => eqIc i.1 (str "IPRD")
  | .genre => eqIc i.1 (str "IGNR")
  | .comment => eqIc i.1 (str "ICMT")
  | .track => eqIc i.1 (str "IPRT")
  | .trackTotal => eqIc i.1 (str "IFRM")
  | .date => eqIc i.1 (str "ICRD")
  | .disk | .diskTotal => false

/-- Of ID3v2 tags: of the comments those without description. -/
def id3v2Own (f : Field) (fr : Id3v2.Frame) : Bool := match f with
  | .artist => fr.id = .valid (str "TPE1")
  | .title => fr.id = .valid (str "TIT2")
  | .album => fr.id = .valid (str "TALB")
  | .genre => fr.id = .valid (str "TCON")
  | .comment => match fr with
    | .leaf _ (.comment c) => c.desc = []
    | _ => false
  | .track | .trackTotal => fr.id = .valid (str "TRCK")
  | .disk | .diskTotal => fr.id = .valid (str "TPOS")
  | .date => fr.id = .valid (str "TDRC")

end Lofty.Accessor
