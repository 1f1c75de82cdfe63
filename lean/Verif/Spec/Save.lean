import Verif.Model.Save
import Verif.Spec.FileType
/-!
# Specification: saving tags to files of any format
-/
namespace Lofty.Save
open Item

/-- The tag of a format that a generic tag stands for when it is saved directly (C51, C55 and C56 say what is in it). -/
def asOwn (o : Options) (t : Tag) : Except Err Own :=
  match t.type with
  | .ape => .ok (.ape ⟨false, Convert.apeRef t⟩)
  | .id3v1 => .ok (.id3v1 (Convert.id3v1Ref t))
  | .id3v2 => .ok (.id3v2 noFlags (frames o t))
  | .mp4Ilst => .ok (.mp4Ilst (Convert.mergeIlst [] t))
  | .vorbisComments => (vorbisTag t).map .vorbisComments
  | .riffInfo => .ok (.riffInfo (Convert.riffRef o.custom t))
  | .aiffText => .ok (.aiffText (Convert.aiffRef t))

/-- The default tag of each format. -/
def emptyOwn : TagType → Own
  | .ape => .ape ⟨false, []⟩
  | .id3v1 => .id3v1 Id3v1.Tag.empty
  | .id3v2 => .id3v2 noFlags []
  | .mp4Ilst => .mp4Ilst []
  | .vorbisComments => .vorbisComments ⟨[], [], []⟩
  | .riffInfo => .riffInfo []
  | .aiffText => .aiffText ⟨none, none, none, none, none⟩

/-- The frames of a set come in some order. -/
def Options.Fair (o : Options) : Prop := ∀ l, (o.order l).Perm l

end Lofty.Save
