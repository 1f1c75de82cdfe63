import Verif.Spec.Mpeg
import Verif.Model.FileType
/-!
# How file types are recognised
-/
namespace Lofty.FileType.Spec
open Item

/-- The text `s` stands at offset `i`. -/
def At (d : Bytes) (i : Nat) (s : String) : Prop := (d.drop i).take s.length = ascii s

/-- A frame sync whose second byte has the layer bits 00 and the fourth sync bit set: ADTS. -/
def Adts (b : UInt8) : Prop := b &&& 0xF6 = 0xF0

/-- The signatures at the beginning of the data. -/
def Magic : FileType → Bytes → Prop
  | .flac, d => At d 0 "fLaC"
  | .ape, d => At d 0 "MAC"
  | .aiff, d => At d 0 "FORM" ∧ (At d 8 "AIFF" ∨ At d 8 "AIFC")
  | .wav, d => At d 0 "RIFF" ∧ At d 8 "WAVE"
  | .wavPack, d => At d 0 "wvpk"
  | .mp4, d => At d 4 "ftyp"
  | .mpc, d => At d 0 "MPCK" ∨ At d 0 "MP+"
  | .vorbis, d => At d 0 "OggS" ∧ At d 29 "vorbis"
  | .opus, d => At d 0 "OggS" ∧ At d 28 "OpusHead"
  | .speex, d => At d 0 "OggS" ∧ At d 28 "Speex   "
  | .aac, d => ∃ b r, d = 0xFF :: b :: r ∧ Adts b
  | .mpeg, d => ∃ b r, d = 0xFF :: b :: r ∧ 0xE0 ≤ b.toNat ∧ ¬ Adts b

/-- What SUPPORTED_FORMATS.md says: the tag types of a file type, and whether they are read-only. -/
def documented : FileType → List (TagType × Bool)
  | .aac => [(.id3v2, false), (.id3v1, false)]
  | .ape => [(.ape, false), (.id3v2, true), (.id3v1, false)]
  | .aiff => [(.id3v2, false), (.aiffText, false)]
  | .flac => [(.vorbisComments, false), (.id3v2, true)]
  | .mpeg => [(.id3v2, false), (.id3v1, false), (.ape, false)]
  | .mp4 => [(.mp4Ilst, false)]
  | .mpc => [(.ape, false), (.id3v2, true), (.id3v1, true)]
  | .opus => [(.vorbisComments, false)]
  | .vorbis => [(.vorbisComments, false)]
  | .speex => [(.vorbisComments, false)]
  | .wav => [(.id3v2, false), (.riffInfo, false)]
  | .wavPack => [(.ape, false), (.id3v1, false)]

end Lofty.FileType.Spec
