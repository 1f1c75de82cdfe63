import Verif.Model.FileTags
import Verif.Props.TagFiles
import Verif.Props.Id3v2Tag
/-!
# Specification: files with tags around the audio
-/
namespace Lofty.FileTags

/-- The tags of a file. -/
structure Tags where
  id3v2 : Option Id3Tag
  id3v1 : Option Id3v1.Tag
  ape : Option Ape.Tag

/-- One save: a tag and how it is to be written. -/
inductive Save
  | id3v2 (fl : Id3v2.Flags) (w : Id3v2.WriteOpts) (padding : Option Nat) (fs : List Id3v2.Frame)
  | ape (t : Ape.Tag)
  | id3v1 (lossy : Bool) (t : Id3v1.Tag)

/-- Saving to a file, with `max_junk_bytes`. -/
def Save.run (junk : Nat) (f : Bytes) : Save → Except Err Bytes
  | .id3v2 fl w padding fs => saveId3v2 fl w padding junk fs f
  | .ape t => Ape.writeTo {} f t
  | .id3v1 lossy t => Id3v1.write lossy f t

/-- The bytes of the tag to be saved. -/
def Save.encoded : Save → Except Err Bytes
  | .id3v2 fl w padding fs => if fs.isEmpty then .ok [] else do
    let body ← Id3v2.createItems w fs
    Id3v2.createTag fl w.v23 padding body
  | .ape t => Ape.createTag t
  | .id3v1 lossy t => Id3v1.encode lossy t

/-- Saves one after the other. -/
def runAll (junk : Nat) : List Save → Bytes → Except Err Bytes
  | [], f => .ok f
  | s :: l, f => do
    let f ← s.run junk f
    runAll junk l f

/-- What a reader who wants cover art or not sees of the items of an APE tag. -/
def visible (o : Opts) (l : List Ape.Item) : List Ape.Item :=
  l.filter fun i => o.id3.readCover || !Picture.apePictureTypes.contains i.key

/-- The tags after a save: only the tag of that kind changes.  An empty tag removes the old one, only an empty ID3v1 tag
saved to a file that has none is added as an empty tag. -/
def Tags.after (o : Opts) (t : Tags) : Save → Tags
  | .id3v2 fl _ _ fs => { t with id3v2 := if fs = [] then none else some ⟨.v4, fl, fs⟩ }
  | .ape a => { t with ape := if a.items = [] then none else some ⟨false, visible o a.items⟩ }
  | .id3v1 _ a => { t with id3v1 := if a = Id3v1.Tag.empty ∧ t.id3v1.isSome then none else some (Id3v1.stored a) }

/-- The audio: long enough, with nothing at its start or end that looks like a tag. -/
structure Audio (o : Opts) (audio : Bytes) : Prop where
  long : 128 ≤ audio.length
  junk : 3 ≤ o.junk ∧ o.junk ≤ audio.length
  start : audio.head? ≠ some 0
  noId3v2 : Id3v2.NoMarker (audio.take o.junk)
  noApe : audio.take 4 ≠ ascii "APET"
  noApe8 : (audio.drop 8).take 8 ≠ ascii "APETAGEX"
  noApeEnd : (audio.drop (audio.length - 32)).take 8 ≠ ascii "APETAGEX"
  noId3v1 : ¬ Id3v1.Tagged audio

/-- A tag that can be saved without loss (ID3v2.4 without extended header and unsynchronisation). -/
def Save.Ok (o : Opts) (audio : Bytes) : Save → Prop
  | .id3v2 fl w padding fs => fs = [] ∨ (w.v23 = false ∧ fl.crc = false ∧ fl.restrictions = none ∧ fl.unsynchronisation = false ∧
      (∀ f ∈ fs, Id3v2.FrameOk w o.id3 f) ∧ Id3v2.TagList w fs ∧
      ∀ b, Id3v2.createItems w fs = .ok b → b.length + padding.getD 0 < 2 ^ 32)
  | .ape t => t.items = [] ∨ (Ape.Good t ∧ ∀ b, Ape.createTag t = .ok b → b.length < 2 ^ 32 ∧ ¬ Id3v1.Tagged (audio ++ b))
  | .id3v1 _ t => o.id3.mode = .strict → t.year ≠ none

end Lofty.FileTags
