import Verif.Props.EndToEnd
import Verif.Props.Chained
import Verif.Props.SeveralChunks
/-!
# Files with several tags of one kind (C96, C97)

What opening such a file and saving to it shows.
-/
namespace Lofty.Opened
open Item FileType FileType.Spec Save

/-- An MPEG file with the titles `first` and `second` in two ID3v2 tags. -/
def twoTags : Bytes := FileTags.titleBytes "first" ++ FileTags.titleBytes "second" ++ mp3

/-- **Disagreement**: a title that is saved to such a file is not the title it shows, as it would be with one tag. -/
theorem new_title_hidden :
    (openFile exRead twoTags).map (fun xs => xs.map (·.getStrings .TrackTitle)) = .ok [[str "second"]] ∧
    shown exWrite (titled .id3v2) twoTags .TrackTitle = .ok [[str "second"]] ∧
    shown exWrite (titled .id3v2) (FileTags.titleBytes "first" ++ mp3) .TrackTitle = .ok [[str "x"]] := by decide +kernel

/-- What is shown of a key after the ID3v2 tag is removed. -/
def shownWithout (f : Bytes) (k : ItemKey) : Except Err (List (List Str)) := do
  let g ← removeFrom exWrite .id3v2 f
  let xs ← openFile exRead g
  .ok (xs.map (·.getStrings k))

/-- **Disagreement**: removing the tag, or saving an empty one, leaves such a file with a tag. -/
theorem second_tag_stays :
    shownWithout twoTags .TrackTitle = .ok [[str "second"]] ∧ shownWithout (FileTags.titleBytes "first" ++ mp3) .TrackTitle = .ok [] ∧
    shown exWrite ⟨.id3v2, [], [], false⟩ twoTags .TrackTitle = .ok [[str "second"]] ∧
    shown exWrite ⟨.id3v2, [], [], false⟩ (FileTags.titleBytes "first" ++ mp3) .TrackTitle = .ok [] := by decide +kernel

/-- What is shown of some keys after an INFO list or an ID3v2 tag is removed. -/
def shownRemoved (ty : TagType) (f : Bytes) (ks : List ItemKey) : Except Err (List (List (List Str))) := do
  let g ← removeFrom exWrite ty f
  let xs ← openFile exRead g
  .ok (xs.map fun x => ks.map x.getStrings)

/-- **Disagreement**: a WAV file with two INFO lists still shows the artist of the second after a tag with a title only is saved, and after the tag is
removed. -/
theorem second_list_stays :
    shown exWrite (titled .riffInfo) (Iff.wav IffFiles.twoLists) .TrackTitle = .ok [[str "x"]] ∧
    shown exWrite (titled .riffInfo) (Iff.wav IffFiles.twoLists) .TrackArtist = .ok [[str "bc"]] ∧
    shownRemoved .riffInfo (Iff.wav IffFiles.twoLists) [.TrackTitle, .TrackArtist] = .ok [[[], [str "bc"]]] := by decide +kernel

/-- Two ID3v2 chunks with the titles `first` and `second`. -/
def twoChunks : List Iff.Chunk := [(ascii "ID3 ", FileTags.titleBytes "first"), (ascii "ID3 ", FileTags.titleBytes "second")]

/-- A tag that names an artist only. -/
def artistOnly : Tag := ⟨.id3v2, [], [TagItem.new .TrackArtist (.text (str "x"))], false⟩

/-- **Disagreement**: a WAV or AIFF file with two ID3v2 chunks still shows the title of the second after a tag without title is saved, and after the
tag is removed. -/
theorem second_chunk_stays :
    shown exWrite artistOnly (Iff.wav (twoChunks ++ IffFiles.exWav)) .TrackTitle = .ok [[str "second"]] ∧
    shown exWrite artistOnly (Iff.aiff (ascii "AIFF") (twoChunks ++ IffFiles.exAiff)) .TrackTitle = .ok [[str "second"]] ∧
    shownRemoved .id3v2 (Iff.wav (twoChunks ++ IffFiles.exWav)) [.TrackTitle] = .ok [[[str "second"]]] ∧
    shownRemoved .id3v2 (Iff.aiff (ascii "AIFF") (twoChunks ++ IffFiles.exAiff)) [.TrackTitle] = .ok [[[str "second"]]] := by decide +kernel

end Lofty.Opened
