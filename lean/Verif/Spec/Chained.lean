import Verif.Spec.FileTags
import Verif.Spec.Id3v2List
/-!
# Specification: several ID3v2 tags in front of the audio
-/
namespace Lofty.FileTags

/-- The bytes of an ID3v2.4 tag with frames, made by saving it, and the tag. -/
def Made (o : Opts) (audio : Bytes) (x : Bytes × Id3Tag) : Prop :=
  ∃ fl w padding fs, fs ≠ [] ∧ (Save.id3v2 fl w padding fs).Ok o audio ∧ (Save.id3v2 fl w padding fs).encoded = .ok x.1 ∧ x.2 = ⟨.v4, fl, fs⟩

/-- The tags one behind the other. -/
def chain (l : List (Bytes × Id3Tag)) : Bytes := (l.map Prod.fst).flatten

/-- One tag for several: the first, into which the frames of the others are inserted in order. -/
def merged : List (Bytes × Id3Tag) → Option Id3Tag
  | [] => none
  | x :: l => some { x.2 with frames := (l.map fun y => y.2.frames).flatten.foldl (fun fs f => (Id3v2.insert fs f).2) x.2.frames }

/-- Saves to the tags behind the audio only. -/
def Save.Behind : Save → Prop
  | .id3v2 .. => False
  | _ => True

end Lofty.FileTags
