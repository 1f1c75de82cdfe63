import Verif.Spec.FileTags
/-!
# Specification: the last save of each tag
-/
namespace Lofty.FileTags

/-- The tags around the audio. -/
inductive Kind
  | id3v2 | ape | id3v1
  deriving DecidableEq

def Save.kind : Save → Kind
  | .id3v2 .. => .id3v2
  | .ape _ => .ape
  | .id3v1 .. => .id3v1

/-- The last save of a kind. -/
def lastSave (k : Kind) (l : List Save) : Option Save := (l.filter fun s => s.kind = k).getLast?

/-- The bytes of the last tag of a kind that was saved; nothing if there was none. -/
def lastBytes (k : Kind) (l : List Save) : Except Err Bytes :=
  match lastSave k l with
  | none => .ok []
  | some s => s.encoded

/-- A save of a tag that the library finds again: not too large, without extended header; any frames and texts, ID3v2.3 and
unsynchronisation included.  An empty ID3v1 tag is excluded (`empty_id3v1_toggles`). -/
def Save.Found (audio : Bytes) : Save → Prop
  | .id3v2 fl w padding fs => fs = [] ∨ (fl.crc = false ∧ fl.restrictions = none ∧ (w.v23 = true → fl.experimental = false) ∧
      ∀ b, Id3v2.createItems w fs = .ok b → b.length + padding.getD 0 < 2 ^ 32)
  | .ape t => t.items = [] ∨ (Ape.Good t ∧ ∀ b, Ape.createTag t = .ok b → b.length < 2 ^ 32 ∧ ¬ Id3v1.Tagged (audio ++ b))
  | .id3v1 _ t => t ≠ Id3v1.Tag.empty

end Lofty.FileTags
