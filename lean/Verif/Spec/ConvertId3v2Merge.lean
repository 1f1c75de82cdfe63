import Verif.Model.ConvertId3v2
/-!
# Specification: which ID3v2 frames have a place in a generic tag
-/
namespace Lofty.Convert.Spec
open Lofty.Item (fromKey)
open Lofty.Id3v2 (Frame)

/-- The generic tag has a key for a frame id or a description. -/
def known (name : Str) : Bool := (fromKey .id3v2 name).isSome

/-- A role of people for which there is a key. -/
def knownRole (role : Str) : Bool :=
  [str "producer", str "arranger", str "engineer", str "DJ-mix", str "mix"].contains role

/-- A list of involved people. -/
def isPeople : Frame → Bool
  | .leaf _ (.keyValue kv) => kv.id.asStr = str "TIPL"
  | _ => false

/-- A frame that is turned into items or a picture (lists of people aside, which are split up). -/
def viewed (custom : Rating.Provider) : Frame → Bool
  | .leaf _ (.text t) => known t.id.asStr
  | .leaf _ (.userText u) => !u.desc.isEmpty && known u.desc
  | .leaf _ (.userUrl u) => !u.desc.isEmpty && (utf8 u.desc).length ≠ 4 && known u.desc
  | .leaf _ (.url u) => known u.id.asStr
  | .leaf _ (.time t) => t.time.verify && known t.id.asStr
  | .leaf _ (.ufid o) => o.owner = str "http://musicbrainz.org"
  | .leaf _ (.pop p) => (Rating.kindOf custom p.email).isSome
  | .leaf _ (.comment _) => true
  | .leaf _ (.lyrics _) => true
  | .leaf _ (.picture _) => true
  | _ => false

end Lofty.Convert.Spec
