import Verif.Model.Id3v2List
import Verif.Model.Id3v2Header
import Verif.Model.Ilst
/-!
# Equality of tags

The derived `PartialEq` implementations of `lofty/src/id3/v2/tag.rs`, `lofty/src/id3/v2/frame/list.rs` and
`lofty/src/mp4/ilst/{mod,atom}.rs`.
-/
namespace Lofty

namespace Id3v2

/-- `FrameList::eq`, id3/v2/frame/list.rs 17-18 (derived): the frames are compared one by one, with `Frame::eq`. -/
def sameFrames : List Frame → List Frame → Bool
  | [], [] => true
  | a :: l, b :: m => sameFrame a b && sameFrames l m
  | _, _ => false

/-- `Id3v2Tag`, id3/v2/tag.rs 118-122. -/
structure V2Tag where
  flags : Flags
  version : Version
  frames : List Frame

/-- `Id3v2Tag::eq`, id3/v2/tag.rs 113 (derived). -/
def V2Tag.eq (a b : V2Tag) : Bool := decide (a.flags = b.flags) && decide (a.version = b.version) && sameFrames a.frames b.frames

end Id3v2

namespace Ilst

/-- `AtomDataStorage::eq`, mp4/ilst/atom.rs 9-13 (derived): a single value is not equal to a list of one value. -/
def Storage.eq : Storage → Storage → Bool
  | .single a, .single b => decide (a = b)
  | .multiple l, .multiple m => decide (l = m)
  | _, _ => false

/-- `Ilst::eq` with `Atom::eq`, mp4/ilst/mod.rs 129-134 and mp4/ilst/atom.rs 134-138 (derived). -/
def eqTag : Tag → Tag → Bool
  | [], [] => true
  | a :: t, b :: u => decide (a.ident = b.ident) && a.data.eq b.data && eqTag t u
  | _, _ => false

end Ilst

end Lofty
