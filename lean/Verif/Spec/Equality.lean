import Verif.Model.Equality
import Verif.Spec.Id3v2List
import Verif.Spec.IlstOps
/-! Specifications for C89. -/
namespace Lofty

namespace Id3v2

/-- Lists of the same length whose frames are, one by one, the same to a tag (`Same`: by id, description, language, ...). -/
def Alike (l m : List Frame) : Prop := l.length = m.length ∧ ∀ (i : Nat) (a b : Frame), l[i]? = some a → m[i]? = some b → Same a b

/-- Frames that are identified by all they hold. -/
def Whole : Frame → Prop
  | .leaf _ c => match c with
    | .picture _ | .keyValue _ | .owner _ | .etco _ | .priv _ | .time _ | .binary .. => True
    | _ => False
  | _ => False

/-- Two operations that may differ in the contents of what is inserted, not in what identifies it. -/
inductive SameOp : ListOp → ListOp → Prop
  | insert {f g} (h : Same f g) : SameOp (.insert f) (.insert g)
  | remove (id) : SameOp (.remove id) (.remove id)
  | insertUserText (d c c') : SameOp (.insertUserText d c) (.insertUserText d c')
  | removeUserText (d) : SameOp (.removeUserText d) (.removeUserText d)
  | insertPicture (p) : SameOp (.insertPicture p) (.insertPicture p)
  | removePictureType (t) : SameOp (.removePictureType t) (.removePictureType t)
  | retain (p) (h : ∀ f g, Same f g → p f = p g) : SameOp (.retain p) (.retain p)
  | takeFirst (id) : SameOp (.takeFirst id) (.takeFirst id)
  | clear : SameOp .clear .clear

/-- Two histories of such operations. -/
inductive SameOps : List ListOp → List ListOp → Prop
  | nil : SameOps [] []
  | cons {a b l m} (h : SameOp a b) (t : SameOps l m) : SameOps (a :: l) (b :: m)

end Id3v2

namespace Ilst

/-- What is in a tag: the names of its atoms with their values, in order. -/
def contents (t : Tag) : List (Mp4.Ident × List Data) := t.map fun a => (a.ident, a.data.toList)

/-- An atom as users can make one (`Atom::new`, `Atom::from_collection`, `push_data`, `merge`): several values are stored as a
list, one is not. -/
def Atom.Tidy (a : Atom) : Prop := ∀ l, a.data = .multiple l → 2 ≤ l.length

/-- All atoms are as users can make them. -/
def Tidy (t : Tag) : Prop := ∀ a ∈ t, a.Tidy

/-- The atoms that an operation brings in are as users can make them. -/
def Op.Tidy : Op → Prop
  | .insert a => a.Tidy
  | .replace a => a.Tidy
  | _ => True

end Ilst

end Lofty
