import Verif.Model.Bound
import Verif.Spec.FileType
/-!
# What a bound file holds of one type of tag

`Ledger` keeps, for one type of tag, the tag in memory and the tag that was written last.
-/
namespace Lofty.Bound
open Item File FileType FileType.Spec

/-- The tag of a type in memory, and the one that was written last. -/
structure Ledger where
  memory : Option Tag
  disk : Option Tag

/-- What an action does to the tag of type `ty` of a file of type `ft`: only a save changes the file, and only when there is a tag
of the type, of a type that is not read-only.  A save drops an empty tag from memory. -/
def Ledger.after (ft : FileType) (ty : TagType) (l : Ledger) : Act → Ledger
  | .insert x => if x.type = ty ∧ ty ∈ (documented ft).map (·.1) then { l with memory := some x } else l
  | .remove t => if t = ty then { l with memory := none } else l
  | .clear => { l with memory := none }
  | .modify t g _ => if t = ty then { l with memory := l.memory.map g } else l
  | .save => ⟨l.memory.filter fun x => !(x.items.isEmpty && x.pictures.isEmpty),
      if (ty, false) ∈ documented ft then l.memory.or l.disk else l.disk⟩

end Lofty.Bound
