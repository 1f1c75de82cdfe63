import Verif.Model.Tag
/-!
# What a generic tag is expected to be: a list of items for each key
-/
namespace Lofty.Item.Spec

/-- The operations on the items of a tag. -/
inductive Op
  | insert (i : TagItem)
  | insertUnchecked (i : TagItem)
  | push (i : TagItem)
  | pushUnchecked (i : TagItem)
  | take (k : ItemKey)
  | takeFilter (k : ItemKey) (p : TagItem → Bool)
  | removeKey (k : ItemKey)
  | removeEmpty
  | retain (p : TagItem → Bool)
  | reMap (t : TagType)
  | clear

/-- The expected contents. -/
structure Store where
  type : TagType
  items : ItemKey → List TagItem

/-- Change the items of one key. -/
def Store.set (s : Store) (k : ItemKey) (l : List TagItem) : Store :=
  ⟨s.type, fun k' => if k' = k then l else s.items k'⟩

/-- The expected effect of an operation. -/
def Store.apply (s : Store) : Op → Store
  | .insert i => if supports s.type i.key then s.set i.key [i] else s
  | .insertUnchecked i => s.set i.key [i]
  | .push i => if supports s.type i.key then s.set i.key (s.items i.key ++ [i]) else s
  | .pushUnchecked i => s.set i.key (s.items i.key ++ [i])
  | .take k => s.set k []
  | .takeFilter k p => s.set k ((s.items k).filter fun i => !p i)
  | .removeKey k => s.set k []
  | .removeEmpty => ⟨s.type, fun k => (s.items k).filter fun i => !i.value.isEmpty⟩
  | .retain p => ⟨s.type, fun k => (s.items k).filter p⟩
  | .reMap t => ⟨t, fun k => if supports t k then s.items k else []⟩
  | .clear => ⟨s.type, fun _ => []⟩

/-- The operations of the library. -/
def applyTag (t : Tag) : Op → Tag
  | .insert i => (t.insert i).2
  | .insertUnchecked i => t.insertUnchecked i
  | .push i => (t.push i).2
  | .pushUnchecked i => t.pushUnchecked i
  | .take k => (t.take k).2
  | .takeFilter k p => (t.takeFilter k p).2
  | .removeKey k => t.removeKey k
  | .removeEmpty => t.removeEmpty
  | .retain p => t.retain p
  | .reMap ty => t.reMap ty
  | .clear => t.clear

/-- The expected contents of a given tag. -/
def ofTag (t : Tag) : Store := ⟨t.type, fun k => t.items.filter fun i => i.key = k⟩

/-- Whether an operation takes items out. -/
def Op.takes : Op → Bool
  | .take _ | .takeFilter _ _ => true
  | _ => false

/-- Whether an operation checks that the tag type has the key. -/
def Op.checked : Op → Bool
  | .insertUnchecked _ | .pushUnchecked _ => false
  | _ => true

end Lofty.Item.Spec
