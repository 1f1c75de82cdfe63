import Verif.Model.Opened
/-!
# Tagged files that hold on to their file

`lofty/src/file/tagged_file.rs`: `BoundTaggedFile`.  The file is the list of its bytes.
-/
namespace Lofty.Bound
open Item File Save Opened

/-- `BoundTaggedFile`, file/tagged_file.rs 533-536. -/
structure Bound (α : Type) where
  inner : Tagged α
  file : Bytes

variable {α : Type}

/-- `BoundTaggedFile::into_inner`, file/tagged_file.rs 538-547. -/
def Bound.intoInner (b : Bound α) : Bytes := b.file

/-- `BoundTaggedFile::read_from`, file/tagged_file.rs 571-580, with `TaggedFile::read_from`, 425-437; parsing options without
properties. -/
def Bound.readFrom (r : ReadOptions) (f : Bytes) : Except Err (Bound α) := do
  let ft ← verified f
  let tags ← openFile r f
  .ok ⟨⟨ft, none, tags⟩, f⟩

/-- `BoundTaggedFile::save`, file/tagged_file.rs 613-618: the tags are saved as by `TaggedFile::save_to`, then the empty ones
are dropped. -/
def Bound.save (o : Options) (b : Bound α) : Except Err (Bound α) := do
  let f ← saveAll o b.inner.type b.inner.tags b.file
  .ok ⟨b.inner.afterSave, f⟩

/-- What users of a bound file can do: `TaggedFileExt` of `BoundTaggedFile`, file/tagged_file.rs 621-653, and `save`.  A change
through `tag_mut` keeps the type of the tag (see `File.remap_duplicates`). -/
inductive Act
  | insert (t : Tag)
  | remove (t : TagType)
  | clear
  | modify (t : TagType) (g : Tag → Tag) (keeps : ∀ x, (g x).type = x.type)
  | save

/-- What an action does to the tags in memory, file/tagged_file.rs 621-653 and 617. -/
def Act.tags (f : Tagged α) : Act → Tagged α
  | .insert t => (f.insertTag t).2
  | .remove t => (f.remove t).2
  | .clear => f.clear
  | .modify t g _ => f.modify t g
  | .save => f.afterSave

/-- One action, file/tagged_file.rs 613-653. -/
def Bound.step (o : Options) (b : Bound α) : Act → Except Err (Bound α)
  | .save => b.save o
  | a => .ok { b with inner := a.tags b.inner }

/-- A history: it ends with the first error. -/
def Bound.run (o : Options) (b : Bound α) : List Act → Except Err (Bound α)
  | [] => .ok b
  | a :: as => (b.step o a).bind fun b => b.run o as

end Lofty.Bound
