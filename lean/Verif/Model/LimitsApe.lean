import Verif.Model.Limits
import Verif.Model.Ape
/-!
# The allocation limit for the items of APE tags

The value of an item is read into a buffer made by `try_vec!`.  The functions of Model/Ape leave the limit out; here they are with it.
Saving reads the tags in the file as well, for their read-only items.
-/
namespace Lofty.LimitsApe
open Lofty.Ape Lofty.Limits

/-- `parse_item_with_key`, ape/tag/read.rs 27-70, with the limit (40-43). -/
def parseItem (limit : Nat) (r : Bytes) (key : Str) (flags size : Nat) : Except Err (Item × Bytes) := do
  let _ ← tryVec limit size
  Ape.parseItem r key flags size

/-- The item loop of `read_ape_tag_with_header`, ape/tag/read.rs 75-100. -/
def readItems (limit : Nat) (cover : Bool) : Nat → Nat → Bytes → List Item → Except Err (List Item)
  | 0, _, _, acc => .ok acc
  | n + 1, rem, r, acc =>
    if rem < 11 then .ok acc
    else do
      let (size, r) ← readLE 4 r
      if size > rem then .error .sizeMismatch
      else do
        let (flags, r) ← readLE 4 r
        let (kb, r) ← readKey r
        let key ← Text.utf8Decode kb
        if Picture.apePictureTypes.contains key && !cover then
          readItems limit cover n (rem - 4) (r.drop size) acc
        else do
          let (i, r) ← parseItem limit r key flags size
          readItems limit cover n (rem - 4) r (insert acc i)

/-- `read_ape_tag`, ape/tag/read.rs 107-131. -/
def readTag (limit : Nat) (o : Opts) (f : Bytes) (pos : Nat) (footer : Bool) : Except Err (Option Tag × Option Header) := do
  let p ← readAt f pos 8
  if p ≠ preamble then .ok (none, none)
  else do
    let (h, next) ← readHeader f (pos + 8) footer
    if o.readTags then do
      let items ← readItems limit o.cover h.count h.size (f.drop next) []
      .ok (some ⟨false, items⟩, some h)
    else .ok (none, some h)

/-- `find_existing_ape_tags`, ape/tag/write.rs 60-145. -/
def findExisting (limit : Nat) (o : Opts) (f : Bytes) : Except Err Existing := do
  let (_, p) ← Id3v2.find f 0 false none
  let _ ← readAt f p 8
  let head ← readTag limit o f (p + 8) false
  let (_, _, q) ← Id3v1.find false false f
  if q < 15 then .error .eof
  else if q < 32 then .error .eof
  else do
    let foot ← readTag limit o f (q - 32) true
    let range ← footRange q foot
    .ok ⟨headRange (p + 8) head, range, q⟩

/-- `write_to`, ape/tag/write.rs 23-51. -/
def writeTo (limit : Nat) (o : Opts) (f : Bytes) (t : Tag) : Except Err Bytes := do
  let e ← findExisting limit o f
  let new ← createTag t
  writeTag e new f

end Lofty.LimitsApe
