import Verif.Model.ItemKey
import Verif.Model.Drain
import Verif.Model.Picture
import Verif.Model.Timestamp
/-!
# The generic tag

`lofty/src/tag/mod.rs` and `lofty/src/tag/item.rs`.
-/
namespace Lofty.Item

/-- `ItemValue`, tag/item.rs 974-984. -/
inductive ItemValue
  | text (s : Str)
  | locator (s : Str)
  | binary (d : Bytes)
  deriving DecidableEq, Repr

/-- `ItemValue::is_empty`, tag/item.rs 1028-1034. -/
def ItemValue.isEmpty : ItemValue → Bool
  | .text s | .locator s => s.isEmpty
  | .binary d => d.isEmpty

/-- `ItemValue::text`, tag/item.rs 988-993. -/
def ItemValue.textOf : ItemValue → Option Str
  | .text s => some s
  | _ => none

/-- `ItemValue::locator`, tag/item.rs 996-1001. -/
def ItemValue.locatorOf : ItemValue → Option Str
  | .locator s => some s
  | _ => none

/-- `ItemValue::binary`, tag/item.rs 1004-1009. -/
def ItemValue.binaryOf : ItemValue → Option Bytes
  | .binary d => some d
  | _ => none

/-- `ItemValue::into_string`, tag/item.rs 1012-1017. -/
def ItemValue.intoString : ItemValue → Option Str
  | .text s | .locator s => some s
  | .binary _ => none

/-- `TagItem`, tag/item.rs 1055-1060. -/
structure TagItem where
  lang : Bytes
  description : Str
  key : ItemKey
  value : ItemValue
  deriving DecidableEq, Repr

/-- `UNKNOWN_LANGUAGE`, tag/items/lang.rs 19. -/
def unknownLanguage : Bytes := ascii "XXX"

/-- `TagItem::new`, tag/item.rs 1095-1102. -/
def TagItem.new (key : ItemKey) (value : ItemValue) : TagItem := ⟨unknownLanguage, [], key, value⟩

/-- `Tag`, tag/mod.rs 112-117.  Of the companion tag (format-specific items kept aside) only the presence is
modelled. -/
structure Tag where
  type : TagType
  pictures : List Picture.Pic
  items : List TagItem
  companion : Bool
  deriving DecidableEq

/-- `Tag::new`, tag/mod.rs 210-217. -/
def Tag.new (t : TagType) : Tag := ⟨t, [], [], false⟩

namespace Tag

/-- `Tag::retain`, tag/mod.rs 540-545. -/
def retain (t : Tag) (p : TagItem → Bool) : Tag := { t with items := t.items.filter p }

/-- `Tag::re_map`, tag/mod.rs 241-249. -/
def reMap (t : Tag) (ty : TagType) : Tag :=
  { t with companion := false, items := t.items.filter (fun i => supports ty i.key), type := ty }

/-- `Tag::get`, tag/mod.rs 326-328. -/
def get (t : Tag) (k : ItemKey) : Option TagItem := t.items.find? fun i => i.key = k

/-- `Tag::get_string`, tag/mod.rs 331-337. -/
def getString (t : Tag) (k : ItemKey) : Option Str := (t.get k).bind fun i => i.value.textOf

/-- `get_u32_from_string`, tag/mod.rs 339-342. -/
def getU32 (t : Tag) (k : ItemKey) : Option Nat := (t.getString k).bind parseU32

/-- `Tag::get_binary`, tag/mod.rs 347-359. -/
def getBinary (t : Tag) (k : ItemKey) (convert : Bool) : Option Bytes :=
  match t.get k with
  | some i =>
    match i.value with
    | .text s | .locator s => if convert then some (utf8 s) else none
    | .binary d => some d
  | none => none

/-- `Tag::insert_unchecked`, tag/mod.rs 381-384. -/
def insertUnchecked (t : Tag) (i : TagItem) : Tag := { t with items := t.items.filter (fun j => j.key ≠ i.key) ++ [i] }

/-- `Tag::insert`, tag/mod.rs 366-373. -/
def insert (t : Tag) (i : TagItem) : Bool × Tag :=
  if supports t.type i.key then (true, t.insertUnchecked i) else (false, t)

/-- `Tag::push_unchecked`, tag/mod.rs 408-410. -/
def pushUnchecked (t : Tag) (i : TagItem) : Tag := { t with items := t.items ++ [i] }

/-- `Tag::push`, tag/mod.rs 396-403. -/
def push (t : Tag) (i : TagItem) : Bool × Tag :=
  if supports t.type i.key then (true, t.pushUnchecked i) else (false, t)

/-- `Tag::insert_text`, tag/mod.rs 415-417. -/
def insertText (t : Tag) (k : ItemKey) (s : Str) : Bool × Tag := t.insert (TagItem.new k (.text s))

/-- `Tag::take_filter`, tag/mod.rs 460-481: the items taken and the tag afterwards. -/
def takeFilter (t : Tag) (k : ItemKey) (p : TagItem → Bool) : List TagItem × Tag :=
  let r := drainFilter (fun i => decide (i.key = k) && p i) t.items
  (r.1, { t with items := r.2 })

/-- `Tag::take`, tag/mod.rs 422-424. -/
def take (t : Tag) (k : ItemKey) : List TagItem × Tag := t.takeFilter k fun _ => true

/-- `Tag::take_strings`, tag/mod.rs 486-488. -/
def takeStrings (t : Tag) (k : ItemKey) : List Str × Tag :=
  ((t.take k).1.filterMap fun i => i.value.intoString, (t.take k).2)

/-- `Tag::get_items`, tag/mod.rs 491-493. -/
def getItems (t : Tag) (k : ItemKey) : List TagItem := t.items.filter fun i => i.key = k

/-- `Tag::get_strings`, tag/mod.rs 498-506. -/
def getStrings (t : Tag) (k : ItemKey) : List Str :=
  t.items.filterMap fun i => if i.key = k then i.value.textOf else none

/-- `Tag::get_locators`, tag/mod.rs 509-517. -/
def getLocators (t : Tag) (k : ItemKey) : List Str :=
  t.items.filterMap fun i => if i.key = k then i.value.locatorOf else none

/-- `Tag::get_bytes`, tag/mod.rs 520-528. -/
def getBytes (t : Tag) (k : ItemKey) : List Bytes :=
  t.items.filterMap fun i => if i.key = k then i.value.binaryOf else none

/-- `Tag::remove_key`, tag/mod.rs 533-535. -/
def removeKey (t : Tag) (k : ItemKey) : Tag := { t with items := t.items.filter fun i => i.key ≠ k }

/-- `Tag::remove_empty`, tag/mod.rs 548-550. -/
def removeEmpty (t : Tag) : Tag := { t with items := t.items.filter fun i => !i.value.isEmpty }

/-- `Tag::get_picture_type`, tag/mod.rs 561-565. -/
def getPictureType (t : Tag) (ty : Picture.PicType) : Option Picture.Pic := t.pictures.find? fun p => p.ty = ty

/-- `Tag::push_picture`, tag/mod.rs 568-570. -/
def pushPicture (t : Tag) (p : Picture.Pic) : Tag := { t with pictures := t.pictures ++ [p] }

/-- `Tag::remove_picture_type`, tag/mod.rs 573-575. -/
def removePictureType (t : Tag) (ty : Picture.PicType) : Tag := { t with pictures := t.pictures.filter fun p => p.ty ≠ ty }

/-- `Tag::set_picture`, tag/mod.rs 619-625. -/
def setPicture (t : Tag) (i : Nat) (p : Picture.Pic) : Tag :=
  if t.pictures.length ≤ i then t.pushPicture p else { t with pictures := t.pictures.set i p }

/-- `Tag::remove_picture`, tag/mod.rs 654-656; panics out of bounds. -/
def removePicture (t : Tag) (i : Nat) : Except Err (Picture.Pic × Tag) :=
  match t.pictures[i]? with
  | some p => .ok (p, { t with pictures := t.pictures.eraseIdx i })
  | none => .error .panic

/-- `TagExt::clear`, tag/mod.rs 687-690. -/
def clear (t : Tag) : Tag := { t with items := [], pictures := [] }

/-- `TagExt::len`, tag/mod.rs 667-669. -/
def len (t : Tag) : Nat := t.items.length + t.pictures.length

/-- `TagExt::contains`, tag/mod.rs 671-673. -/
def contains (t : Tag) (k : ItemKey) : Bool := t.items.any fun i => i.key = k

/-! ## The accessors, tag/mod.rs 31-201 -/

/-- The textual accessors' setter, tag/mod.rs 43-45, and `set_track` etc., 139-183. -/
def setText (t : Tag) (k : ItemKey) (s : Str) : Tag := (t.insertText k s).2

/-- `set_track`, `set_track_total`, `set_disk`, `set_disk_total`, tag/mod.rs 139-179. -/
def setNumber (t : Tag) (k : ItemKey) (n : Nat) : Tag := t.setText k (toDec n)

/-- `date`, tag/mod.rs 186-194: `RecordingDate`, or `Year` if there is no such text. -/
def date (t : Tag) : Option Timestamp :=
  ((t.getString .RecordingDate).or (t.getString .Year)).bind fun s =>
    match Timestamp.parse .relaxed (utf8 s) with
    | .ok d => d
    | .error _ => none

/-- `set_date`, tag/mod.rs 196-199. -/
def setDate (t : Tag) (d : Timestamp) : Tag := (t.removeKey .Year).setText .RecordingDate d.fmt

/-- `remove_date`, tag/mod.rs 201-204. -/
def removeDate (t : Tag) : Tag := (t.removeKey .Year).removeKey .RecordingDate

end Tag
end Lofty.Item
