import Verif.Model.Id3v1
import Verif.Model.Id3v2Header
import Verif.Model.Picture
import Verif.Model.Pairs
/-!
# APE tags

`lofty/src/ape/constants.rs`, `lofty/src/ape/tag/{mod,item,header,read,write}.rs`.
-/
namespace Lofty.Ape

/-- `ItemValue`, tag/item.rs. -/
inductive Value
  | text (s : Str)
  | locator (s : Str)
  | binary (d : Bytes)
  deriving DecidableEq, Repr

/-- `ApeItem`, ape/tag/item.rs 10-16. -/
structure Item where
  readOnly : Bool
  key : Str
  value : Value
  deriving DecidableEq, Repr

/-- `ApeTag`, ape/tag/mod.rs 96-100. -/
structure Tag where
  readOnly : Bool
  items : List Item
  deriving DecidableEq, Repr

/-- `INVALID_KEYS`, ape/constants.rs 1. -/
def invalidKeys : List Str := [str "ID3", str "TAG", str "OGGS", str "MP+"]

/-- `APE_PREAMBLE`, ape/constants.rs 4. -/
def preamble : Bytes := ascii "APETAGEX"

/-- The checks of `ApeItem::new`, ape/tag/item.rs 33-44.  `key.len()` counts UTF-8 bytes. -/
def validKey (key : Str) : Bool :=
  !invalidKeys.any (fun k => eqIc k key) && (2 ≤ (utf8 key).length && (utf8 key).length ≤ 255)
    && !key.any (fun c => !(0x20 ≤ c.toNat && c.toNat ≤ 0x7E))

/-- `ApeItem::new`, ape/tag/item.rs 33-51. -/
def Item.new (key : Str) (value : Value) : Except Err Item :=
  if validKey key then .ok ⟨false, key, value⟩ else .error .parse

/-! ## Editing -/

/-- `ApeTag::get`, ape/tag/mod.rs 136-140. -/
def get (l : List Item) (key : Str) : Option Item := l.find? fun i => eqIc i.key key

/-- `ApeTag::remove`, ape/tag/mod.rs 268-270. -/
def remove (l : List Item) (key : Str) : List Item := l.filter fun i => !eqIc i.key key

/-- `ApeTag::insert`, ape/tag/mod.rs 176-179. -/
def insert (l : List Item) (i : Item) : List Item := remove l i.key ++ [i]

/-- The match of `ApeTag::push` on the existing and the new item, ape/tag/mod.rs 230-239. -/
def combine (old new : Item) : Item :=
  match old.value, new.value with
  | .text a, .text b => { old with value := .text (a ++ '\x00' :: b) }
  | .locator a, .locator b => { old with value := .locator (a ++ '\x00' :: b) }
  | _, _ => new

/-- `ApeTag::push`, ape/tag/mod.rs 228-243: the first item of that key is updated in place. -/
def push : List Item → Item → List Item
  | [], new => [new]
  | i :: l, new => if eqIc i.key new.key then combine i new :: l else i :: push l new

/-- `ApeItem::text_values`, ape/tag/item.rs 81-86. -/
def Item.textValues (i : Item) : Option (List Str) :=
  match i.value with
  | .text s | .locator s => some (Pairs.splitOn (· = '\x00') s)
  | .binary _ => none

/-- `split_num_pair`, ape/tag/mod.rs 306-317. -/
def splitNumPair (l : List Item) (key : Str) : Option Nat × Option Nat :=
  match get l key with
  | some ⟨_, _, .text s⟩ => Pairs.parse Pairs.apeSep s
  | _ => (none, none)

/-- `insert_number_pair`, ape/tag/mod.rs 319-325. -/
def insertNumberPair (l : List Item) (key : Str) (number total : Option Nat) : List Item :=
  match Pairs.format number total with
  | some v => insert l ⟨false, key, .text v⟩
  | none => l

/-- `set_track`/`set_disk` etc., ape/tag/mod.rs 355-411, on the items (`key` is `Track` or `Disc`). -/
def stepPair (key : Str) (l : List Item) : Pairs.Op → List Item
  | .setNumber n => insertNumberPair l key (some n) (splitNumPair l key).2
  | .setTotal t => insertNumberPair l key (splitNumPair l key).1 (some t)
  | .removeNumber => remove l key
  | .removeTotal =>
    match (splitNumPair l key).1 with
    | some n => insert (remove l key) ⟨false, key, .text (toDec n)⟩
    | none => remove l key

/-! ## Writing a tag -/

/-- The value bytes of an item, ape/tag/write.rs 207-225. -/
def Value.bytes : Value → Bytes
  | .text s => utf8 s
  | .locator s => utf8 s
  | .binary d => d

/-- The flags of an item, ape/tag/write.rs 207-229. -/
def Item.flags (i : Item) : Nat :=
  (match i.value with | .text _ => 0 | .locator _ => 4 | .binary _ => 2) + if i.readOnly then 1 else 0

/-- The item loop of `create_ape_tag`, ape/tag/write.rs 206-237; `as u32` wraps. -/
def Item.write (i : Item) : Bytes :=
  leBytes 4 (i.value.bytes.length % 2 ^ 32) ++ (leBytes 4 i.flags ++ (utf8 i.key ++ 0 :: i.value.bytes))

/-- The item loop of `create_ape_tag`, ape/tag/write.rs 206-237. -/
def writeItems (l : List Item) : Bytes := l.flatMap Item.write

/-- Header or footer, ape/tag/write.rs 245-287. -/
def headerBytes (size count flags : Nat) : Bytes :=
  preamble ++ (leBytes 4 2000 ++ (leBytes 4 size ++ (leBytes 4 count ++ (leBytes 4 flags ++ List.replicate 8 0))))

/-- `create_ape_tag`, ape/tag/write.rs 179-293.  The read-only items of an existing tag are
dropped (204: "not supported yet"), so they are no parameter here.  `item_count += 1` is a
`u32`; with at least nine bytes per item it cannot overflow below the size limit. -/
def createTag (t : Tag) : Except Err Bytes :=
  if t.items.isEmpty then .ok []
  else
    let body := writeItems t.items
    if body.length + 32 > 2 ^ 32 - 1 then .error .tooMuch
    else
      let ro := if t.readOnly then 1 else 0
      .ok (headerBytes (body.length + 32) t.items.length (2 ^ 29 + 2 ^ 30 + 2 ^ 31 + ro) ++ (body ++
        headerBytes (body.length + 32) t.items.length (2 ^ 30 + 2 ^ 31 + ro)))

/-! ## Reading a tag -/

/-- `ApeHeader`, ape/tag/header.rs 11-15. -/
structure Header where
  size : Nat
  count : Nat
  deriving DecidableEq, Repr

/-- `read_ape_header`, ape/tag/header.rs 17-52, from position `pos` (behind the preamble): the
header and the position afterwards.  Seeking before the start of the file is an error. -/
def readHeader (f : Bytes) (pos : Nat) (footer : Bool) : Except Err (Header × Nat) := do
  let (version, r) ← readLE 4 (f.drop pos)
  let (size, r) ← readLE 4 r
  if size < 32 then .error .sizeMismatch
  else do
    let (count, _) ← readLE 4 r
    if footer ∧ pos + 12 < size - 12 then .error .eof
    else
      let next := if footer then pos + 12 - (size - 12) else pos + 12 + 12
      let total := if version = 2000 then min (size + 32) (2 ^ 32 - 1) else size
      if total > f.length then .error .sizeMismatch
      else .ok (⟨total, count⟩, next)

/-- The key of an item: the bytes in front of the first zero byte, ape/tag/read.rs 86-92. -/
def readKey : Bytes → Except Err (Bytes × Bytes)
  | [] => .error .eof
  | b :: r => if b = 0 then .ok ([], r) else do
    let (k, r) ← readKey r
    .ok (b :: k, r)

/-- The value of an item of the given type, ape/tag/read.rs 50-61. -/
def parseValue (kind : Nat) (v : Bytes) : Except Err Value :=
  if kind = 0 then (Text.utf8Decode v).map Value.text
  else if kind = 1 then .ok (.binary v)
  else if kind = 2 then (Text.utf8Decode v).map Value.locator
  else .error .parse

/-- `parse_item_with_key`, ape/tag/read.rs 27-70. -/
def parseItem (r : Bytes) (key : Str) (flags size : Nat) : Except Err (Item × Bytes) := do
  let (v, r) ← readN size r
  let val ← parseValue (flags / 2 % 4) v
  let i ← Item.new key val
  .ok ({ i with readOnly := flags % 2 = 1 }, r)

/-- The item loop of `read_ape_tag_with_header`, ape/tag/read.rs 75-100: `count` items still to
read, `rem` the remaining size (only four bytes of each item are counted). -/
def readItems (cover : Bool) : Nat → Nat → Bytes → List Item → Except Err (List Item)
  | 0, _, _, acc => .ok acc
  | n + 1, rem, r, acc =>
    if rem < 11 then .ok acc
    else do
      let (size, r) ← readLE 4 r
      if size > rem then .error .sizeMismatch
      else do
        let (flags, r) ← readLE 4 r
        let (kb, r) ← readKey r
        let key ← Text.utf8Decode kb
        if Picture.apePictureTypes.contains key && !cover then
          readItems cover n (rem - 4) (r.drop size) acc
        else do
          let (i, r) ← parseItem r key flags size
          readItems cover n (rem - 4) r (insert acc i)

/-- What the reader may be asked: `read_tags` and `read_cover_art` of `ParseOptions`. -/
structure Opts where
  readTags : Bool := true
  cover : Bool := true

/-- `read_ape_tag`, ape/tag/read.rs 107-131, from position `pos`: the tag and its header.  A tag
that was read is never marked read-only. -/
def readTag (o : Opts) (f : Bytes) (pos : Nat) (footer : Bool) : Except Err (Option Tag × Option Header) := do
  let p ← readAt f pos 8
  if p ≠ preamble then .ok (none, none)
  else do
    let (h, next) ← readHeader f (pos + 8) footer
    if o.readTags then do
      let items ← readItems o.cover h.count h.size (f.drop next) []
      .ok (some ⟨false, items⟩, some h)
    else .ok (none, some h)

/-! ## Files -/

/-- `ApeTags`, ape/tag/write.rs 53-58, without the read-only items. -/
structure Existing where
  header : Option (Nat × Nat)
  footer : Option (Nat × Nat)
  position : Nat
  deriving DecidableEq, Repr

/-- The range of a tag found behind position `start`, ape/tag/write.rs 81-98. -/
def headRange (start : Nat) : Option Tag × Option Header → Option (Nat × Nat)
  | (some _, some h) => some (start, start + h.size)
  | _ => none

/-- The range of a tag found in front of position `stop`, ape/tag/write.rs 117-137. -/
def footRange (stop : Nat) : Option Tag × Option Header → Except Err (Option (Nat × Nat))
  | (some _, some h) => if stop < h.size then .error .sizeMismatch else .ok (some (stop - h.size, stop))
  | _ => .ok none

/-- `find_existing_ape_tags`, ape/tag/write.rs 60-145.  `find_lyrics3v2` (id3/mod.rs 75-105)
compares eight bytes with the nine of `LYRICS200`, so it never finds anything, but fails if
there are not fifteen bytes in front of the position. -/
def findExisting (o : Opts) (f : Bytes) : Except Err Existing := do
  let (_, p) ← Id3v2.find f 0 false none
  let _ ← readAt f p 8
  let head ← readTag o f (p + 8) false
  let (_, _, q) ← Id3v1.find false false f
  if q < 15 then .error .eof
  else if q < 32 then .error .eof
  else do
    let foot ← readTag o f (q - 32) true
    let range ← footRange q foot
    .ok ⟨headRange (p + 8) head, range, q⟩

/-- `Vec::splice`/`drain`: replaces the range by `w`; a range outside of the vector panics. -/
def splice (f : Bytes) (a b : Nat) (w : Bytes) : Except Err Bytes :=
  if b < a ∨ f.length < b then .error .panic else .ok (f.take a ++ (w ++ f.drop b))

/-- `write_tag`, ape/tag/write.rs 147-177. -/
def writeTag (e : Existing) (new f : Bytes) : Except Err Bytes := do
  let range := e.footer.getD (e.position, e.position)
  let f ← splice f range.1 range.2 new
  match e.header with
  | some r => splice f r.1 r.2 []
  | none => .ok f

/-- `write_to`, ape/tag/write.rs 23-51: the file afterwards. -/
def writeTo (o : Opts) (f : Bytes) (t : Tag) : Except Err Bytes := do
  let e ← findExisting o f
  let new ← createTag t
  writeTag e new f

end Lofty.Ape
