import Verif.Model.Mp4
import Verif.Model.File
import Verif.Model.Drain
import Verif.Model.Picture
import Verif.Model.Id3v1
/-!
# MP4 `ilst` tags

`lofty/src/mp4/ilst/{mod,atom,data_type,read,write}.rs` and the writer of
`lofty/src/mp4/write.rs`.
-/
namespace Lofty.Ilst
open Lofty.Text Lofty.Mp4
open Lofty.Picture (Pic Mime PicType)

/-- `AtomData`, mp4/ilst/atom.rs 290-330.  A `DataType` (mp4/ilst/data_type.rs 12-177) is
its number: the two conversions are inverse to each other except on values `Other(n)` with
`n` a known number, which the model does not distinguish from the known type. -/
inductive Data
  | utf8 (s : Str)
  | utf16 (s : Str)
  | picture (p : Pic)
  | signed (i : Int32)
  | unsigned (n : UInt32)
  | bool (b : Bool)
  | unknown (code : Nat) (d : Bytes)
  deriving DecidableEq, Repr

/-- `AtomDataStorage`, mp4/ilst/atom.rs 10-13. -/
inductive Storage
  | single (d : Data)
  | multiple (l : List Data)
  deriving DecidableEq, Repr

/-- `AtomDataStorage`'s iterators, mp4/ilst/atom.rs 60-119. -/
def Storage.toList : Storage → List Data
  | .single d => [d]
  | .multiple l => l

/-- `AtomDataStorage::from_vec`, mp4/ilst/atom.rs 23-29 (and the same match in
`Atom::from_collection`, 153-161). -/
def Storage.ofList : List Data → Option Storage
  | [] => none
  | [d] => some (.single d)
  | l => some (.multiple l)

/-- Is this a picture? -/
def Data.isPicture : Data → Bool
  | .picture _ => true
  | _ => false

/-- `AtomDataStorage::is_pictures`, mp4/ilst/atom.rs 16-21. -/
def Storage.isPictures : Storage → Bool
  | .single d => d.isPicture
  | .multiple l => l.all Data.isPicture

/-- `Atom`, mp4/ilst/atom.rs 135-138. -/
structure Atom where
  ident : Ident
  data : Storage
  deriving DecidableEq, Repr

/-- `Atom::push_data`, mp4/ilst/atom.rs 191-198. -/
def Storage.push : Storage → Data → Storage
  | .single s, d => .multiple [s, d]
  | .multiple l, d => .multiple (l ++ [d])

/-- `Atom::merge`, mp4/ilst/atom.rs 231-241, for equal identifiers. -/
def Atom.merge (a b : Atom) : Atom := { a with data := b.data.toList.foldl Storage.push a.data }

/-- `Ilst`, mp4/ilst/mod.rs 132-134. -/
abbrev Tag := List Atom

/-- The constants of mp4/ilst/mod.rs 37-45. -/
def four (c : UInt8) (s : String) : Ident := .fourcc (c :: ascii s)
/-- `COVR`, mp4/ilst/mod.rs 43. -/
def covr : Ident := .fourcc (ascii "covr")
/-- `TRACK_NUMBER`, mp4/ilst/mod.rs 44. -/
def trkn : Ident := .fourcc (ascii "trkn")
/-- `DISC_NUMBER`, mp4/ilst/mod.rs 45. -/
def disk : Ident := .fourcc (ascii "disk")
/-- `ADVISORY_RATING`, mp4/ilst/mod.rs 42. -/
def rtng : Ident := .fourcc (ascii "rtng")

/-! ## Editing -/

/-- `Ilst::get`, mp4/ilst/mod.rs 167-169. -/
def get (t : Tag) (i : Ident) : Option Atom := t.find? fun a => decide (a.ident = i)

/-- `Ilst::get_mut` followed by an update of the atom found, mp4/ilst/mod.rs 171-173;
`none` when there is no such atom. -/
def update (t : Tag) (i : Ident) (f : Atom → Atom) : Option Tag :=
  match t with
  | [] => none
  | a :: t => if a.ident = i then some (f a :: t) else (update t i f).map (a :: ·)

/-- `Ilst::insert_picture`, mp4/ilst/mod.rs 372-386. -/
def insertPicture (t : Tag) (p : Pic) : Tag :=
  let d := Data.picture { p with ty := .other }
  match update t covr fun a => { a with data := a.data.push d } with
  | some t => t
  | none => t ++ [⟨covr, .single d⟩]

/-- One step of the picture loop of `insert`, mp4/ilst/mod.rs 201-206 (anything but a
picture is unreachable). -/
def insertData (t : Tag) : Data → Tag
  | .picture p => insertPicture t p
  | _ => t

/-- `Ilst::insert`, mp4/ilst/mod.rs 199-219. -/
def insert (t : Tag) (a : Atom) : Tag :=
  if a.ident = covr ∧ a.data.isPictures then a.data.toList.foldl insertData t
  else match update t a.ident fun e => e.merge a with
    | some t => t
    | none => t ++ [a]

/-- `Ilst::remove`, mp4/ilst/mod.rs 271-286: the removed atoms and the rest. -/
def remove (t : Tag) (i : Ident) : List Atom × Tag := drainFilter (fun a => decide (a.ident = i)) t

/-- `Ilst::replace_atom`, mp4/ilst/mod.rs 242-245. -/
def replace (t : Tag) (a : Atom) : Tag := (remove t a.ident).2 ++ [a]

/-- `Ilst::remove_pictures`, mp4/ilst/mod.rs 389-392. -/
def removePictures (t : Tag) : Tag :=
  t.filter fun a => !(match a.data.toList.head? with | some d => d.isPicture | none => false)

/-- `Ilst::pictures`, mp4/ilst/mod.rs 326-336. -/
def pictures (t : Tag) : Option (List Pic) :=
  (get t covr).map fun a => a.data.toList.filterMap fun | .picture p => some p | _ => none

/-- `Ilst::set_flag`, mp4/ilst/mod.rs 410-422. -/
def setFlag (t : Tag) (i : Ident) (v : Bool) : Tag :=
  if !v then (remove t i).2 else replace t ⟨i, .single (.bool v)⟩

/-- `Ilst::get_flag`, mp4/ilst/mod.rs 424-431, with the `unwrap_or(false)` of the accessors
(93-96). -/
def getFlag (t : Tag) (i : Ident) : Bool :=
  match get t i with
  | some a => match a.data.toList.head? with
    | some (.bool b) => b
    | _ => false
  | none => false

/-- The text accessors, mp4/ilst/mod.rs 51-59. -/
def getText (t : Tag) (i : Ident) : Option Str :=
  match get t i with
  | some a => match a.data.toList.head? with
    | some (.utf8 s) => some s
    | some (.utf16 s) => some s
    | _ => none
  | none => none

/-- The text setters, mp4/ilst/mod.rs 61-66. -/
def setText (t : Tag) (i : Ident) (s : Str) : Tag := replace t ⟨i, .single (.utf8 s)⟩

/-- `AdvisoryRating::try_from(u8)`, mp4/ilst/advisory_rating.rs 41-52, as the number `as_u8`
gives (32-38). -/
def ratingOf (b : Nat) : Option Nat :=
  if b = 0 then some 0 else if b = 1 ∨ b = 4 then some 1 else if b = 2 then some 2 else none

/-- The byte an advisory rating is taken from, mp4/ilst/mod.rs 446-450. -/
def ratingByte : Data → Option Nat
  | .signed i => if 0 ≤ i.toInt ∧ i.toInt ≤ 255 then some i.toInt.toNat else none
  | .unknown _ d => d.head?.map UInt8.toNat
  | _ => none

/-- `Ilst::advisory_rating`, mp4/ilst/mod.rs 442-452. -/
def rating (t : Tag) : Option Nat :=
  ((get t rtng).toList.flatMap fun a => a.data.toList).filterMap ratingByte |>.findSome? ratingOf

/-- `Ilst::set_advisory_rating`, mp4/ilst/mod.rs 455-462; `r` is 0, 1 or 2. -/
def setRating (t : Tag) (r : Fin 3) : Tag := replace t ⟨rtng, .single (.signed (Int32.ofNat r.val))⟩

/-- `Ilst::extract_number`, mp4/ilst/mod.rs 465-482. -/
def number (t : Tag) (i : Ident) (size : Nat) : Option Nat :=
  match get t i with
  | some a => match a.data.toList.head? with
    | some (.unknown 0 d) =>
      if size ≤ d.length then some (fromBE ((d.drop (size - 2)).take 2)) else none
    | _ => none
  | none => none

/-- The pair of 16-bit numbers as data, mp4/ilst/mod.rs 520. -/
def pairData (a b : Nat) : Bytes := [0, 0] ++ beBytes 2 a ++ beBytes 2 b

/-- `set_track`, `set_disk`, mp4/ilst/mod.rs 516-522 and 556-562; `as u16` truncates. -/
def setNumber (t : Tag) (i : Ident) (v : Nat) : Tag :=
  replace t ⟨i, .single (.unknown 0 (pairData v ((number t i 6).getD 0)))⟩

/-- `set_track_total`, `set_disk_total`, mp4/ilst/mod.rs 532-538 and 572-578. -/
def setTotal (t : Tag) (i : Ident) (v : Nat) : Tag :=
  replace t ⟨i, .single (.unknown 0 (pairData ((number t i 4).getD 0) v))⟩

/-- `remove_track_total`, `remove_disk_total`, mp4/ilst/mod.rs 540-550 and 580-590. -/
def removeTotal (t : Tag) (i : Ident) : Tag :=
  let n := number t i 4
  let t := (remove t i).2
  match n with
  | some n => replace t ⟨i, .single (.unknown 0 (pairData n 0))⟩
  | none => t

/-! ## Writing -/

/-- `AtomWriterCompanion`, mp4/write.rs 183-271: a buffer and a position. -/
structure Wr where
  buf : Bytes
  pos : Nat
  deriving DecidableEq, Repr

/-- `write_all` on the `Cursor<Vec<u8>>`, mp4/write.rs 263-271. -/
def Wr.put (w : Wr) (b : Bytes) : Wr := ⟨writeAt w.buf w.pos b, w.pos + b.length⟩

/-- `seek(SeekFrom::Start(p))`. -/
def Wr.seek (w : Wr) (p : Nat) : Wr := { w with pos := p }

/-- `write_atom_size`, mp4/write.rs 209-244.  The eight calls of `insert` (240-242) are one
insertion. -/
def Wr.size (w : Wr) (start size : Nat) (extended : Bool) : Wr :=
  if size < 2 ^ 32 then
    let w := w.put (beBytes 4 size)
    w.seek (w.pos + 4)
  else
    let w := w.put (beBytes 4 1)
    let w := w.seek (w.pos + 4)
    if extended then w.put (beBytes 8 size)
    else ⟨w.buf.take (start + 8) ++ beBytes 8 size ++ w.buf.drop (start + 8), w.pos + 8⟩

/-- `write_data`, mp4/ilst/write.rs 773-801. -/
def writeData (code : Nat) (d : Bytes) (w : Wr) : Except Err Wr :=
  if code > 16777215 then .error .encode
  else
    let w := w.put ([0, 0, 0, 0] ++ ascii "data")
    let w := w.seek (w.pos - 8)
    let w := w.size w.pos (16 + d.length) false
    .ok ((((w.put [0]).put (beBytes 3 code)).put [0, 0, 0, 0]).put d)

/-- `bytes_to_occupy_uint`, mp4/ilst/write.rs 711-721: the leading zero bits divided by 8
are the leading zero bytes. -/
def uintWidth (n : UInt32) : Nat :=
  if n.toNat = 0 then 1
  else if n.toNat < 2 ^ 8 then 1
  else if n.toNat < 2 ^ 16 then 2
  else 4

/-- The number of an image type, mp4/ilst/write.rs 755-771. -/
def pictureCode : Option Mime → Except Err Nat
  | some .gif => .ok 12
  | some .jpeg => .ok 13
  | some .png => .ok 14
  | some .bmp => .ok 27
  | none => .ok 0
  | _ => .error .encode

/-- `write_atom_data` for one value, mp4/ilst/write.rs 682-771. -/
def writeValue (d : Data) (w : Wr) : Except Err Wr :=
  match d with
  | .utf8 s => writeData 1 (Lofty.utf8 s) w
  | .utf16 s => writeData 2 (Lofty.utf8 s) w
  | .picture p => do
    let code ← pictureCode p.mime
    writeData code p.data w
  | .signed i => writeData 21 (beBytes 4 i.toUInt32.toNat) w
  | .unsigned n => writeData 22 ((beBytes 4 n.toNat).drop (4 - uintWidth n)) w
  | .bool b => writeData 21 [if b then 1 else 0] w
  | .unknown code d => writeData code d w

/-- `write_atom_data`, mp4/ilst/write.rs 682-702. -/
def writeValues : List Data → Wr → Except Err Wr
  | [], w => .ok w
  | d :: l, w => do
    let w ← writeValue d w
    writeValues l w

/-- `write_freeform`, mp4/ilst/write.rs 660-680. -/
def writeFreeform (mean name : Str) (w : Wr) : Wr :=
  let w := w.put (ascii "----")
  let w := w.put (beBytes 4 (12 + (Lofty.utf8 mean).length))
  let w := w.put (ascii "mean" ++ [0, 0, 0, 0])
  let w := w.put (Lofty.utf8 mean)
  let w := w.put (beBytes 4 (12 + (Lofty.utf8 name).length))
  let w := w.put (ascii "name" ++ [0, 0, 0, 0])
  w.put (Lofty.utf8 name)

/-- The identifier of an atom, mp4/ilst/write.rs 626-629. -/
def writeIdent (i : Ident) (w : Wr) : Wr :=
  match i with
  | .fourcc b => w.put b
  | .freeform mean name => writeFreeform mean name w

/-- One iteration of the loop of `build_ilst`, mp4/ilst/write.rs 620-643. -/
def writeAtom (a : Atom) (w : Wr) : Except Err Wr := do
  let start := w.pos
  let w := w.put [0, 0, 0, 0]
  let w := writeIdent a.ident w
  let w ← writeValues a.data.toList w
  let e := w.pos
  let w := (w.seek start).size start (e - start) false
  .ok (w.seek e)

/-- The loop of `build_ilst`. -/
def writeAtoms : Tag → Wr → Except Err Wr
  | [], w => .ok w
  | a :: t, w => do
    let w ← writeAtom a w
    writeAtoms t w

/-- `build_ilst`, mp4/ilst/write.rs 602-658. -/
def build (t : Tag) : Except Err Bytes :=
  match t with
  | [] => .ok []
  | t => do
    let w ← writeAtoms t ⟨[0, 0, 0, 0] ++ ascii "ilst", 8⟩
    .ok ((w.seek 0).size 0 w.buf.length false).buf

/-! ## Reading -/

/-- `parse_type_indicator`, mp4/ilst/read.rs 320-344. -/
def typeIndicator (r : Rd) (mode : Mode) : Except Err (Option Nat × Rd) := do
  let (b, r) ← r.raw 1
  if b ≠ [0] then
    if mode = .strict then .error .parse else .ok (none, r)
  else
    let (c, r) ← r.raw 3
    .ok (some (fromBE c), r)

/-- The content of a `data` atom, mp4/ilst/read.rs 303-310; nothing is kept when it is
empty. -/
def dataContent (r : Rd) (code len : Nat) (acc : List (Nat × Bytes)) :
    Except Err (List (Nat × Bytes) × Rd) :=
  if len - 16 > 0 then do
    let (c, r) ← r.take (len - 16)
    .ok (acc ++ [(code, c)], r)
  else .ok (acc, r)

/-- The loop of `parse_data_inner`, mp4/ilst/read.rs 255-314; `fuel` bounds the
iterations. -/
def dataLoop (mode : Mode) (toRead : Nat) : Nat → Nat → List (Nat × Bytes) → Rd →
    Except Err (List (Nat × Bytes) × Rd)
  | 0, _, _, _ => .error .diverge
  | k + 1, pos, acc, r =>
    if toRead ≤ pos then .ok (acc, r)
    else do
      let (a, r) ← r.next mode
      match a with
      | none => .ok (acc, r)
      | some a =>
        if a.len < 16 then
          if mode = .strict then .error .notEnough else .ok (acc, r)
        else if a.ident ≠ .fourcc (ascii "data") then
          if mode = .strict then .error .parse
          else
            let r ← skipAtom r a.extended a.len
            dataLoop mode toRead k (pos + a.len) acc r
        else
          let (t, r) ← typeIndicator r mode
          match t with
          | none => dataLoop mode toRead k (pos + (a.len - 9)) acc (r.skip (a.len - 9))
          | some code =>
            let (acc, r) ← dataContent (r.skip 4) code a.len acc
            dataLoop mode toRead k (pos + a.len) acc r

/-- `parse_data_inner`, mp4/ilst/read.rs 235-318; the empty list stands for `None`.  The
assertion (250-253) is a panic. -/
def parseDataInner (r : Rd) (mode : Mode) (a : Info) : Except Err (List (Nat × Bytes) × Rd) :=
  if a.start + a.len < r.pos then .error .panic
  else dataLoop mode (a.start + a.len - r.pos) (r.f.length + 1) 0 [] r

/-- `parse_uint`, mp4/ilst/read.rs 346-358. -/
def parseUint (b : Bytes) : Except Err UInt32 :=
  if 1 ≤ b.length ∧ b.length ≤ 4 then .ok (UInt32.ofNat (fromBE b)) else .error .parse

/-- `parse_int`, mp4/ilst/read.rs 360-375: one byte is taken as unsigned, two and three
bytes are sign-extended. -/
def parseInt (b : Bytes) : Except Err Int32 :=
  if b.length = 1 then .ok (Int32.ofNat (fromBE b))
  else if b.length = 2 then
    .ok (Int32.ofInt (if fromBE b < 2 ^ 15 then fromBE b else fromBE b - 2 ^ 16))
  else if b.length = 3 then
    .ok (Int32.ofInt (if fromBE b < 2 ^ 23 then fromBE b else fromBE b - 2 ^ 24))
  else if b.length = 4 then .ok (UInt32.ofNat (fromBE b)).toInt32
  else .error .parse

/-- `interpret_atom_content`, mp4/ilst/read.rs 440-452. -/
def interpret (code : Nat) (c : Bytes) : Except Err Data :=
  if code = 1 then do .ok (.utf8 (← utf8Decode c))
  else if code = 2 then do .ok (.utf16 (← utf16DecodeBytes c true))
  else if code = 21 then do .ok (.signed (← parseInt c))
  else if code = 22 then do .ok (.unsigned (← parseUint c))
  else .ok (.unknown code c)

/-- All contents of an atom, mp4/ilst/read.rs 204-222. -/
def interpretAll : List (Nat × Bytes) → Except Err (List Data)
  | [] => .ok []
  | (code, c) :: l => do
    let d ← interpret code c
    let ds ← interpretAll l
    .ok (d :: ds)

/-- `parse_data`, mp4/ilst/read.rs 175-231: the new tag. -/
def parseData (r : Rd) (mode : Mode) (t : Tag) (a : Info) : Except Err (Tag × Rd) := do
  let (ds, r) ← parseDataInner r mode a
  match interpretAll ds with
  | .ok ds => match Storage.ofList ds with
    | some s => .ok (t ++ [⟨a.ident, s⟩], r)
    | none => .ok (t, r)
  | .error e => if mode = .strict then .error e else .ok (t, r)

/-- The type of a picture, mp4/ilst/read.rs 392-412; the outer `none` is an unknown type. -/
def pictureMime (code : Nat) : Option (Option Mime) :=
  if code = 0 then some none
  else if code = 12 then some (some .gif)
  else if code = 13 then some (some .jpeg)
  else if code = 14 then some (some .png)
  else if code = 27 then some (some .bmp)
  else none

/-- The pictures of a `covr` atom, mp4/ilst/read.rs 391-429; `none` is an unknown type. -/
def coverData : List (Nat × Bytes) → Option (List Data)
  | [] => some []
  | (code, c) :: l => match pictureMime code with
    | none => none
    | some m => (coverData l).map (.picture ⟨.other, m, none, c⟩ :: ·)

/-- `handle_covr`, mp4/ilst/read.rs 377-438. -/
def handleCovr (r : Rd) (mode : Mode) (t : Tag) (a : Info) : Except Err (Tag × Rd) := do
  let (ds, r) ← parseDataInner r mode a
  match coverData ds with
  | none => if mode = .strict then .error .parse else .ok (t, r)
  | some ds => match Storage.ofList ds with
    | some s => .ok (t ++ [⟨covr, s⟩], r)
    | none => .ok (t, r)

/-- `ParseOptions`, the fields used by `parse_ilst`. -/
structure Opts where
  mode : Mode
  coverArt : Bool
  implicit : Bool
  deriving DecidableEq, Repr

/-- The genre a `gnre` content stands for, mp4/ilst/read.rs 76-85. -/
def upgradeGenre (c : Bytes) : Option Data :=
  if 2 ≤ c.length then
    let i := (c.getD 1 0).toNat
    if 0 < i ∧ i ≤ Id3v1.genres.length then some (.utf8 (Id3v1.genres.getD (i - 1) [])) else none
  else none

/-- The flag atoms of mp4/ilst/read.rs 140. -/
def flagAtoms : List Bytes := [ascii "cpil", ascii "hdvd", ascii "pcst", ascii "pgap", ascii "shwm"]

/-- Adds an atom with the data, if there is any. -/
def addAtom (t : Tag) (i : Ident) (ds : List Data) : Tag :=
  match Storage.ofList ds with
  | some s => t ++ [⟨i, s⟩]
  | none => t

/-- The body of the loop of `parse_ilst`, mp4/ilst/read.rs 41-157: the new tag and the
upgraded genres. -/
def ilstStep (o : Opts) (r : Rd) (a : Info) (t : Tag) (g : List Data) :
    Except Err (Tag × List Data × Rd) :=
  match a.ident with
  | .freeform _ _ => do
    let (t, r) ← parseData r o.mode t a
    .ok (t, g, r)
  | .fourcc id =>
    if id = ascii "free" ∨ id = ascii "skip" then do
      let r ← skipAtom r a.extended a.len
      .ok (t, g, r)
    else if id = ascii "covr" then
      if o.coverArt then do
        let (t, r) ← handleCovr r o.mode t a
        .ok (t, g, r)
      else do
        let r ← skipAtom r a.extended a.len
        .ok (t, g, r)
    else if id = ascii "gnre" then do
      let (ds, r) ← parseDataInner r o.mode a
      if o.implicit then .ok (t, g ++ ds.filterMap fun d => upgradeGenre d.2, r)
      else .ok (addAtom t a.ident (ds.map fun d => .unknown d.1 d.2), g, r)
    else if id = ascii "plID" then do
      let (ds, r) ← parseDataInner r o.mode a
      .ok (addAtom t a.ident ((ds.filter fun d => d.2.length = 8).map fun d => .unknown d.1 d.2), g, r)
    else if id ∈ flagAtoms then do
      let (ds, r) ← parseDataInner r o.mode a
      match ds with
      | [] => .ok (t, g, r)
      | d :: _ => .ok (t ++ [⟨a.ident, .single (.bool (d.2.any (· ≠ 0)))⟩], g, r)
    else do
      let (t, r) ← parseData r o.mode t a
      .ok (t, g, r)

/-- The loop of `parse_ilst`, mp4/ilst/read.rs 39-158: an error of `next` ends it like the
end of the data (a panic does not). -/
def ilstLoop (o : Opts) : Nat → Rd → Tag → List Data → Except Err (Tag × List Data)
  | 0, _, _, _ => .error .diverge
  | k + 1, r, t, g =>
    match r.next o.mode with
    | .error .panic => .error .panic
    | .error _ => .ok (t, g)
    | .ok (none, _) => .ok (t, g)
    | .ok (some a, r) => do
      let (t, g, r) ← ilstStep o r a t g
      ilstLoop o k r t g

/-- `©gen`. -/
def genId : Ident := four 0xA9 "gen"

/-- `parse_ilst`, mp4/ilst/read.rs 20-173, on the contents of the atom. -/
def parse (o : Opts) (content : Bytes) : Except Err Tag := do
  let (t, g) ← ilstLoop o (content.length + 1) (Rd.new content) [] []
  if o.implicit ∧ g ≠ [] then
    if (get t genId).isSome then .ok t else .ok (addAtom t genId g)
  else .ok t

end Lofty.Ilst
