import Verif.Model.Picture
import Verif.Model.Drain
/-!
# Vorbis comments

`lofty/src/ogg/tag.rs`, `lofty/src/ogg/tag/read.rs`, `lofty/src/ogg/tag/write.rs`.
-/
namespace Lofty.Vorbis

/-- One comment: key and value. -/
abbrev Item := Str × Str

/-- `VorbisComments`, ogg/tag.rs 81-88. -/
structure Tag where
  vendor : Str
  items : List Item
  pictures : List (Picture.Pic × Picture.Info)
  deriving DecidableEq

/-- `ParsingMode`, config/parse_options.rs (the three modes). -/
inductive Mode
  | strict | bestAttempt | relaxed
  deriving DecidableEq

/-- The fields of `ParseOptions` used by the comment reader. -/
structure Opts where
  mode : Mode
  readCoverArt : Bool
  implicitConversions : Bool

/-! ## Editing -/

/-- `verify_key`, ogg/tag.rs 322-329; the bytes of the string are its characters when all
are below 0x7E. -/
def verifyKey (k : Str) : Bool :=
  !k.isEmpty && (utf8 k).all fun b => decide (0x20 ≤ b.toNat ∧ b.toNat ≤ 0x7D) && b.toNat != 0x3D

/-- `VorbisComments::get`, ogg/tag.rs 200-209. -/
def get (t : Tag) (key : Str) : Option Str :=
  if verifyKey key then (t.items.find? fun i => eqIc i.1 key).map (·.2) else none

/-- `VorbisComments::get_all`, ogg/tag.rs 228-232. -/
def getAll (t : Tag) (key : Str) : List Str :=
  t.items.filterMap fun i => if eqIc i.1 key then some i.2 else none

/-- `VorbisComments::insert`, ogg/tag.rs 254-261. -/
def insert (t : Tag) (key value : Str) : Tag :=
  if verifyKey key then
    { t with items := (t.items.filter fun i => !eqIc i.1 key) ++ [(key, value)] }
  else t

/-- `VorbisComments::push`, ogg/tag.rs 281-287. -/
def push (t : Tag) (key value : Str) : Tag :=
  if verifyKey key then { t with items := t.items ++ [(key, value)] } else t

/-- `VorbisComments::remove`, ogg/tag.rs 305-317: the removed values and the new tag (all
of the returned iterator consumed or dropped; `Drain` removes the range either way). -/
def remove (t : Tag) (key : Str) : List Str × Tag :=
  let (out, rest) := drainFilter (fun i => eqIc i.1 key) t.items
  (out.map (·.2), { t with items := rest })

/-- `set_track`, ogg/tag.rs 357-365 (`remove_track` included). -/
def setTrack (t : Tag) (n : Nat) : Tag :=
  insert (remove (remove t (str "TRACKNUMBER")).2 (str "TRACKNUM")).2 (str "TRACKNUMBER") (toDec n)

/-- `set_track_total`, ogg/tag.rs 378-381. -/
def setTrackTotal (t : Tag) (n : Nat) : Tag :=
  (remove (insert t (str "TRACKTOTAL") (toDec n)) (str "TOTALTRACKS")).2

/-- `set_disk`, ogg/tag.rs 396-398. -/
def setDisk (t : Tag) (n : Nat) : Tag := insert t (str "DISCNUMBER") (toDec n)

/-- `set_disk_total`, ogg/tag.rs 415-418. -/
def setDiskTotal (t : Tag) (n : Nat) : Tag :=
  (remove (insert t (str "DISCTOTAL") (toDec n)) (str "TOTALDISCS")).2

/-- `self.get(a).map_or_else(|| self.get(b), Some)` then `parse::<u32>`: `track`
ogg/tag.rs 346-355, `track_total` 367-376, `disk_total` 404-413. -/
def number (t : Tag) (a b : Str) : Option Nat :=
  match get t a with
  | some v => parseU32 v
  | none => match get t b with
    | some v => parseU32 v
    | none => none

/-- `track`, ogg/tag.rs 346-355. -/
def track (t : Tag) : Option Nat := number t (str "TRACKNUMBER") (str "TRACKNUM")
/-- `track_total`, ogg/tag.rs 367-376. -/
def trackTotal (t : Tag) : Option Nat := number t (str "TRACKTOTAL") (str "TOTALTRACKS")
/-- `disk`, ogg/tag.rs 388-394. -/
def disk (t : Tag) : Option Nat := (get t (str "DISCNUMBER")).bind parseU32
/-- `disk_total`, ogg/tag.rs 404-413. -/
def diskTotal (t : Tag) : Option Nat := number t (str "DISCTOTAL") (str "TOTALDISCS")

/-! ## Writing -/

/-- The bytes of one comment, `create_comments` ogg/tag/write.rs 181-196. -/
def commentBytes (i : Item) : Bytes := utf8 i.1 ++ 0x3D :: utf8 i.2

/-- `create_comments`, ogg/tag/write.rs 176-200: the written bytes and the number of
comments. -/
def createComments : List Item → Except Err (Bytes × Nat)
  | [] => .ok ([], 0)
  | i :: is =>
    if i.2.isEmpty then createComments is
    else if (commentBytes i).length < 2 ^ 32 then do
      let (b, n) ← createComments is
      .ok (leBytes 4 (commentBytes i).length ++ commentBytes i ++ b, n + 1)
    else .error .tooMuch

/-- The bytes of one picture comment, `create_pictures` ogg/tag/write.rs 207-220. -/
def pictureComment (p : Picture.Pic × Picture.Info) : Bytes :=
  ascii "METADATA_BLOCK_PICTURE=" ++ Picture.asFlacBytes p.1 p.2 true

/-- `create_pictures`, ogg/tag/write.rs 202-224. -/
def createPictures : List (Picture.Pic × Picture.Info) → Except Err (Bytes × Nat)
  | [] => .ok ([], 0)
  | p :: ps =>
    if (pictureComment p).length < 2 ^ 32 then do
      let (b, n) ← createPictures ps
      .ok (leBytes 4 (pictureComment p).length ++ pictureComment p ++ b, n + 1)
    else .error .tooMuch

/-- `create_metadata_packet`, ogg/tag/write.rs 137-174.  The placeholder count is written
directly (the code writes 0 and seeks back). -/
def createPacket (t : Tag) (sig : Bytes) (framing : Bool) : Except Err Bytes := do
  let (cs, n) ← createComments t.items
  let (ps, m) ← createPictures t.pictures
  .ok (sig ++ leBytes 4 (utf8 t.vendor).length ++ utf8 t.vendor ++ leBytes 4 (n + m) ++ cs ++ ps
    ++ (if framing then [1] else []))

/-! ## Reading -/

/-- `valid_vorbis_comments_key`, ogg/tag/read.rs 254-257. -/
def validKey (k : Bytes) : Bool :=
  k.all fun b => decide (0x20 ≤ b.toNat ∧ b.toNat ≤ 0x7D) && b.toNat != 0x3D

/-- `String::from_utf8_unchecked` of bytes known to be ASCII. -/
def asciiStr (k : Bytes) : Str := k.map fun b => Char.ofNat b.toNat

/-- The `TRACKNUMBER`/`DISCNUMBER` arm with implicit conversions, ogg/tag/read.rs
176-206. -/
def pushNumber (isTrack : Bool) (t : Tag) (value : Str) : Tag :=
  let (a, b) := split2 '/' value
  let current := parseU32 a
  let total := b.bind parseU32
  let t := match total with
    | some n => if isTrack then setTrackTotal t n else setDiskTotal t n
    | none => t
  match current with
  | some n => if isTrack then setTrack t n else setDisk t n
  | none =>
    { t with items := t.items ++ [(if isTrack then str "TRACKNUMBER" else str "DISCNUMBER", value)] }

/-- One item of the loop of `read_comments` after the bytes have been read, ogg/tag/read.rs
88-247. -/
def readItem (o : Opts) (t : Tag) (comment : Bytes) : Except Err Tag :=
  match split2 0x3D comment with
  | (_, none) => .ok t
  | (key, some value) =>
    if eqIcB key (ascii "METADATA_BLOCK_PICTURE") then
      if !o.readCoverArt then .ok t
      else match Picture.fromFlacBytes value true (o.mode = .strict) with
        | .ok p => .ok { t with pictures := t.pictures ++ [p] }
        | .error .panic => .error .panic
        | .error e => if o.mode = .strict then .error e else .ok t
    else if eqIcB key (ascii "COVERART") then
      if !o.readCoverArt then .ok t
      else match Picture.b64Decode value with
        | some d =>
          match Picture.mimeFromBin d with
          | .error .panic => .error .panic
          | .error _ => .ok { t with pictures := t.pictures
              ++ [(⟨.other, some (.unknown (str "image/")), none, d⟩, Picture.Info.default)] }
          | .ok m => .ok { t with pictures := t.pictures
              ++ [(⟨.other, some m, none, d⟩, Picture.Info.default)] }
        | none => if o.mode = .strict then .error .parse else .ok t
    else if eqIcB key (ascii "TRACKNUMBER") || eqIcB key (ascii "DISCNUMBER") then
      match Text.utf8Decode value with
      | .ok v =>
        let isTrack := eqIcB key (ascii "TRACKNUMBER")
        if !o.implicitConversions then
          .ok { t with items := t.items ++ [(if isTrack then str "TRACKNUMBER" else str "DISCNUMBER", v)] }
        else .ok (pushNumber isTrack t v)
      | .error e => if o.mode = .strict then .error e else .ok t
    else if validKey key then
      match Text.utf8Decode value with
      | .ok v => .ok { t with items := t.items ++ [(asciiStr key, v)] }
      | .error e => if o.mode = .strict then .error e else .ok t
    else if o.mode = .strict then .error .parse else .ok t

/-- The loop of `read_comments`, ogg/tag/read.rs 80-249, with `n` items to go. -/
def readItems (o : Opts) : Nat → Nat → Tag → Bytes → Except Err (Tag × Bytes)
  | 0, _, t, d => .ok (t, d)
  | n + 1, len, t, d => do
    let (cl, d) ← readLE 4 d
    if cl > len then .error .sizeMismatch
    else do
      let (comment, d) ← readN cl d
      let t ← readItem o t comment
      readItems o n (len - cl) t d

/-- The vendor string of `read_comments`, ogg/tag/read.rs 43-66; the recovery decodes the
bytes as if they were UTF-16 code units. -/
def readVendor (o : Opts) (raw : Bytes) : Except Err Str :=
  match Text.utf8Decode raw with
  | .ok v => .ok v
  | .error e => if o.mode = .strict then .error e else Text.utf16Decode (raw.map (·.toNat))

/-- `read_comments`, ogg/tag/read.rs 21-252.  Returns also the rest of the reader.
`try_vec!` allocation failures are not modelled. -/
def readComments (o : Opts) (d : Bytes) (len : Nat) : Except Err (Tag × Bytes) := do
  let (vl, d) ← readLE 4 d
  if vl > len then .error .sizeMismatch
  else do
    let (raw, d) ← readN vl d
    let len := len - vl
    let vendor ← readVendor o raw
    let (n, d) ← readLE 4 d
    if n > len / 4 % 2 ^ 32 then .error .sizeMismatch
    else readItems o n len ⟨vendor, [], []⟩ d

end Lofty.Vorbis
