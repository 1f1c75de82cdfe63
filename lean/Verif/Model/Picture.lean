import Verif.Model.Ascii
/-!
# Pictures, `lofty/src/picture/mod.rs`
-/
namespace Lofty.Picture

/-- `MimeType`, picture/mod.rs 45-58. -/
inductive Mime
  | png | jpeg | tiff | bmp | gif
  | unknown (s : Str)
  deriving DecidableEq, Repr

/-- `MimeType::from_str`, picture/mod.rs 73-82.  The code lower-cases with Unicode
rules; the only non-ASCII characters whose Unicode lower case contains ASCII letters
are U+0130 and U+212A, and neither can produce one of the strings compared with, so
ASCII lower-casing gives the same result. -/
def Mime.fromStr (s : Str) : Mime :=
  let l := s.map lowerChar
  if l = str "image/jpeg" ∨ l = str "image/jpg" then .jpeg
  else if l = str "image/png" then .png
  else if l = str "image/tiff" then .tiff
  else if l = str "image/bmp" then .bmp
  else if l = str "image/gif" then .gif
  else .unknown s

/-- `MimeType::as_str`, picture/mod.rs 95-104. -/
def Mime.asStr : Mime → Str
  | .jpeg => str "image/jpeg"
  | .png => str "image/png"
  | .tiff => str "image/tiff"
  | .bmp => str "image/bmp"
  | .gif => str "image/gif"
  | .unknown s => s

/-- `PictureType`, picture/mod.rs 138-183. -/
inductive PicType
  | other | icon | otherIcon | coverFront | coverBack | leaflet | media | leadArtist
  | artist | conductor | band | composer | lyricist | recordingLocation | duringRecording
  | duringPerformance | screenCapture | brightFish | illustration | bandLogo | publisherLogo
  | undefined (b : UInt8)
  deriving DecidableEq, Repr

/-- `PictureType::as_u8`, picture/mod.rs 189-214. -/
def PicType.asU8 : PicType → UInt8
  | .other => 0 | .icon => 1 | .otherIcon => 2 | .coverFront => 3 | .coverBack => 4
  | .leaflet => 5 | .media => 6 | .leadArtist => 7 | .artist => 8 | .conductor => 9
  | .band => 10 | .composer => 11 | .lyricist => 12 | .recordingLocation => 13
  | .duringRecording => 14 | .duringPerformance => 15 | .screenCapture => 16
  | .brightFish => 17 | .illustration => 18 | .bandLogo => 19 | .publisherLogo => 20
  | .undefined i => i

/-- `PictureType::from_u8`, picture/mod.rs 217-242. -/
def PicType.fromU8 (b : UInt8) : PicType :=
  match b.toNat with
  | 0 => .other | 1 => .icon | 2 => .otherIcon | 3 => .coverFront | 4 => .coverBack
  | 5 => .leaflet | 6 => .media | 7 => .leadArtist | 8 => .artist | 9 => .conductor
  | 10 => .band | 11 => .composer | 12 => .lyricist | 13 => .recordingLocation
  | 14 => .duringRecording | 15 => .duringPerformance | 16 => .screenCapture
  | 17 => .brightFish | 18 => .illustration | 19 => .bandLogo | 20 => .publisherLogo
  | _ => .undefined b

/-- `PictureType::as_ape_key`, picture/mod.rs 247-272. -/
def PicType.asApeKey : PicType → Option Str
  | .other => some (str "Cover Art (Other)")
  | .icon => some (str "Cover Art (Png Icon)")
  | .otherIcon => some (str "Cover Art (Icon)")
  | .coverFront => some (str "Cover Art (Front)")
  | .coverBack => some (str "Cover Art (Back)")
  | .leaflet => some (str "Cover Art (Leaflet)")
  | .media => some (str "Cover Art (Media)")
  | .leadArtist => some (str "Cover Art (Lead Artist)")
  | .artist => some (str "Cover Art (Artist)")
  | .conductor => some (str "Cover Art (Conductor)")
  | .band => some (str "Cover Art (Band)")
  | .composer => some (str "Cover Art (Composer)")
  | .lyricist => some (str "Cover Art (Lyricist)")
  | .recordingLocation => some (str "Cover Art (Recording Location)")
  | .duringRecording => some (str "Cover Art (During Recording)")
  | .duringPerformance => some (str "Cover Art (During Performance)")
  | .screenCapture => some (str "Cover Art (Video Capture)")
  | .brightFish => some (str "Cover Art (Fish)")
  | .illustration => some (str "Cover Art (Illustration)")
  | .bandLogo => some (str "Cover Art (Band Logotype)")
  | .publisherLogo => some (str "Cover Art (Publisher Logotype)")
  | .undefined _ => none

/-- `PictureType::from_ape_key`, picture/mod.rs 275-300. -/
def PicType.fromApeKey (k : Str) : PicType :=
  if k = str "Cover Art (Other)" then .other
  else if k = str "Cover Art (Png Icon)" then .icon
  else if k = str "Cover Art (Icon)" then .otherIcon
  else if k = str "Cover Art (Front)" then .coverFront
  else if k = str "Cover Art (Back)" then .coverBack
  else if k = str "Cover Art (Leaflet)" then .leaflet
  else if k = str "Cover Art (Media)" then .media
  else if k = str "Cover Art (Lead Artist)" then .leadArtist
  else if k = str "Cover Art (Artist)" then .artist
  else if k = str "Cover Art (Conductor)" then .conductor
  else if k = str "Cover Art (Band)" then .band
  else if k = str "Cover Art (Composer)" then .composer
  else if k = str "Cover Art (Lyricist)" then .lyricist
  else if k = str "Cover Art (Recording Location)" then .recordingLocation
  else if k = str "Cover Art (During Recording)" then .duringRecording
  else if k = str "Cover Art (During Performance)" then .duringPerformance
  else if k = str "Cover Art (Video Capture)" then .screenCapture
  else if k = str "Cover Art (Fish)" then .brightFish
  else if k = str "Cover Art (Illustration)" then .illustration
  else if k = str "Cover Art (Band Logotype)" then .bandLogo
  else if k = str "Cover Art (Publisher Logotype)" then .publisherLogo
  else .undefined 0

/-- `APE_PICTURE_TYPES`, picture/mod.rs 18-40. -/
def apePictureTypes : List Str :=
  [ str "Cover Art (Other)", str "Cover Art (Png Icon)", str "Cover Art (Icon)",
    str "Cover Art (Front)", str "Cover Art (Back)", str "Cover Art (Leaflet)",
    str "Cover Art (Media)", str "Cover Art (Lead Artist)", str "Cover Art (Artist)",
    str "Cover Art (Conductor)", str "Cover Art (Band)", str "Cover Art (Composer)",
    str "Cover Art (Lyricist)", str "Cover Art (Recording Location)",
    str "Cover Art (During Recording)", str "Cover Art (During Performance)",
    str "Cover Art (Video Capture)", str "Cover Art (Fish)", str "Cover Art (Illustration)",
    str "Cover Art (Band Logotype)", str "Cover Art (Publisher Logotype)" ]

/-- `PictureInformation`, picture/mod.rs 308-317; the fields are `u32`. -/
structure Info where
  width : UInt32
  height : UInt32
  colorDepth : UInt32
  numColors : UInt32
  deriving DecidableEq, Repr

/-- `PictureInformation::default`. -/
def Info.default : Info := ⟨0, 0, 0, 0⟩

/-- `Picture`, picture/mod.rs 591-600. -/
structure Pic where
  ty : PicType
  mime : Option Mime
  desc : Option Str
  data : Bytes
  deriving DecidableEq, Repr

/-- `Picture::mime_str`, picture/mod.rs 701-706. -/
def Pic.mimeStr (p : Pic) : Str :=
  match p.mime with
  | some m => m.asStr
  | none => []

/-! ## Base 64 (`data_encoding::BASE64`, RFC 4648 section 4) -/

/-- The alphabet of `data_encoding::BASE64` (external crate). -/
def b64Char (n : Nat) : UInt8 :=
  UInt8.ofNat (if n < 26 then 65 + n else if n < 52 then 97 + (n - 26)
    else if n < 62 then 48 + (n - 52) else if n = 62 then 43 else 47)

/-- Inverse of the alphabet. -/
def b64Val (c : UInt8) : Option Nat :=
  let c := c.toNat
  if 65 ≤ c ∧ c ≤ 90 then some (c - 65)
  else if 97 ≤ c ∧ c ≤ 122 then some (c - 97 + 26)
  else if 48 ≤ c ∧ c ≤ 57 then some (c - 48 + 52)
  else if c = 43 then some 62 else if c = 47 then some 63 else none

/-- `BASE64.encode`. -/
def b64Encode : Bytes → Bytes
  | [] => []
  | [a] => [b64Char (a.toNat / 4), b64Char (a.toNat % 4 * 16), 61, 61]
  | [a, b] =>
    [b64Char (a.toNat / 4), b64Char (a.toNat % 4 * 16 + b.toNat / 16), b64Char (b.toNat % 16 * 4), 61]
  | a :: b :: c :: r =>
    b64Char (a.toNat / 4) :: b64Char (a.toNat % 4 * 16 + b.toNat / 16) ::
      b64Char (b.toNat % 16 * 4 + c.toNat / 64) :: b64Char (c.toNat % 64) :: b64Encode r

/-- One group of four characters of `BASE64.decode`: 1, 2 or 3 bytes, with the unused
bits of a padded group required to be zero. -/
def b64Group (c1 c2 c3 c4 : UInt8) : Option Bytes :=
  match b64Val c1, b64Val c2 with
  | some v1, some v2 =>
    if c3 = 61 ∧ c4 = 61 then
      if v2 % 16 = 0 then some [UInt8.ofNat (v1 * 4 + v2 / 16)] else none
    else match b64Val c3 with
      | none => none
      | some v3 =>
        if c4 = 61 then
          if v3 % 4 = 0 then
            some [UInt8.ofNat (v1 * 4 + v2 / 16), UInt8.ofNat (v2 % 16 * 16 + v3 / 4)]
          else none
        else match b64Val c4 with
          | none => none
          | some v4 => some [UInt8.ofNat (v1 * 4 + v2 / 16), UInt8.ofNat (v2 % 16 * 16 + v3 / 4),
              UInt8.ofNat (v3 % 4 * 64 + v4)]
  | _, _ => none

/-- `BASE64.decode`: groups of four characters, each possibly padded (the crate accepts
concatenations of padded encodings). -/
def b64Decode : Bytes → Option Bytes
  | [] => some []
  | c1 :: c2 :: c3 :: c4 :: r =>
    match b64Group c1 c2 c3 c4, b64Decode r with
    | some g, some t => some (g ++ t)
    | _, _ => none
  | _ => none

/-! ## FLAC picture blocks -/

/-- The description field of `as_flac_bytes`, picture/mod.rs 749-756. -/
def descField : Option Str → Bytes
  | some d => beBytes 4 (utf8 d).length ++ utf8 d
  | none => [0, 0, 0, 0]

/-- `Picture::as_flac_bytes` with `encode = false`, picture/mod.rs 737-773. -/
def asFlacRaw (p : Pic) (i : Info) : Bytes :=
  beBytes 4 p.ty.asU8.toNat ++ beBytes 4 (utf8 p.mimeStr).length ++ utf8 p.mimeStr
    ++ descField p.desc
    ++ beBytes 4 i.width.toNat ++ beBytes 4 i.height.toNat ++ beBytes 4 i.colorDepth.toNat
    ++ beBytes 4 i.numColors.toNat ++ beBytes 4 p.data.length ++ p.data

/-- `Picture::as_flac_bytes`, picture/mod.rs 737-780. -/
def asFlacBytes (p : Pic) (i : Info) (enc : Bool) : Bytes :=
  if enc then b64Encode (asFlacRaw p i) else asFlacRaw p i

/-- A `usize` subtraction; a negative result is a panic in a debug build. -/
def checkedSub (a b : Nat) : Except Err Nat := if b ≤ a then .ok (a - b) else .error .panic

/-- A slice `x[a..b]`; out of range is a panic. -/
def slice (x : Bytes) (a b : Nat) : Except Err Bytes :=
  if a ≤ b ∧ b ≤ x.length then .ok ((x.take b).drop a) else .error .panic

/-- The description of `from_flac_bytes_inner`, picture/mod.rs 842-853: the description, the new
`size` and the rest of the reader. -/
def flacDesc (content : Bytes) (mimeLen descLen size : Nat) (r : Bytes) :
    Except Err (Option Str × Nat × Bytes) :=
  if descLen > 0 ∧ descLen < size then do
    let pos := 12 + mimeLen
    let raw ← slice content pos (pos + descLen)
    let size ← checkedSub size descLen
    .ok ((Text.utf8Decode raw).toOption, size, r.drop descLen)
  else .ok (none, size, r)

/-- `Picture::from_flac_bytes_inner`, picture/mod.rs 798-885.  `try_vec!` allocation
failures are not modelled (the allocated length is at most the content length). -/
def fromFlacInner (strict : Bool) (content : Bytes) : Except Err (Pic × Info) := do
  let size := content.length
  if size < 32 then .error .notEnough
  else
    let (ty, r) ← readBE 4 content
    let size ← checkedSub size 4
    if ty > 255 ∧ strict then .error .parse
    else
      let (mimeLen, r) ← readBE 4 r
      let size ← checkedSub size 4
      if mimeLen > size then .error .sizeMismatch
      else
        let rawMime ← slice content 8 (8 + mimeLen)
        let mimeStr ← Text.utf8Decode rawMime
        let size ← checkedSub size mimeLen
        let r := r.drop mimeLen
        let (descLen, r) ← readBE 4 r
        let size ← checkedSub size 4
        let (desc, size, r) ← flacDesc content mimeLen descLen size r
        let (width, r) ← readBE 4 r
        let (height, r) ← readBE 4 r
        let (depth, r) ← readBE 4 r
        let (colors, r) ← readBE 4 r
        let (dataLen, r) ← readBE 4 r
        let size ← checkedSub size 20
        if dataLen > size then .error .sizeMismatch
        else
          let (data, _) ← readN dataLen r
          .ok (⟨PicType.fromU8 (UInt8.ofNat ty),
                if mimeStr.isEmpty then none else some (Mime.fromStr mimeStr), desc, data⟩,
              ⟨UInt32.ofNat width, UInt32.ofNat height, UInt32.ofNat depth, UInt32.ofNat colors⟩)

/-- `Picture::from_flac_bytes`, picture/mod.rs 785-796. -/
def fromFlacBytes (bytes : Bytes) (encoded strict : Bool) : Except Err (Pic × Info) :=
  if encoded then
    match b64Decode bytes with
    | none => .error .parse
    | some d => fromFlacInner strict d
  else fromFlacInner strict bytes

/-! ## MIME detection and APE pictures -/

/-- `Picture::mimetype_from_bin`, picture/mod.rs 957-966.  `bytes[..8]` panics on fewer
than eight bytes. -/
def mimeFromBin (bytes : Bytes) : Except Err Mime :=
  match bytes with
  | b0 :: b1 :: b2 :: b3 :: b4 :: b5 :: b6 :: b7 :: _ =>
    if [b0, b1, b2, b3, b4, b5, b6, b7] = [0x89, 0x50, 0x4E, 0x47, 0x0D, 0x0A, 0x1A, 0x0A] then .ok .png
    else if b0 = 0xFF ∧ b1 = 0xD8 then .ok .jpeg
    else if b0 = 0x47 ∧ b1 = 0x49 ∧ b2 = 0x46 ∧ b3 = 0x38 ∧ (b4 = 0x37 ∨ b4 = 0x39) ∧ b5 = 0x61 then
      .ok .gif
    else if b0 = 0x42 ∧ b1 = 0x4D then .ok .bmp
    else if (b0 = 0x49 ∧ b1 = 0x49 ∧ b2 = 0x2A ∧ b3 = 0)
        ∨ (b0 = 0x4D ∧ b1 = 0x4D ∧ b2 = 0 ∧ b3 = 0x2A) then .ok .tiff
    else .error .parse
  | _ => .error .panic

/-- `Picture::as_ape_bytes`, picture/mod.rs 892-903. -/
def asApeBytes (p : Pic) : Bytes :=
  (match p.desc with
    | some d => utf8 d
    | none => []) ++ [0] ++ p.data

/-- The description loop of `from_ape_bytes`, picture/mod.rs 926-934: characters read,
the number of bytes consumed, and the rest. -/
def apeDesc : Bytes → Str × Nat × Bytes
  | [] => ([], 0, [])
  | b :: r => if b = 0 then ([], 1, r) else
    let (t, n, r') := apeDesc r
    (Char.ofNat b.toNat :: t, n + 1, r')

/-- `Picture::from_ape_bytes`, picture/mod.rs 913-955. -/
def fromApeBytes (key : Str) (bytes : Bytes) : Except Err Pic :=
  if bytes.isEmpty then .error .notEnough
  else
    match apeDesc bytes with
    | (desc, pos, r) => do
      let (ident, _) ← readN 8 r
      let mime ← mimeFromBin ident
      .ok ⟨PicType.fromApeKey key, some mime, if desc.isEmpty then none else some desc, bytes.drop pos⟩

/-- `Picture::from_reader`, picture/mod.rs 634-653. -/
def fromReader (data : Bytes) : Except Err Pic :=
  if data.length < 8 then .error .notEnough
  else do
    let mime ← mimeFromBin (data.take 8)
    .ok ⟨.other, some mime, none, data⟩

/-! ## Image dimensions -/

/-- The `PLTE` search of `from_png`, picture/mod.rs 399-421.  `d` is the data of the
cursor from its position; seeking past the end leaves nothing to read. -/
def pngPalette : Nat → Bytes → Except Err Nat
  | 0, _ => .error .diverge
  | fuel + 1, d =>
    match readBE 4 d with
    | .error _ => .ok 0
    | .ok (size, d) =>
      match readN 4 d with
      | .error _ => .ok 0
      | .ok (ty, d) =>
        if ty = ascii "PLTE" then .ok (size / 3)
        else if size + 4 ≥ 2 ^ 32 then .ok 0
        else pngPalette fuel (d.drop (size + 4))

/-- `PictureInformation::from_png`, picture/mod.rs 348-425. -/
def fromPng (data : Bytes) : Except Err Info := do
  let (sig, r) ← readN 8 data
  if sig ≠ [0x89, 0x50, 0x4E, 0x47, 0x0D, 0x0A, 0x1A, 0x0A] then .error .parse
  else
    let (ihdr, r) ← readN 8 r
    if ihdr.drop 4 ≠ ascii "IHDR" then .error .parse
    else
      let (width, r) ← readBE 4 r
      let (height, r) ← readBE 4 r
      let (depth, r) ← readU8 r
      let (ctype, r) ← readU8 r
      let depth := if ctype = 2 then depth.toNat * 3
        else if ctype = 4 ∨ ctype = 6 then depth.toNat * 4 else depth.toNat
      let colors ← if ctype ≠ 3 then .ok 0 else pngPalette (r.length + 1) (r.drop 7)
      .ok ⟨UInt32.ofNat width, UInt32.ofNat height, UInt32.ofNat depth, UInt32.ofNat colors⟩

/-- The marker loop of `from_jpeg`, picture/mod.rs 455-485.  The `u8` product and the
`u16` difference panic on overflow in a debug build. -/
def jpegScan : Nat → Bytes → Except Err Info
  | 0, _ => .error .diverge
  | fuel + 1, d =>
    match readU8 d with
    | .ok (b, d) =>
      if b ≠ 0xFF then .error .parse
      else do
        let (marker, d) ← readU8 d
        let (len, d) ← readBE 2 d
        if marker = 0xDA then .error .parse
        else if marker = 0xC0 ∨ marker = 0xC2 then do
          let (precision, d) ← readU8 d
          let (height, d) ← readBE 2 d
          let (width, d) ← readBE 2 d
          let (components, _) ← readU8 d
          if precision.toNat * components.toNat > 255 then .error .panic
          else .ok ⟨UInt32.ofNat width, UInt32.ofNat height,
            UInt32.ofNat (precision.toNat * components.toNat), 0⟩
        else do
          let n ← checkedSub len 2
          jpegScan fuel (d.drop n)
    | .error _ => .error .parse

/-- `PictureInformation::from_jpeg`, picture/mod.rs 430-486. -/
def fromJpeg (data : Bytes) : Except Err Info := do
  let (marker, r) ← readN 4 data
  if marker.take 3 ≠ [0xFF, 0xD8, 0xFF] then .error .parse
  else
    let (len, r) ← readBE 2 r
    if len < 2 then .error .notEnough
    else jpegScan (r.length + 1) (r.drop (len - 2))

/-- `unwrap_or_default` on a parse error; a panic still unwinds. -/
def orDefault (x : Except Err Info) : Except Err Info :=
  match x with
  | .ok i => .ok i
  | .error .panic => .error .panic
  | .error .diverge => .error .diverge
  | .error _ => .ok Info.default

/-- `PictureInformation::from_picture`, picture/mod.rs 329-341. -/
def infoOf (p : Pic) : Except Err Info :=
  if p.data.length < 8 then .error .notEnough
  else if p.data.take 4 = [0x89, 0x50, 0x4E, 0x47] then orDefault (fromPng p.data)
  else if p.data.take 3 = [0xFF, 0xD8, 0xFF] then orDefault (fromJpeg p.data)
  else .ok Info.default

end Lofty.Picture
