import Verif.Model.Id3v2Frame
import Verif.Model.Picture
/-!
# Contents of ID3v2 frames, `lofty/src/id3/v2/items/*.rs`

A parser gets the reader restricted to the frame's content and returns the content
together with what it left unread; `none` stands for `Ok(None)` ("skip this frame").
Allocation limits are not modelled.
-/
namespace Lofty.Id3v2
open Lofty.Text (Encoding encode decodeText)

/-- The parts of `WriteOptions` (config/write_options.rs) the frame writers look at, and
the byte order of the target (`ne = true` is big endian). -/
structure WriteOpts where
  v23 : Bool
  lossy : Bool
  ne : Bool

/-- `if write_options.use_id3v23 { encoding = encoding.to_id3v23() }`. -/
def WriteOpts.enc (o : WriteOpts) (e : Encoding) : Encoding := if o.v23 then e.toId3v23 else e

/-- `encoding.encode(text, terminated, write_options.lossy_text_encoding)`. -/
def WriteOpts.text (o : WriteOpts) (e : Encoding) (t : Str) (terminated : Bool) : Except Err Bytes :=
  encode o.ne e t terminated o.lossy

/-- `decode_text` with `terminated(true)` and the default (absent) byte order mark. -/
def termText (e : Encoding) (r : Bytes) : Except Err (Text.Decoded × Bytes) := decodeText e true (0, 0) r

/-- `decode_text` of everything that is left. -/
def restText (e : Encoding) (r : Bytes) : Except Err (Text.Decoded × Bytes) := decodeText e false (0, 0) r

/-- `DecodeTextResult::text_or_none`, util/text.rs 261-267. -/
def textOrNone (d : Text.Decoded) : Option Str := if d.content.isEmpty then none else some d.content

/-- `verify_encoding`, frame/content.rs 82-94. -/
def verifyEncoding (b : UInt8) (v : Version) : Except Err Encoding :=
  if v = .v2 ∧ b ≠ 0 ∧ b ≠ 1 then .error .parse else Encoding.ofByte b

/-- `Read::read_u8` where the caller distinguishes the end of the input. -/
def tryU8 : Bytes → Option (UInt8 × Bytes)
  | [] => none
  | b :: r => some (b, r)

/-! ## Text and URLs -/

/-- `TextInformationFrame`, items/text_information_frame.rs 14-20. -/
structure TextF where
  id : FrameId
  enc : Encoding
  value : Str
  deriving DecidableEq, Repr

/-- `TextInformationFrame::parse`, items/text_information_frame.rs 74-102. -/
def TextF.parse (id : FrameId) (v : Version) (r : Bytes) : Except Err (Option TextF × Bytes) :=
  match r with
  | [] => .ok (none, [])
  | b :: r => do
    let enc ← verifyEncoding b v
    let (d, r) ← restText enc r
    .ok (some ⟨id, enc, d.content⟩, r)

/-- `TextInformationFrame::as_bytes`, items/text_information_frame.rs 109-118. -/
def TextF.asBytes (o : WriteOpts) (f : TextF) : Except Err Bytes := do
  let b ← o.text (o.enc f.enc) f.value false
  .ok ((o.enc f.enc).toByte :: b)

/-- `ExtendedTextFrame` and `ExtendedUrlFrame`, items/extended_text_frame.rs 25-35,
items/extended_url_frame.rs 21-29. -/
structure UserF where
  enc : Encoding
  desc : Str
  content : Str
  deriving DecidableEq, Repr

/-- The byte order mark that applies to the text of a UTF-16 `TXXX` frame,
items/extended_text_frame.rs 136-142. -/
def userTextBom (bom : UInt8 × UInt8) (raw : Bytes) : UInt8 × UInt8 :=
  match raw with
  | 0xFF :: 0xFE :: _ => (0xFF, 0xFE)
  | 0xFE :: 0xFF :: _ => (0xFE, 0xFF)
  | _ => bom

/-- The block `'utf16` of `ExtendedTextFrame::parse`, items/extended_text_frame.rs 126-164. -/
def userTextUtf16 (bom : UInt8 × UInt8) (raw : Bytes) : Except Err Str :=
  if raw.isEmpty then .ok []
  else
    let b := userTextBom bom raw
    if b = (0, 0) then .error .badText
    else if b = (0xFF, 0xFE) then Text.utf16DecodeBytes raw false
    else if b = (0xFE, 0xFF) then Text.utf16DecodeBytes raw true
    else .error .panic

/-- The text of a `TXXX` frame behind its description, items/extended_text_frame.rs 111-164. -/
def userTextContent (enc : Encoding) (bom : UInt8 × UInt8) (r : Bytes) : Except Err Str :=
  if enc = .utf16 then userTextUtf16 bom r else (restText enc r).map fun x => x.1.content

/-- `ExtendedTextFrame::parse`, items/extended_text_frame.rs 85-180. -/
def UserF.parseText (v : Version) (r : Bytes) : Except Err (Option UserF × Bytes) :=
  match r with
  | [] => .ok (none, [])
  | b :: r => do
    let enc ← verifyEncoding b v
    let (desc, r) ← termText enc r
    let content ← userTextContent enc desc.bom r
    .ok (some ⟨enc, desc.content, content⟩, [])

/-- `ExtendedTextFrame::as_bytes` and `ExtendedUrlFrame::as_bytes`,
items/extended_text_frame.rs 187-203, items/extended_url_frame.rs 140-156. -/
def UserF.asBytes (o : WriteOpts) (f : UserF) : Except Err Bytes := do
  let d ← o.text (o.enc f.enc) f.desc true
  let c ← o.text (o.enc f.enc) f.content false
  .ok ((o.enc f.enc).toByte :: d ++ c)

/-- `ExtendedUrlFrame::parse`, items/extended_url_frame.rs 88-133. -/
def UserF.parseUrl (v : Version) (r : Bytes) : Except Err (Option UserF × Bytes) :=
  match r with
  | [] => .ok (none, [])
  | b :: r => do
    let enc ← verifyEncoding b v
    let (desc, r) ← termText enc r
    let (content, r) ← restText .latin1 r
    .ok (some ⟨enc, desc.content, content.content⟩, r)

/-- `UrlLinkFrame`, items/url_link_frame.rs 13-17. -/
structure UrlF where
  id : FrameId
  url : Str
  deriving DecidableEq, Repr

/-- `UrlLinkFrame::parse`, items/url_link_frame.rs 61-88. -/
def UrlF.parse (id : FrameId) (r : Bytes) : Except Err (Option UrlF × Bytes) := do
  let (u, r) ← termText .latin1 r
  if u.bytesRead = 0 then .ok (none, r) else .ok (some ⟨id, u.content⟩, r)

/-- `UrlLinkFrame::as_bytes`, items/url_link_frame.rs 95-99. -/
def UrlF.asBytes (o : WriteOpts) (f : UrlF) : Except Err Bytes := o.text .latin1 f.url false

/-! ## Comments and lyrics -/

/-- `LanguageFrame`, items/language_frame.rs 22-27. -/
structure LangF where
  enc : Encoding
  lang : UInt8 × UInt8 × UInt8
  desc : Str
  content : Str
  deriving DecidableEq, Repr

/-- The text behind the description, items/language_frame.rs 60-75. -/
def langContent (enc : Encoding) (bom : UInt8 × UInt8) (r : Bytes) : Except Err (Str × Bytes) :=
  if enc = .utf16 ∧ bom = (0xFF, 0xFE) then (Text.utf16DecodeTerminatedMaybeBom false r).map fun x => (x.1.1, x.2)
  else if enc = .utf16 ∧ bom = (0xFE, 0xFF) then (Text.utf16DecodeTerminatedMaybeBom true r).map fun x => (x.1.1, x.2)
  else (restText enc r).map fun x => (x.1.content, x.2)

/-- `LanguageFrame::parse`, items/language_frame.rs 30-83. -/
def LangF.parse (v : Version) (r : Bytes) : Except Err (Option LangF × Bytes) :=
  match r with
  | [] => .ok (none, [])
  | b :: r => do
    let enc ← verifyEncoding b v
    match r with
    | l1 :: l2 :: l3 :: r => do
      let (desc, r) ← termText enc r
      let (content, r) ← langContent enc desc.bom r
      .ok (some ⟨enc, (l1, l2, l3), desc.content, content⟩, r)
    | _ => .error .eof

/-- `u8::is_ascii_alphabetic`. -/
def isAlphaB (b : UInt8) : Bool := (65 ≤ b.toNat && b.toNat ≤ 90) || (97 ≤ b.toNat && b.toNat ≤ 122)

/-- `LanguageFrame::create_bytes`, items/language_frame.rs 85-111. -/
def LangF.asBytes (o : WriteOpts) (f : LangF) : Except Err Bytes :=
  if (isAlphaB f.lang.1 && isAlphaB f.lang.2.1 && isAlphaB f.lang.2.2) = false then .error .encode
  else do
    let d ← o.text (o.enc f.enc) f.desc true
    let c ← o.text (o.enc f.enc) f.content false
    .ok ((o.enc f.enc).toByte :: f.lang.1 :: f.lang.2.1 :: f.lang.2.2 :: d ++ c)

/-! ## Key-value lists -/

/-- `KeyValueFrame`, items/key_value_frame.rs 14-22. -/
structure KvF where
  id : FrameId
  enc : Encoding
  pairs : List (Str × Str)
  deriving DecidableEq, Repr

/-- The loop of `KeyValueFrame::parse`, items/key_value_frame.rs 113-127.  The fuel is the
number of bytes left plus one; every round but the last consumes bytes. -/
def kvLoop (enc : Encoding) (bom : UInt8 × UInt8) : Nat → Bytes → Except Err (List (Str × Str) × Bytes)
  | 0, _ => .error .diverge
  | n + 1, r => do
    let (k, r) ← decodeText enc true bom r
    let (v, r) ← decodeText enc true bom r
    if k.bytesRead = 0 ∨ v.bytesRead = 0 then .ok ([], r)
    else do
      let (l, r) ← kvLoop enc bom n r
      .ok ((k.content, v.content) :: l, r)

/-- `KeyValueFrame::parse` behind the encoding byte, items/key_value_frame.rs 84-134. -/
def kvPairs (enc : Encoding) (r : Bytes) : Except Err (Option (List (Str × Str)) × Bytes) := do
  let (k, r) ← termText enc r
  if k.bytesRead = 0 then .ok (none, r)
  else do
    let bom := if enc = .utf16 then k.bom else (0, 0)
    let (v, r) ← decodeText enc true bom r
    let (l, r) ← kvLoop enc bom (r.length + 1) r
    .ok (some ((k.content, v.content) :: l), r)

/-- `KeyValueFrame::parse`, items/key_value_frame.rs 65-135. -/
def KvF.parse (id : FrameId) (v : Version) (r : Bytes) : Except Err (Option KvF × Bytes) :=
  match r with
  | [] => .error .eof
  | b :: r => do
    let enc ← verifyEncoding b v
    let (l, r) ← kvPairs enc r
    .ok (l.map fun l => ⟨id, enc, l⟩, r)

/-- The loop of `KeyValueFrame::as_bytes`, items/key_value_frame.rs 150-153. -/
def kvBytes (o : WriteOpts) (e : Encoding) : List (Str × Str) → Except Err Bytes
  | [] => .ok []
  | (k, v) :: l => do
    let kb ← o.text e k true
    let vb ← o.text e v true
    let r ← kvBytes o e l
    .ok (kb ++ vb ++ r)

/-- `KeyValueFrame::as_bytes`, items/key_value_frame.rs 142-155. -/
def KvF.asBytes (o : WriteOpts) (f : KvF) : Except Err Bytes := do
  let b ← kvBytes o (o.enc f.enc) f.pairs
  .ok ((o.enc f.enc).toByte :: b)

/-! ## Pictures -/

/-- `AttachedPictureFrame`, items/attached_picture_frame.rs 18-24. -/
structure PicF where
  enc : Encoding
  pic : Picture.Pic
  deriving DecidableEq, Repr

/-- The picture format, items/attached_picture_frame.rs 85-109. -/
def picMime (v : Version) (r : Bytes) : Except Err (Option Picture.Mime × Bytes) :=
  if v = .v2 then do
    let (f, r) ← readN 3 r
    if f = ascii "PNG" then .ok (some .png, r)
    else if f = ascii "JPG" then .ok (some .jpeg, r)
    else .error .parse
  else do
    let (m, r) ← termText .latin1 r
    .ok ((textOrNone m).map Picture.Mime.fromStr, r)

/-- `AttachedPictureFrame::parse`, items/attached_picture_frame.rs 67-142. -/
def PicF.parse (v : Version) (r : Bytes) : Except Err (PicF × Bytes) := do
  let (b, r) ← readU8 r
  let enc ← Encoding.ofByte b
  let (mime, r) ← picMime v r
  let (t, r) ← readU8 r
  let (d, r) ← termText enc r
  .ok (⟨enc, ⟨Picture.PicType.fromU8 t, mime, textOrNone d, r⟩⟩, [])

/-- `AttachedPictureFrame::as_bytes`, items/attached_picture_frame.rs 152-180. -/
def PicF.asBytes (o : WriteOpts) (f : PicF) : Except Err Bytes := do
  let d ← o.text (o.enc f.enc) (f.pic.desc.getD []) true
  let b := (o.enc f.enc).toByte :: (utf8 ((f.pic.mime.map Picture.Mime.asStr).getD []) ++ 0 :: f.pic.ty.asU8 :: d ++ f.pic.data)
  if b.length > 2 ^ 32 - 1 then .error .tooMuch else .ok b

/-! ## Popularimeter -/

/-- `PopularimeterFrame`, items/popularimeter.rs 16-29; `counter` is a `u64`. -/
structure PopF where
  email : Str
  rating : UInt8
  counter : Nat
  deriving DecidableEq, Repr

/-- `PopularimeterFrame::parse`, items/popularimeter.rs 82-129. -/
def PopF.parse (r : Bytes) : Except Err (PopF × Bytes) := do
  let (e, r) ← termText .latin1 r
  let (rating, r) ← readU8 r
  .ok (⟨e.content, rating, if r.length > 8 then 2 ^ 64 - 1 else fromBE (List.replicate (8 - r.length) 0 ++ r)⟩, [])

/-- The counter as bytes, items/popularimeter.rs 151-158. -/
def counterBytes (n : Nat) : Bytes :=
  if n < 2 ^ 32 then beBytes 4 n
  else
    let b := beBytes 8 n
    b.drop ((b.findIdx? (· ≠ 0)).getD 4)

/-- `PopularimeterFrame::as_bytes`, items/popularimeter.rs 138-161. -/
def PopF.asBytes (o : WriteOpts) (f : PopF) : Except Err Bytes := do
  let e ← o.text .latin1 f.email true
  .ok (e ++ f.rating :: counterBytes f.counter)

/-! ## Owner and data: `PRIV` and `UFID` -/

/-- `PrivateFrame` and `UniqueFileIdentifierFrame`, items/private_frame.rs 16-24,
items/unique_file_identifier.rs 15-22. -/
structure OwnedF where
  owner : Str
  data : Bytes
  deriving DecidableEq, Repr

/-- `PrivateFrame::parse`, items/private_frame.rs 60-100 (Latin-1 never fails to decode). -/
def OwnedF.parsePriv (r : Bytes) : Except Err (Option OwnedF × Bytes) :=
  match termText .latin1 r with
  | .ok (o, r) => .ok (some ⟨o.content, r⟩, [])
  | .error _ => .ok (none, r)

/-- `UniqueFileIdentifierFrame::parse`, items/unique_file_identifier.rs 66-113. -/
def OwnedF.parseUfid (mode : Mode) (r : Bytes) : Except Err (Option OwnedF × Bytes) := do
  let (o, r) ← termText .latin1 r
  if o.content.isEmpty ∧ mode ≠ .bestAttempt then .error .parse
  else .ok (some ⟨o.content, r⟩, [])

/-- `PrivateFrame::as_bytes` and `UniqueFileIdentifierFrame::as_bytes`,
items/private_frame.rs 108-124, items/unique_file_identifier.rs 120-134. -/
def OwnedF.asBytes (o : WriteOpts) (f : OwnedF) : Except Err Bytes := do
  let b ← o.text .latin1 f.owner true
  .ok (b ++ f.data)

/-! ## Timestamps -/

/-- `TimestampFrame`, items/timestamp_frame.rs 14-19. -/
structure TimeF where
  id : FrameId
  enc : Encoding
  time : Timestamp
  deriving DecidableEq, Repr

/-- The use of `Timestamp::parse`, items/timestamp_frame.rs 95-117. -/
def timeContent (id : FrameId) (mode : Mode) (enc : Encoding) (t : Str) : Except Err (Option TimeF) :=
  match Timestamp.parse mode (utf8 t) with
  | .ok (some ts) => .ok (some ⟨id, enc, ts⟩)
  | .ok none => .ok none
  | .error e => if mode = .relaxed then .ok none else .error e

/-- `TimestampFrame::parse`, items/timestamp_frame.rs 68-118. -/
def TimeF.parse (id : FrameId) (mode : Mode) (r : Bytes) : Except Err (Option TimeF × Bytes) :=
  match r with
  | [] => .error .eof
  | b :: r =>
    match Encoding.ofByte b with
    | .error e => if mode = .relaxed then .ok (none, r) else .error e
    | .ok enc => do
      let (d, r) ← restText enc r
      let f ← timeContent id mode enc d.content
      .ok (f, r)

/-- `TimestampFrame::as_bytes`, items/timestamp_frame.rs 127-143. -/
def TimeF.asBytes (o : WriteOpts) (f : TimeF) : Except Err Bytes :=
  if f.time.verify = false then .error .encode
  else do
    let b ← o.text (o.enc f.enc) f.time.fmt false
    .ok ((o.enc f.enc).toByte :: b)

/-! ## Ownership -/

/-- `OwnershipFrame`, items/ownership_frame.rs 17-27. -/
structure OwneF where
  enc : Encoding
  price : Str
  date : Str
  seller : Str
  deriving DecidableEq, Repr

/-- `OwnershipFrame::parse`, items/ownership_frame.rs 77-125. -/
def OwneF.parse (r : Bytes) : Except Err (Option OwneF × Bytes) :=
  match r with
  | [] => .ok (none, [])
  | b :: r => do
    let enc ← Encoding.ofByte b
    let (p, r) ← termText .latin1 r
    let (db, r) ← readN 8 r
    let date ← Text.utf8Decode db
    let (s, r) ← restText enc r
    .ok (some ⟨enc, p.content, date, s.content⟩, r)

/-- `OwnershipFrame::as_bytes`, items/ownership_frame.rs 135-159. -/
def OwneF.asBytes (o : WriteOpts) (f : OwneF) : Except Err Bytes := do
  let p ← o.text .latin1 f.price true
  if (utf8 f.date).length < 8 then .error .encode
  else do
    let s ← o.text (o.enc f.enc) f.seller false
    .ok ((o.enc f.enc).toByte :: p ++ (utf8 f.date).take 8 ++ s)

/-! ## Event timing codes -/

/-- The bytes that have a variant of `EventType`, items/event_timing_codes_frame.rs 137-187. -/
def eventDefined (b : UInt8) : Bool :=
  b.toNat ≤ 0x16 || (0xE0 ≤ b.toNat && b.toNat ≤ 0xEF) || b == 0xFD || b == 0xFE

/-- `EventType::from_u8(b) as u8`, items/event_timing_codes_frame.rs 25-115 and 137-187.  An
event type is represented by its discriminant; `Reserved` has 0xFF. -/
def eventType (b : UInt8) : UInt8 := if eventDefined b then b else 0xFF

/-- `Event`, items/event_timing_codes_frame.rs 194-200; `timestamp` is a `u32`. -/
structure Event where
  ty : UInt8
  time : Nat
  deriving DecidableEq, Repr

/-- `EventTimingCodesFrame`, items/event_timing_codes_frame.rs 217-227; the format is
`TimestampFormat` (items/sync_text.rs 21-26) by its discriminant. -/
structure EtcoF where
  format : UInt8
  events : List Event
  deriving DecidableEq, Repr

/-- `TimestampFormat::try_from`, items/sync_text.rs 49-55. -/
def timeFormat (b : UInt8) : Except Err UInt8 := if b = 1 ∨ b = 2 then .ok b else .error .parse

/-- The loop of `EventTimingCodesFrame::parse`, items/event_timing_codes_frame.rs 282-291. -/
def etcoEvents : Bytes → Except Err (List Event)
  | [] => .ok []
  | t :: a :: b :: c :: d :: r => do
    let l ← etcoEvents r
    .ok (⟨eventType t, fromBE [a, b, c, d]⟩ :: l)
  | _ => .error .eof

/-- `<[Event]>::sort` with `Event::cmp`: a stable sort by time stamp,
items/event_timing_codes_frame.rs 208-212, 294, 324. -/
def sortEvents (l : List Event) : List Event := l.mergeSort fun a b => decide (a.time ≤ b.time)

/-- `EventTimingCodesFrame::parse`, items/event_timing_codes_frame.rs 262-308. -/
def EtcoF.parse (r : Bytes) : Except Err (Option EtcoF × Bytes) :=
  match r with
  | [] => .ok (none, [])
  | b :: r => do
    let f ← timeFormat b
    let l ← etcoEvents r
    .ok (some ⟨f, sortEvents l⟩, [])

/-- `EventTimingCodesFrame::as_bytes`, items/event_timing_codes_frame.rs 319-332. -/
def EtcoF.asBytes (f : EtcoF) : Bytes :=
  f.format :: (sortEvents f.events).flatMap fun e => e.ty :: beBytes 4 e.time

/-! ## Relative volume adjustment -/

/-- `ChannelInformation`, items/relative_volume_adjustment_frame.rs 80-90.  The channel
type is its discriminant, the `i16` adjustment its bit pattern. -/
structure Channel where
  ty : UInt8
  adjust : UInt16
  bits : UInt8
  peak : Option Bytes
  deriving DecidableEq, Repr

/-- `RelativeVolumeAdjustmentFrame`, items/relative_volume_adjustment_frame.rs 95-102.  The
`HashMap` is a list with distinct channel types, in iteration order. -/
structure RvaF where
  ident : Str
  channels : List Channel
  deriving DecidableEq, Repr

/-- `HashMap::insert(channel_type, info)`. -/
def insertChannel (l : List Channel) (c : Channel) : List Channel :=
  if l.any (·.ty == c.ty) then l.map fun d => if d.ty == c.ty then c else d else l ++ [c]

/-- `(u16::from(bits) + 7) >> 3`. -/
def peakLen (bits : UInt8) : Nat := (bits.toNat + 7) / 8

/-- `ChannelType::try_from` as used by the parser,
items/relative_volume_adjustment_frame.rs 61-74 and 179-187. -/
def channelType (mode : Mode) (b : UInt8) : Except Err UInt8 :=
  if b.toNat ≤ 8 then .ok b else if mode = .bestAttempt then .ok 0 else .error .parse

/-- The peak volume, items/relative_volume_adjustment_frame.rs 193-200. -/
def readPeak (bits : UInt8) (r : Bytes) : Except Err (Option Bytes × Bytes) :=
  if bits = 0 then .ok (none, r) else (readN (peakLen bits) r).map fun x => (some x.1, x.2)

/-- The loop of `RelativeVolumeAdjustmentFrame::parse`,
items/relative_volume_adjustment_frame.rs 177-211; the fuel is the number of bytes left plus
one. -/
def rvaLoop (mode : Mode) : Nat → Bytes → List Channel → Except Err (List Channel)
  | 0, _, _ => .error .diverge
  | n + 1, r, l =>
    match r with
    | [] => .ok l
    | t :: r => do
      let ty ← channelType mode t
      let (adjust, r) ← readBE 2 r
      let (bits, r) ← readU8 r
      let (peak, r) ← readPeak bits r
      rvaLoop mode n r (insertChannel l ⟨ty, UInt16.ofNat adjust, bits, peak⟩)

/-- `RelativeVolumeAdjustmentFrame::parse`, items/relative_volume_adjustment_frame.rs 153-225. -/
def RvaF.parse (mode : Mode) (r : Bytes) : Except Err (Option RvaF × Bytes) := do
  let (i, r) ← termText .latin1 r
  let l ← rvaLoop mode (r.length + 1) r []
  .ok (some ⟨i.content, l⟩, [])

/-- `u8::leading_ones`. -/
def leadingOnes (b : UInt8) : Nat :=
  if b.toNat < 128 then 0 else if b.toNat < 192 then 1 else if b.toNat < 224 then 2 else if b.toNat < 240 then 3
  else if b.toNat < 248 then 4 else if b.toNat < 252 then 5 else if b.toNat < 254 then 6
  else if b.toNat < 255 then 7 else 8

/-- The recalculation of the peak bits, items/relative_volume_adjustment_frame.rs 255-263:
`bits_representing_peak += ..` on a `u8`, an overflow panics. -/
def recalcBits (peak : Bytes) : Except Err UInt8 :=
  let n := ((peak.take 32).map leadingOnes).sum
  if n < 256 then .ok (UInt8.ofNat n) else .error .panic

/-- The bits written for a peak. -/
def writtenBits (bits : UInt8) (peak : Bytes) : Except Err UInt8 :=
  if peak.length > peakLen bits then recalcBits peak else .ok bits

/-- One channel, items/relative_volume_adjustment_frame.rs 241-268. -/
def channelBytes (c : Channel) : Except Err Bytes :=
  match c.peak with
  | none => .ok (c.ty :: beBytes 2 c.adjust.toNat ++ [0])
  | some p => do
    let bits ← writtenBits c.bits p
    .ok (c.ty :: beBytes 2 c.adjust.toNat ++ bits :: p.take 32)

/-- All channels. -/
def channelsBytes : List Channel → Except Err Bytes
  | [] => .ok []
  | c :: l => do
    let b ← channelBytes c
    let r ← channelsBytes l
    .ok (b ++ r)

/-- `RelativeVolumeAdjustmentFrame::as_bytes`, items/relative_volume_adjustment_frame.rs 232-271. -/
def RvaF.asBytes (o : WriteOpts) (f : RvaF) : Except Err Bytes := do
  let i ← o.text .latin1 f.ident true
  let b ← channelsBytes f.channels
  .ok (i ++ b)

/-! ## General encapsulated objects, audio texts, synchronised texts

These three are not parsed as part of a tag; the caller converts a binary frame. -/

/-- `GeneralEncapsulatedObject`, items/encapsulated_object.rs 12-25. -/
structure GeobF where
  enc : Encoding
  mime : Option Str
  file : Option Str
  desc : Option Str
  data : Bytes
  deriving DecidableEq, Repr

/-- `GeneralEncapsulatedObject::parse`, items/encapsulated_object.rs 69-102. -/
def GeobF.parse (d : Bytes) : Except Err GeobF :=
  if d.length < 4 then .error .parse
  else do
    let (b, r) ← readU8 d
    let enc ← Encoding.ofByte b
    let (m, r) ← termText .latin1 r
    let (f, r) ← termText enc r
    let (s, r) ← termText enc r
    .ok ⟨enc, textOrNone m, textOrNone f, textOrNone s, r⟩

/-- `GeneralEncapsulatedObject::as_bytes`, items/encapsulated_object.rs 111-142. -/
def GeobF.asBytes (o : WriteOpts) (f : GeobF) : Except Err Bytes := do
  let n ← o.text (o.enc f.enc) (f.file.getD []) true
  let s ← o.text (o.enc f.enc) (f.desc.getD []) true
  .ok ((o.enc f.enc).toByte :: utf8 (f.mime.getD []) ++ 0 :: n ++ s ++ f.data)

/-- `AudioTextFrame`, items/audio_text_frame.rs 50-74. -/
structure AtxtF where
  enc : Encoding
  mime : Str
  scrambling : Bool
  text : Str
  audio : Bytes
  deriving DecidableEq, Repr

/-- `AudioTextFrame::parse`, items/audio_text_frame.rs 131-164, with
`AudioTextFrameFlags::from_u8`, 28-32. -/
def AtxtF.parse (d : Bytes) : Except Err AtxtF :=
  if d.length < 4 then .error .parse
  else do
    let (b, r) ← readU8 d
    let enc ← Encoding.ofByte b
    let (m, r) ← termText .latin1 r
    let (fl, r) ← readU8 r
    let (t, r) ← termText enc r
    .ok ⟨enc, m.content, fl &&& 1 != 0, t.content, r⟩

/-- `AudioTextFrame::as_bytes`, items/audio_text_frame.rs 173-195, with
`AudioTextFrameFlags::as_u8`, 37-45. -/
def AtxtF.asBytes (o : WriteOpts) (f : AtxtF) : Except Err Bytes := do
  let m ← o.text .latin1 f.mime true
  let t ← o.text (o.enc f.enc) f.text true
  .ok ((o.enc f.enc).toByte :: m ++ (if f.scrambling then 1 else 0) :: t ++ f.audio)

/-- The next byte of the scrambling table, items/audio_text_frame.rs 204-222. -/
def scrambleNext (b : UInt8) : UInt8 :=
  let bit (i : Nat) : UInt8 := (b >>> UInt8.ofNat i) &&& 1
  ((bit 6 ^^^ bit 5) <<< 7) + ((bit 5 ^^^ bit 4) <<< 6) + ((bit 4 ^^^ bit 3) <<< 5) + ((bit 3 ^^^ bit 2) <<< 4)
    + ((bit 2 ^^^ bit 1) <<< 3) + ((bit 1 ^^^ bit 0) <<< 2) + ((bit 7 ^^^ bit 5) <<< 1) + (bit 6 ^^^ bit 4)

/-- The loop that fills `SCRAMBLING_TABLE`, items/audio_text_frame.rs 198-233: the bytes from `b` on, until
the next one would be 0xFE. -/
def scrambleTableFrom : Nat → UInt8 → Bytes
  | 0, _ => []
  | n + 1, b => b :: (if scrambleNext b = 0xFE then [] else scrambleTableFrom n (scrambleNext b))

/-- `SCRAMBLING_TABLE`, items/audio_text_frame.rs 198-233; the array has 127 entries, what the loop does not
reach stays 0. -/
def scrambleTable : Bytes :=
  let t := scrambleTableFrom 127 0xFE
  t ++ List.replicate (127 - t.length) 0

/-- The loop of `scramble`, items/audio_text_frame.rs 238-248. -/
def scrambleFrom (idx : Nat) : Bytes → Bytes
  | [] => []
  | b :: r => (b ^^^ scrambleTable.getD idx 0) :: scrambleFrom (if idx = 126 then 0 else idx + 1) r

/-- `scramble`, items/audio_text_frame.rs 238-248. -/
def scramble (d : Bytes) : Bytes := scrambleFrom 0 d

/-- `SynchronizedTextFrame`, items/sync_text.rs 120-135.  Formats and content types are their
discriminants, times are `u32`. -/
structure SyltF where
  enc : Encoding
  lang : UInt8 × UInt8 × UInt8
  format : UInt8
  kind : UInt8
  desc : Option Str
  content : List (Nat × Str)
  deriving DecidableEq, Repr

/-- One text of a `SYLT` frame: content, bytes read and rest, items/sync_text.rs 239-253. -/
def syltText (enc : Encoding) (bom : UInt8 × UInt8) (r : Bytes) : Except Err ((Str × Nat) × Bytes) :=
  if enc = .utf16 ∧ bom = (0xFF, 0xFE) then Text.utf16DecodeTerminatedMaybeBom false r
  else if enc = .utf16 ∧ bom = (0xFE, 0xFF) then Text.utf16DecodeTerminatedMaybeBom true r
  else (termText enc r).map fun x => ((x.1.content, x.1.bytesRead), x.2)

/-- The loop of `SynchronizedTextFrame::parse`, items/sync_text.rs 233-259; `todo` is
`total - pos`, which may become negative in the last round (a lost byte is not counted); the fuel is the
number of bytes plus one. -/
def syltLoop (enc : Encoding) (bom : UInt8 × UInt8) : Nat → Int → Bytes → Except Err (List (Nat × Str))
  | 0, _, _ => .error .diverge
  | n + 1, todo, r =>
    if todo ≤ 0 then .ok []
    else do
      let ((t, k), r) ← syltText enc bom r
      let (time, r) ← readBE 4 r
      let l ← syltLoop enc bom n (todo - k - 4) r
      .ok ((time, t) :: l)

/-- `SynchronizedTextFrame::parse`, items/sync_text.rs 188-281; `SyncTextContentType::try_from`,
103-116. -/
def SyltF.parse (d : Bytes) : Except Err SyltF :=
  if d.length < 7 then .error .parse
  else match d with
    | b :: l1 :: l2 :: l3 :: f :: k :: r => do
      let enc ← Encoding.ofByte b
      if (isAlphaB l1 && isAlphaB l2 && isAlphaB l3) = false then .error .parse
      else do
        let format ← timeFormat f
        if 8 < k.toNat then .error .parse
        else do
          let (desc, r) ← termText enc r
          let l ← syltLoop enc desc.bom (r.length + 1) r.length r
          .ok ⟨enc, (l1, l2, l3), format, k, textOrNone desc, l⟩
    | _ => .error .parse

/-- The loop of `SynchronizedTextFrame::as_bytes`, items/sync_text.rs 315-318. -/
def syltBytes (o : WriteOpts) (e : Encoding) : List (Nat × Str) → Except Err Bytes
  | [] => .ok []
  | (time, t) :: l => do
    let b ← o.text e t true
    let r ← syltBytes o e l
    .ok (b ++ beBytes 4 time ++ r)

/-- `SynchronizedTextFrame::as_bytes`, items/sync_text.rs 293-325.  The encoding byte written is that of
the frame, not the converted one. -/
def SyltF.asBytes (o : WriteOpts) (f : SyltF) : Except Err Bytes :=
  if (isAlphaB f.lang.1 && isAlphaB f.lang.2.1 && isAlphaB f.lang.2.2) = false then .error .encode
  else do
    let d ← o.text (o.enc f.enc) (f.desc.getD []) true
    let c ← syltBytes o (o.enc f.enc) f.content
    let b := f.enc.toByte :: f.lang.1 :: f.lang.2.1 :: f.lang.2.2 :: f.format :: f.kind :: d ++ c
    if b.length > 2 ^ 32 - 1 then .error .tooMuch else .ok b

end Lofty.Id3v2
