import Verif.Model.Synchsafe
import Verif.Model.Text
import Verif.Spec.Synchsafe
/-!
# ID3v2 tag header

`lofty/src/id3/v2/header.rs`, `lofty/src/id3/v2/restrictions.rs`, `lofty/src/id3/mod.rs`
(`find_id3v2`) and the header part of `lofty/src/id3/v2/write/mod.rs`.
-/
namespace Lofty.Id3v2

/-- `<u32 as SynchsafeInteger>::synch` on naturals below 2^32 (see `Model/Synchsafe.lean`). -/
def synch (n : Nat) : Option Nat := (Synchsafe.synch32 (BitVec.ofNat 32 n)).map BitVec.toNat

/-- `<u32 as SynchsafeInteger>::unsynch` on naturals below 2^32. -/
def unsynch (n : Nat) : Nat := (Synchsafe.unsynch32 (BitVec.ofNat 32 n)).toNat

/-- `Id3v2Version`, id3/v2/header.rs 13-20. -/
inductive Version
  | v2 | v3 | v4
  deriving DecidableEq, Repr

/-! ## Restrictions -/

/-- `TagSizeRestrictions`, id3/v2/restrictions.rs 4-14. -/
inductive SizeR
  | s128F1M | s64F128K | s32F40K | s32F4K
  deriving DecidableEq, Repr

/-- `TextSizeRestrictions`, id3/v2/restrictions.rs 19-26. -/
inductive TextR
  | c1024 | c128 | c30
  deriving DecidableEq, Repr

/-- `ImageSizeRestrictions`, id3/v2/restrictions.rs 31-38. -/
inductive ImageR
  | p256 | p64 | p64x64
  deriving DecidableEq, Repr

/-- `TagRestrictions`, id3/v2/restrictions.rs 42-59. -/
structure Restrictions where
  size : SizeR
  textEncoding : Bool
  textSize : Option TextR
  imageEncoding : Bool
  imageSize : Option ImageR
  deriving DecidableEq, Repr

/-- `TagRestrictions::from_byte`, id3/v2/restrictions.rs 65-105. -/
def Restrictions.fromByte (b : UInt8) : Restrictions where
  size := if b &&& 0xC0 = 64 then .s64F128K else if b &&& 0xC0 = 128 then .s32F40K
    else if b &&& 0xC0 = 192 then .s32F4K else .s128F1M
  textEncoding := b &&& 0x20 == 0x20
  textSize := if b &&& 0x18 = 8 then some .c1024 else if b &&& 0x18 = 16 then some .c128
    else if b &&& 0x18 = 24 then some .c30 else none
  imageEncoding := b &&& 0x04 == 0x04
  imageSize := if b &&& 0x03 = 1 then some .p256 else if b &&& 0x03 = 2 then some .p64
    else if b &&& 0x03 = 3 then some .p64x64 else none

/-- `TagRestrictions::as_bytes`, id3/v2/restrictions.rs 109-142. -/
def Restrictions.asByte (r : Restrictions) : UInt8 :=
  (match r.size with | .s128F1M => 0 | .s64F128K => 0x40 | .s32F40K => 0x80 | .s32F4K => 0xC0)
  ||| (if r.textEncoding then 0x20 else 0)
  ||| (match r.textSize with | some .c1024 => 0x08 | some .c128 => 0x10 | some .c30 => 0x18 | none => 0)
  ||| (if r.imageEncoding then 0x04 else 0)
  ||| (match r.imageSize with | some .p256 => 0x01 | some .p64 => 0x02 | some .p64x64 => 0x03 | none => 0)

/-! ## The tag header -/

/-- `Id3v2TagFlags`, id3/v2/header.rs 33-52. -/
structure Flags where
  unsynchronisation : Bool
  experimental : Bool
  footer : Bool
  crc : Bool
  restrictions : Option Restrictions
  deriving DecidableEq, Repr

/-- `Id3v2TagFlags::as_id3v24_byte`, id3/v2/header.rs 58-74. -/
def Flags.v24Byte (f : Flags) : UInt8 :=
  (if f.unsynchronisation then 0x80 else 0) ||| (if f.experimental then 0x20 else 0)
    ||| (if f.footer then 0x10 else 0)

/-- `Id3v2TagFlags::as_id3v23_byte`, id3/v2/header.rs 79-91. -/
def Flags.v23Byte (f : Flags) : UInt8 :=
  (if f.experimental then 0x40 else 0) ||| (if f.footer then 0x10 else 0)

/-- `Id3v2Header`, id3/v2/header.rs 95-101. -/
structure Header where
  version : Version
  flags : Flags
  size : Nat
  extendedSize : Nat
  deriving DecidableEq, Repr

/-- `read_exact` of `n` bytes at offset `pos` of `d`: the bytes and the new offset.  Errors
carry the offset of the reader after the failure (a failing `read_exact` consumes what is
there). -/
def need (d : Bytes) (pos n : Nat) : Except (Err × Nat) (Bytes × Nat) :=
  if pos + n ≤ d.length then .ok ((d.drop pos).take n, pos + n) else .error (.eof, max pos d.length)

/-- `read_extended_header`, id3/v2/header.rs 193-225, from offset `pos` of `d`. -/
def readExtended (d : Bytes) (pos : Nat) (flags : Flags) (size : Nat) : Except (Err × Nat) (Flags × Nat) :=
  if size < 6 then .error (.parse, pos)
  else do
    let (b, pos) ← need d pos 2
    let ext := fromLE (b.drop 1)
    let pos ← (if ext &&& 0x20 = 0x20 then do
      let (_, pos) ← need d pos 6
      .ok pos
    else .ok pos)
    let flags := { flags with crc := if ext &&& 0x20 = 0x20 then true else flags.crc }
    if ext &&& 0x10 = 0x10 then do
      let (r, pos) ← need d pos 2
      .ok ({ flags with restrictions := some (Restrictions.fromByte (UInt8.ofNat (fromLE (r.drop 1)))) }, pos)
    else .ok (flags, pos)

/-- The version of a header by its fourth byte, id3/v2/header.rs 118-125. -/
def versionOf (b : UInt8) : Option Version :=
  if b = 2 then some .v2 else if b = 3 then some .v3 else if b = 4 then some .v4 else none

/-- The flags of the header byte, id3/v2/header.rs 136-144. -/
def headerFlags (v : Version) (b : UInt8) : Flags where
  unsynchronisation := b &&& 0x80 == 0x80
  experimental := v != .v2 && b &&& 0x20 == 0x20
  footer := v != .v2 && b &&& 0x10 == 0x10
  crc := false
  restrictions := none

/-- The extended header, id3/v2/header.rs 149-173: extended size, flags and new offset.
In an unsynchronised v2.3 tag the extended header is read through an
`UnsynchronizedStream` (`Synchsafe.desync`, justified by `unsync_reads`), whose 8 KiB buffer
is filled from the reader and thrown away. -/
def readExtHeader (d : Bytes) (pos : Nat) (v : Version) (flags : Flags) :
    Except (Err × Nat) (Nat × Flags × Nat) :=
  match v with
  | .v2 => .ok (0, flags, pos)
  | .v4 => do
    let (b, pos) ← need d pos 4
    let size := unsynch (fromBE b)
    let (flags, pos) ← readExtended d pos flags size
    .ok (size, flags, pos)
  | .v3 =>
    if flags.unsynchronisation then
      let stop := min d.length (pos + 8192)
      let inner := Synchsafe.desync ((d.drop pos).take 8192)
      let r : Except (Err × Nat) (Nat × Flags) := do
        let (b, p) ← need inner 0 4
        let (flags, _) ← readExtended inner p flags (fromBE b)
        .ok (fromBE b, flags)
      match r with
      | .ok (size, flags) => .ok (size, flags, stop)
      | .error (e, _) => .error (e, stop)
    else do
      let (b, pos) ← need d pos 4
      let (flags, pos) ← readExtended d pos flags (fromBE b)
      .ok (fromBE b, flags, pos)

/-- The decoding of the ten header bytes, id3/v2/header.rs 113-185, with the reader at
offset `pos` (behind the ten bytes). -/
def decodeHeader (d h : Bytes) (pos : Nat) : Except (Err × Nat) (Header × Nat) :=
  if h.take 3 ≠ ascii "ID3" then .error (.parse, pos)
  else match versionOf (h.getD 3 0) with
    | none => .error (.parse, pos)
    | some v =>
      let b := h.getD 5 0
      if v = .v2 ∧ b &&& 0x40 = 0x40 then .error (.parse, pos)
      else
        let flags := headerFlags v b
        let size := unsynch (fromBE (h.drop 6))
        do
          let (ext, flags, pos) ← (if v ≠ .v2 ∧ b &&& 0x40 = 0x40 then readExtHeader d pos v flags
            else .ok (0, flags, pos))
          if ext > 0 ∧ ext ≥ size then .error (.parse, pos)
          else .ok (⟨v, flags, size, ext⟩, pos)

/-- `Id3v2Header::parse`, id3/v2/header.rs 104-185, from offset `pos` of `d`. -/
def parseHeader (d : Bytes) (pos : Nat) : Except (Err × Nat) (Header × Nat) := do
  let (h, pos) ← need d pos 10
  decodeHeader d h pos

/-- `Id3v2Header::full_tag_size`, id3/v2/header.rs 188-190. -/
def Header.fullTagSize (h : Header) : Nat := h.size + 10 + h.extendedSize + if h.flags.footer then 10 else 0

/-! ## Finding the tag -/

/-- `find_id3v2_in_junk`, id3/mod.rs 231-249: offset of the first `ID3` in `d`. -/
def findInJunk : Bytes → Option Nat
  | [] => none
  | b :: d => if (b :: d).take 3 = ascii "ID3" then some 0 else (findInJunk d).map (· + 1)

/-- The part of `find_id3v2` after the junk search, id3/mod.rs 205-226: the tag found (with
its content if `read`) and the new position.  A failed header parse seeks ten bytes back
from wherever the parser stopped; seeking before the start of the stream is an error. -/
def findAt (f : Bytes) (pos : Nat) (read : Bool) : Except Err (Option (Header × Option Bytes) × Nat) :=
  match parseHeader f pos with
  | .error (_, p) => if p < 10 then .error .parse else .ok (none, p - 10)
  | .ok (h, p) =>
    let tail := fun (c : Option Bytes) (p : Nat) =>
      (.ok (some (h, c), if h.flags.footer then p + 10 else p) : Except Err _)
    if read then
      match need f p h.size with
      | .ok (c, p) => tail (some c) p
      | .error (e, _) => .error e
    else tail none (p + h.size)

/-- `find_id3v2`, id3/mod.rs 176-227, from position `pos` of the file `f`. -/
def find (f : Bytes) (pos : Nat) (read : Bool) (junk : Option Nat) :
    Except Err (Option (Header × Option Bytes) × Nat) :=
  match junk with
  | none => findAt f pos read
  | some w =>
    match findInJunk ((f.drop pos).take w) with
    | none => .ok (none, pos)
    | some off => findAt f (pos + off) read

/-! ## Writing the header -/

/-- The extended header bytes and their length, `create_tag_header`,
id3/v2/write/mod.rs 210 and 221-259 (before the CRC is filled in). -/
def extHeader (fl : Flags) : Except Err Bytes :=
  if fl.crc || fl.restrictions.isSome then
    let size := 6 + (if fl.crc then 6 else 0) + (if fl.restrictions.isSome then 2 else 0)
    match synch size with
    | none => .error .tooMuch
    | some s => .ok (beBytes 4 s ++ [1, (if fl.crc then 0x20 else 0) ||| (if fl.restrictions.isSome then 0x10 else 0)]
        ++ (if fl.crc then List.replicate 6 0 else [])
        ++ (match fl.restrictions with | some r => [1, r.asByte] | none => []))
  else .ok []

/-- One entry of `CRC32_TABLE`, id3/v2/write/mod.rs 23-34: eight steps from `n`. -/
def crcTableEntry (n : BitVec 32) : BitVec 32 :=
  (List.range 8).foldl (fun acc _ =>
    if acc &&& 1#32 = 1#32 then 0xEDB88320#32 ^^^ (acc >>> 1) else acc >>> 1) n

/-- `calculate_crc`, id3/v2/write/mod.rs 265-286. -/
def calculateCrc (content : Bytes) : Bytes :=
  let crc : BitVec 32 := ~~~ (content.foldl (fun (crc : BitVec 32) octet =>
    (crc >>> 8) ^^^ crcTableEntry (((crc &&& 0xFF#32) ^^^ octet.toBitVec.setWidth 32) &&& 0xFF#32)) 0xFFFFFFFF#32)
  (List.range 5).map fun i => UInt8.ofBitVec ((crc >>> ((4 - i) * 7)).setWidth 8 &&& 0x7F#8)

/-- `create_tag`, id3/v2/write/mod.rs 95-192, given the serialised frames `body` (there is
at least one frame) and the preferred padding.  The content slice of the CRC starts at 22,
or at 25 with restrictions, and is out of range (a panic) for shorter tags. -/
def createTag (fl : Flags) (v23 : Bool) (padding : Option Nat) (body : Bytes) : Except Err Bytes := do
  let ext ← extHeader fl
  let pad := if fl.footer then 0 else padding.getD 0
  match synch ((ext.length + (body.length + pad)) % 2 ^ 32) with
  | none => .error .tooMuch
  | some s =>
    let header := ascii "ID3" ++ [if v23 then 3 else 4, 0, if v23 then fl.v23Byte else fl.v24Byte] ++ beBytes 4 s
    let tag := header ++ ext ++ body
    let tag ← (if fl.crc then
      let start := if fl.restrictions.isSome then 25 else 22
      if start ≤ tag.length then .ok (writeSlice tag 16 (5 :: calculateCrc (tag.drop start))) else .error .panic
    else .ok tag)
    if fl.footer then .ok (tag ++ ascii "3DI" ++ (tag.drop 3).take 7)
    else .ok (tag ++ List.replicate pad 0)
where
  /-- Overwriting at an offset inside the buffer. -/
  writeSlice (t : Bytes) (pos : Nat) (w : Bytes) : Bytes := t.take pos ++ w ++ t.drop (pos + w.length)

end Lofty.Id3v2
