import Verif.Model.Mpeg
/-!
# AAC streams with ADTS headers, `lofty/src/aac`

Modelled: the header of a frame, the search for the next frame, and the averaging of the bit rates with the duration
that follows from it.  Not modelled: the ID3 tags around the frames (`read_from`, aac/read.rs 37-105), and the channel
mask.
-/
namespace Lofty.Aac
open Lofty.Mpeg (Cmp searchSync cmpHeader)

/-- `MpegVersion` as far as ADTS headers use it, mpeg/header.rs 165-175. -/
inductive Version
  | v2 | v4
  deriving DecidableEq, Repr

/-- `AudioObjectType` as far as ADTS headers use it, mp4/properties.rs. -/
inductive ObjectType
  | main | lowComplexity | scalableSampleRate | longTermPrediction
  deriving DecidableEq, Repr

/-- `ADTSHeader`, aac/header.rs 13-24. -/
structure Header where
  version : Version
  objectType : ObjectType
  sampleRate : Nat
  channels : Nat
  copyright : Bool
  original : Bool
  len : Nat
  bitrate : Nat
  bytes : Bytes
  hasCrc : Bool
  deriving DecidableEq, Repr

/-- `SAMPLE_RATES`, mp4/properties.rs 767-769. -/
def sampleRates : List Nat :=
  [96000, 88200, 64000, 48000, 44100, 32000, 24000, 22050, 16000, 12000, 11025, 8000, 7350, 0, 0]

/-- `HEADER_MASK`, aac/header.rs 10. -/
def headerMask : Nat := 0xFFFFFFE0

/-- The audio object type, aac/header.rs 74-80. -/
def objectTypeOf (n : Nat) : Except Err ObjectType :=
  match n + 1 with
  | 1 => .ok .main
  | 2 => .ok .lowComplexity
  | 3 => .ok .scalableSampleRate
  | 4 => .ok .longTermPrediction
  | _ => .error .panic

/-- `ADTSHeader::read` after the seven bytes have been read, aac/header.rs 59-128. -/
def decode (header : Bytes) : Except Err Header :=
  match header with
  | [_, byte2, byte3, byte4, byte5, byte6, _] => do
    let ty ← objectTypeOf ((byte3.toNat >>> 6) &&& 3)
    let idx := (byte3.toNat >>> 2) &&& 15
    if idx = 15 then .error .parse
    else match sampleRates[idx]? with
      | none => .error .panic
      | some rate =>
        let len := ((byte4.toNat &&& 3) <<< 11) ||| (byte5.toNat <<< 3) ||| (byte6.toNat >>> 5)
        .ok { version := if (byte2.toNat >>> 3) &&& 1 = 0 then .v4 else .v2
              objectType := ty
              sampleRate := rate
              channels := ((byte3.toNat &&& 1) <<< 2) ||| ((byte4.toNat >>> 6) &&& 3)
              copyright := (byte4.toNat >>> 4) &&& 1 = 1
              original := (byte4.toNat >>> 5) &&& 1 = 1
              len := len
              bitrate := len * rate / 1024 * 8 / 1024
              bytes := header
              hasCrc := byte2.toNat &&& 1 = 0 }
  | _ => .error .panic

/-- `ADTSHeader::read`, aac/header.rs 27-128, at position `pos`: the header and the position after it. -/
def Header.read (f : Bytes) (pos : Nat) : Except Err (Header × Nat) := do
  let b ← readAt f pos 7
  let h ← decode b
  .ok (h, pos + if h.hasCrc then 9 else 7)

/-- `find_next_frame`, aac/read.rs 160-200, from position `pos`: the header and the end of the frame.  `fuel` bounds the
number of candidates looked at; running out of it stands for not coming back. -/
def findNext (f : Bytes) : Nat → Nat → Except Err (Option (Header × Nat))
  | 0, _ => .error .diverge
  | fuel + 1, pos =>
    match searchSync (f.drop pos) with
    | none => .ok none
    | some rel => do
      let start := pos + rel
      let (h, pos) ← Header.read f start
      match cmpHeader f pos (if h.hasCrc then 9 else 7) h.len (fromBE (h.bytes.take 4)) headerMask with
      | (.equal, _) => .ok (some (h, start + h.len))
      | (.undetermined, _) => .ok none
      | (.notEqual, next) => findNext f fuel next

/-- The loop over all frames, aac/read.rs 139-144: the sum of the bit rates and the number of frames.  Both are 32-bit
numbers; adding beyond that is a panic in checked builds. -/
def average (f : Bytes) : Nat → (pos bitrate count : Nat) → Except Err (Nat × Nat)
  | 0, _, _, _ => .error .diverge
  | fuel + 1, pos, bitrate, count => do
    match ← findNext f (f.length + 1) pos with
    | none => .ok (bitrate, count)
    | some (h, fin) =>
      if 2 ^ 32 ≤ bitrate + h.bitrate ∨ 2 ^ 32 ≤ count + 1 then .error .panic
      else average f fuel fin (bitrate + h.bitrate) (count + 1)

/-- `AACProperties` as far as it is computed here, aac/properties.rs 12-24.  Durations are in milliseconds. -/
structure Props where
  duration : Nat := 0
  bitrate : Nat := 0
  deriving DecidableEq, Repr

/-- `read_properties`, aac/properties.rs, the duration and the bit rate. -/
def properties (bitrate streamLen : Nat) : Except Err Props :=
  if bitrate > 0 then
    if 2 ^ 64 ≤ streamLen * 8 then .error .panic
    else .ok { duration := streamLen * 8 / bitrate, bitrate }
  else .ok {}

/-- The properties part of `read_from`, aac/read.rs 119-151, for the first frame `first` that ends at `fin`. -/
def readProperties (f : Bytes) (strict : Bool) (first : Header) (fin streamLen fuel : Nat) : Except Err Props := do
  if first.sampleRate = 0 ∧ strict = true then .error .parse
  else if first.bitrate = 0 then .error .parse
  else do
    let (bitrate, count) ← average f fuel fin first.bitrate 1
    properties (bitrate / count) streamLen

end Lofty.Aac
