import Verif.Model.Math
import Verif.Model.File
/-!
# MPEG audio frames

`lofty/src/mpeg/header.rs`, `constants.rs`, `properties.rs` and the frame search of `read.rs`.
-/
namespace Lofty.Mpeg

/-- `MpegVersion`, mpeg/header.rs 163-175, without the one for AAC. -/
inductive Version
  | v1 | v2 | v25
  deriving DecidableEq, Repr

/-- `Layer`, mpeg/header.rs 177-187. -/
inductive Layer
  | layer1 | layer2 | layer3
  deriving DecidableEq, Repr

/-- `ChannelMode`, mpeg/header.rs 189-201. -/
inductive ChannelMode
  | stereo | jointStereo | dualChannel | singleChannel
  deriving DecidableEq, Repr

/-- `Emphasis`, mpeg/header.rs 203-213. -/
inductive Emphasis
  | ms5015 | reserved | ccitJ17
  deriving DecidableEq, Repr

/-- `version_index`, mpeg/header.rs 240. -/
def Version.index : Version → Nat
  | .v1 => 0
  | _ => 1

/-- `version as usize`, mpeg/header.rs 165-175. -/
def Version.toNat : Version → Nat
  | .v1 => 0
  | .v2 => 1
  | .v25 => 2

/-- `layer_index`, mpeg/header.rs 179-187 and 267. -/
def Layer.index : Layer → Nat
  | .layer1 => 0
  | .layer2 => 1
  | .layer3 => 2

/-- `channel_mode as usize`, mpeg/header.rs 191-201. -/
def ChannelMode.toNat : ChannelMode → Nat
  | .stereo => 0
  | .jointStereo => 1
  | .dualChannel => 2
  | .singleChannel => 3

/-- `BITRATES`, mpeg/constants.rs 1-32. -/
def bitrates : List (List (List Nat)) := [
  [[0, 32, 64, 96, 128, 160, 192, 224, 256, 288, 320, 352, 384, 416, 448, 0],
   [0, 32, 48, 56, 64, 80, 96, 112, 128, 160, 192, 224, 256, 320, 384, 0],
   [0, 32, 40, 48, 56, 64, 80, 96, 112, 128, 160, 192, 224, 256, 320, 0]],
  [[0, 32, 48, 56, 64, 80, 96, 112, 128, 144, 160, 176, 192, 224, 256, 0],
   [0, 8, 16, 24, 32, 40, 48, 56, 64, 80, 96, 112, 128, 144, 160, 0],
   [0, 8, 16, 24, 32, 40, 48, 56, 64, 80, 96, 112, 128, 144, 160, 0]]]

/-- `SAMPLE_RATES`, mpeg/constants.rs 34-38. -/
def sampleRates : List (List Nat) := [[44100, 48000, 32000], [22050, 24000, 16000], [11025, 12000, 8000]]

/-- `SAMPLES`, mpeg/constants.rs 40-49. -/
def samplesTable : List (List Nat) := [[384, 384], [1152, 1152], [1152, 576]]

/-- `SIDE_INFORMATION_SIZES`, mpeg/constants.rs 51-55. -/
def sideInfo : List (List Nat) := [[32, 32, 32, 17], [17, 17, 17, 9], [17, 17, 17, 9]]

/-- `PADDING_SIZES`, mpeg/constants.rs 57. -/
def paddingSizes : List Nat := [4, 1, 1]

/-- Indexing a slice: panics out of range. -/
def idx {α : Type} (l : List α) (i : Nat) : Except Err α :=
  match l[i]? with
  | some x => .ok x
  | none => .error .panic

/-- `Header`, mpeg/header.rs 215-229. -/
structure Header where
  sampleRate : Nat
  len : Nat
  dataStart : Nat
  samples : Nat
  bitrate : Nat
  version : Version
  layer : Layer
  channelMode : ChannelMode
  modeExtension : Option Nat
  copyright : Bool
  original : Bool
  emphasis : Option Emphasis
  deriving DecidableEq, Repr

/-- The version bits, mpeg/header.rs 233-238. -/
def versionOf : Nat → Option Version
  | 0 => some .v25
  | 2 => some .v2
  | 3 => some .v1
  | _ => none

/-- The layer bits, mpeg/header.rs 242-250. -/
def layerOf : Nat → Option Layer
  | 1 => some .layer3
  | 2 => some .layer2
  | 3 => some .layer1
  | _ => none

/-- The channel mode bits, mpeg/header.rs 290-296. -/
def channelModeOf : Nat → ChannelMode
  | 0 => .stereo
  | 1 => .jointStereo
  | 2 => .dualChannel
  | _ => .singleChannel

/-- The emphasis bits, mpeg/header.rs 307-313. -/
def emphasisOf : Nat → Option Emphasis
  | 0 => none
  | 1 => some .ms5015
  | 2 => some .reserved
  | _ => some .ccitJ17

/-- A `u32` product; overflow panics in checked builds. -/
def mulU32 (a b : Nat) : Except Err Nat := if a * b < 2 ^ 32 then .ok (a * b) else .error .panic

/-- `padding`, mpeg/header.rs 283-288. -/
def paddingOf (layer : Layer) (padded : Bool) : Except Err Nat :=
  if padded then idx paddingSizes layer.index else .ok 0

/-- `mode_extension`, mpeg/header.rs 298-302. -/
def modeExtensionOf (cm : ChannelMode) (data : Nat) : Option Nat :=
  if cm = .jointStereo then some (data / 2 ^ 4 % 4) else none

/-- The numbers in a header. -/
structure Numbers where
  sampleRate : Nat
  len : Nat
  dataStart : Nat
  samples : Nat
  bitrate : Nat
  deriving DecidableEq, Repr

/-- The numbers looked up and computed in `Header::read`, mpeg/header.rs 267-288 and 315-318, from the indices of bit rate
and sample rate. -/
def numbers (version : Version) (layer : Layer) (b s : Nat) (padded : Bool) (cm : ChannelMode) : Except Err (Option Numbers) := do
  let t ← idx bitrates version.index
  let t ← idx t layer.index
  let bitrate ← idx t b
  if bitrate = 0 then .ok none
  else if s = 3 then .ok none
  else do
    let t ← idx sampleRates version.toNat
    let sampleRate ← idx t s
    let padding ← paddingOf layer padded
    let t ← idx sideInfo version.index
    let side ← idx t cm.toNat
    let t ← idx samplesTable layer.index
    let samples ← idx t version.index
    let a ← mulU32 samples bitrate
    let a ← mulU32 a 125
    if sampleRate = 0 then .error .panic
    else .ok (some ⟨sampleRate, a / sampleRate + padding, side + 4, samples, bitrate⟩)

/-- `Header::read`, mpeg/header.rs 232-321; `.ok none` is a header that is refused. -/
def Header.read (data : Nat) : Except Err (Option Header) :=
  match versionOf (data / 2 ^ 19 % 4), layerOf (data / 2 ^ 17 % 4) with
  | some version, some layer =>
    let cm := channelModeOf (data / 2 ^ 6 % 4)
    match numbers version layer (data / 2 ^ 12 % 16) (data / 2 ^ 10 % 4) (data / 2 ^ 9 % 2 = 1) cm with
    | .error e => .error e
    | .ok none => .ok none
    | .ok (some n) => .ok (some ⟨n.sampleRate, n.len, n.dataStart, n.samples, n.bitrate, version, layer, cm,
        modeExtensionOf cm data, data / 2 ^ 3 % 2 = 1, data / 2 ^ 2 % 2 = 1, emphasisOf (data % 4)⟩)
  | _, _ => .ok none

/-- `Header::cmp`, mpeg/header.rs 324-328. -/
def Header.cmp (a b : Header) : Bool := a.version = b.version && a.layer = b.layer && a.sampleRate = b.sampleRate

/-- `verify_frame_sync`, mpeg/header.rs 9-11. -/
def verifySync (a b : UInt8) : Bool := a = 0xFF && b >>> 5 = 7

/-- The loop of `search_for_frame_sync`, mpeg/header.rs 34-42: `a` is the byte in front of the rest. -/
def searchFrom (a : UInt8) : Bytes → Nat → Option Nat
  | [], _ => none
  | b :: r, i => if verifySync a b then some i else searchFrom b r (i + 1)

/-- `search_for_frame_sync`, mpeg/header.rs 18-44.  The reader is left two bytes behind the result. -/
def searchSync : Bytes → Option Nat
  | [] => none
  | a :: r => searchFrom a r 0

/-- The loop of `rev_search_for_frame_header`, mpeg/header.rs 68-98, with `k` bytes of the buffer left to look at; `next`
is the byte behind them (`frame_sync[1]`) and `bounds` the size asked for. -/
def revLoop (buf : Bytes) (bounds : Nat) : Nat → UInt8 → Except Err (Option (Nat × Header))
  | 0, _ => .ok none
  | k + 1, next =>
    match buf[k]? with
    | none => .error .panic
    | some b =>
      if verifySync b next then
        -- `i + 1` is `buf.len() - k`
        let start := bounds - (buf.length - k)
        if bounds < buf.length - k then .error .panic
        else if start + 4 > buf.length then revLoop buf bounds k b
        else
          match buf[start + 2]?, buf[start + 3]? with
          | some c, some d =>
            match Header.read (fromBE [b, next, c, d]) with
            | .error e => .error e
            | .ok (some h) => .ok (some (start, h))
            | .ok none => revLoop buf bounds k b
          | _, _ => .error .panic
      else revLoop buf bounds k b

/-- `rev_search_for_frame_header`, mpeg/header.rs 52-101: the new position and the header found. -/
def revSearch (f : Bytes) (pos : Nat) : Except Err (Nat × Option Header) :=
  let bounds := min pos 1024
  let start := pos - bounds
  let buf := (f.drop start).take bounds
  match revLoop buf bounds buf.length 0 with
  | .error e => .error e
  | .ok none => .ok (start, none)
  | .ok (some (rel, h)) => .ok (start + rel, some h)

/-- The search for the last frame in `read_properties`, mpeg/properties.rs 190-209: the position and the header. -/
def lastFrame (f : Bytes) (first : Header) : Nat → Nat → Nat → Except Err (Nat × Option Header)
  | 0, _, _ => .error .diverge
  | fuel + 1, pos, last =>
    if pos = 0 then .ok (last, none)
    else
      match revSearch f pos with
      | .error _ => .ok (last, none)
      | .ok (pos, none) => lastFrame f first fuel pos last
      | .ok (pos, some h) => if h.cmp first then .ok (pos, some h) else lastFrame f first fuel pos pos

/-- `HEADER_MASK`, mpeg/header.rs 112. -/
def headerMask : Nat := 0xFFFE0C00

/-- `HeaderCmpResult`, mpeg/header.rs 104-108. -/
inductive Cmp
  | equal | undetermined | notEqual
  deriving DecidableEq, Repr

/-- `cmp_header`, mpeg/header.rs 126-161, with the reader at `pos`: the result and the new position. -/
def cmpHeader (f : Bytes) (pos headerSize firstLen firstBytes mask : Nat) : Cmp × Nat :=
  let next := pos + (firstLen - headerSize)
  match readAt f next 4 with
  | .error _ => (.undetermined, next)
  | .ok b => (if firstBytes &&& mask = fromBE b &&& mask then .equal else .notEqual, next)

/-- `find_next_frame`, mpeg/read.rs 228-255, from position `pos`: the header and its position. -/
def findNext (f : Bytes) : Nat → Nat → Except Err (Option (Header × Nat))
  | 0, _ => .error .diverge
  | fuel + 1, pos =>
    match searchSync (f.drop pos) with
    | none => .ok none
    | some rel => do
      let start := pos + rel
      let w ← readAt f start 4
      match ← Header.read (fromBE w) with
      | some h =>
        match cmpHeader f (start + 4) 4 h.len (fromBE w) headerMask with
        | (.equal, _) => .ok (some (h, start))
        | (.undetermined, _) => .ok none
        | (.notEqual, next) => findNext f fuel next
      | none => findNext f fuel (start + 4)

/-- `VbrHeaderType`, mpeg/header.rs 331-336. -/
inductive VbrType
  | xing | info | vbri
  deriving DecidableEq, Repr

/-- `VbrHeader`, mpeg/header.rs 338-343. -/
structure Vbr where
  ty : VbrType
  frames : Nat
  size : Nat
  deriving DecidableEq, Repr

/-- `VbrHeader::read`, mpeg/header.rs 346-405. -/
def Vbr.read (r : Bytes) : Except Err (Option Vbr) := do
  let len := r.length
  let (h, r) ← readN 4 r
  if h = ascii "Xing" ∨ h = ascii "Info" then
    if len < 16 then .error .parse
    else do
      let (flags, r) ← readN 4 r
      match flags[3]? with
      | none => .error .panic
      | some b =>
        if b &&& 3 ≠ 3 then .ok none
        else do
          let (frames, r) ← readBE 4 r
          let (size, _) ← readBE 4 r
          .ok (some ⟨if h = ascii "Xing" then .xing else .info, frames, size⟩)
  else if h = ascii "VBRI" then
    if len < 32 then .error .parse
    else do
      let (_, r) ← readBE 6 r
      let (size, r) ← readBE 4 r
      let (frames, _) ← readBE 4 r
      .ok (some ⟨.vbri, frames, size⟩)
  else .ok none

/-- The numbers of `MpegProperties` (mpeg/properties.rs 11-27) that are computed. -/
structure Props where
  duration : Nat
  overall : Nat
  audio : Nat
  sampleRate : Nat
  channels : Nat
  deriving DecidableEq, Repr

/-- A `u64` product; overflow panics in checked builds. -/
def mulU64 (a b : Nat) : Except Err Nat := if a * b < 2 ^ 64 then .ok (a * b) else .error .panic

/-- A division; a zero divisor panics. -/
def divU (a b : Nat) : Except Err Nat := if b = 0 then .error .panic else .ok (a / b)

/-- `channels`, mpeg/properties.rs 145-149. -/
def channelsOf (h : Header) : Nat := if h.channelMode = .singleChannel then 1 else 2

/-- The part of `read_properties` with a valid VBR header, mpeg/properties.rs 157-168. -/
def vbrProperties (first : Header) (v : Vbr) (fileLen : Nat) : Except Err Props := do
  let a ← mulU64 first.samples 1000
  let a ← mulU64 a v.frames
  let length ← Math.divRound 64 a first.sampleRate
  let b ← mulU64 fileLen 8
  let overall ← divU b length
  let c ← mulU64 v.size 8
  let audio ← divU c length
  .ok ⟨length, overall % 2 ^ 32, audio % 2 ^ 32, first.sampleRate, channelsOf first⟩

/-- The part of `read_properties` with the last frame known, mpeg/properties.rs 216-236.  Whether the stream is marked
as having a constant bit rate or not, the bit rate is that of the first frame (184 and 227). -/
def cbrProperties (first : Header) (firstPos lastPos : Nat) (last : Header) (fileLen : Nat) (cbr : Bool) : Except Err Props :=
  let stop := lastPos + last.len
  if stop < firstPos then .ok ⟨0, 0, if cbr then first.bitrate else 0, first.sampleRate, channelsOf first⟩
  else do
    let a ← mulU64 (stop - firstPos) 8
    let length ← Math.divRound 64 a first.bitrate
    let b := min (fileLen * 8) (2 ^ 64 - 1)
    .ok ⟨length, if length = 0 then 0 else b / length % 2 ^ 32, first.bitrate, first.sampleRate, channelsOf first⟩

/-- `read_properties`, mpeg/properties.rs 123-237, for the file `f`. -/
def readProperties (f : Bytes) (first : Header) (firstPos lastPos : Nat) (v : Option Vbr) : Except Err Props :=
  match v with
  | some v =>
    if first.sampleRate > 0 ∧ v.frames > 0 ∧ v.size > 0 then vbrProperties first v f.length
    else rest (v.ty = .info)
  | none => rest false
where
  /-- mpeg/properties.rs 171-236. -/
  rest (cbr : Bool) : Except Err Props :=
    if first.bitrate = 0 then .ok ⟨0, 0, 0, first.sampleRate, channelsOf first⟩
    else do
      match ← lastFrame f first (lastPos + 1) lastPos lastPos with
      | (_, none) => .ok ⟨0, 0, if cbr then first.bitrate else 0, first.sampleRate, channelsOf first⟩
      | (pos, some last) => cbrProperties first firstPos pos last f.length cbr

end Lofty.Mpeg
