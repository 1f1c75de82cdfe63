import Verif.Model.Ogg
import Verif.Model.Rfind
import Verif.Model.Math
import Verif.Model.ChannelMask
/-!
# Audio properties of OGG streams

Models `lofty/src/ogg/mod.rs` (the search for the last page), `ogg/read.rs` (the header packets) and the
`read_properties` functions of Opus, Vorbis and Speex.  Durations are in milliseconds.  Signed fields are kept as the
32 or 16 bits read, with `signed` for their value.  `usize` is 64 bits wide.
-/
namespace Lofty.OggProps
open Lofty.Ogg Lofty.Rfind
open Lofty.Math (divRound)

/-- `MAX_CONTENT_SIZE / 4`, ogg_pager/src/lib.rs 23 and ogg/mod.rs 53. -/
def bufferSize : Nat := 255 * 255 / 4

/-- The retry loop of `find_last_page`, ogg/mod.rs 65-92, with the reader at `cur`: the start of the page whose header
could be read.  Every retry moves `cur` backwards, so `cur + 1` rounds are enough. -/
def lastHeader (f : Bytes) (headerEnd : Nat) : Nat → Nat → Except Err Nat
  | 0, _ => .error .diverge
  | fuel + 1, cur =>
    match PageHeader.read cur (f.drop cur) with
    | .ok (h, _) => .ok h.start
    | .error .parse =>
      match search f (ascii "OggS") bufferSize cur .fromCurrent (.pos headerEnd) with
      | .error e => .error e
      | .ok (false, _) => .error .parse
      | .ok (true, p) => lastHeader f headerEnd fuel p
    | .error e => .error e

/-- `find_last_page`, ogg/mod.rs 48-97, with the reader at `headerEnd`. -/
def findLastPage (f : Bytes) (headerEnd : Nat) : Except Err Page :=
  match search f (ascii "OggS") bufferSize headerEnd .fromEnd .fromCurrent with
  | .error e => .error e
  | .ok (false, _) => .error .parse
  | .ok (true, p) => do
    let start ← lastHeader f headerEnd (p + 1) p
    let (page, _) ← Page.read start (f.drop start)
    .ok page

/-- `verify_signature`, ogg/mod.rs 32-43. -/
def hasSignature (content sig : Bytes) : Bool := sig.length ≤ content.length ∧ content.take sig.length = sig

/-- What `ogg::read::read_from`, ogg/read.rs 10-53, hands to `read_properties`: the granule position of the first page,
the header packets and the position of the reader.  The comments themselves are in Model/Vorbis. -/
structure Headers where
  firstAbgp : Nat
  ident : Bytes
  comment : Bytes
  stop : Nat
  deriving DecidableEq

/-- `ogg::read::read_from`, ogg/read.rs 10-53, of a file read from its start, without parsing the comments.  `get(1)` is
only asked for when tags are read; `read_count` has already made sure that it is there. -/
def readHeaders (f identSig commentSig : Bytes) (count : Int) (readTags : Bool) : Except Err Headers := do
  let (first, _) ← PageHeader.read 0 f
  let (packets, rest) ← Packets.readCount f count
  let ident? ← packets.get 0
  let comment? ← packets.get 1
  match ident?, comment?, rest with
  | some ident, some comment, some rest =>
    if hasSignature ident identSig = false then .error .parse
    else if readTags ∧ hasSignature comment commentSig = false then .error .parse
    else .ok ⟨first.abgp, ident, comment, f.length - rest.length⟩
  | _, _, _ => .error .parse

/-- A `u64` product; overflow panics in checked builds. -/
def mulU64 (a b : Nat) : Except Err Nat := if 2 ^ 64 ≤ a * b then .error .panic else .ok (a * b)

/-- A `u64` difference; underflow panics in checked builds. -/
def subU64 (a b : Nat) : Except Err Nat := if a < b then .error .panic else .ok (a - b)

/-- A `u64` quotient; a zero divisor panics. -/
def divU64 (a b : Nat) : Except Err Nat := if b = 0 then .error .panic else .ok (a / b)

/-- `saturating_mul` of `u64`. -/
def satMul (a b : Nat) : Nat := min (a * b) (2 ^ 64 - 1)

/-- The value of a two's complement number of `w` bits. -/
def signed (w n : Nat) : Int := if n < 2 ^ (w - 1) then n else n - 2 ^ w

/-! ## Opus -/

/-- `OpusProperties`, ogg/opus/properties.rs 16-25; the output gain is kept as 16 bits. -/
structure Opus where
  duration : Nat
  overall : Nat
  audio : Nat
  channels : Nat
  mask : Nat
  version : Nat
  rate : Nat
  gain : Nat
  deriving DecidableEq, Repr

/-- The fields of the identification packet, opus/properties.rs 100-122. -/
structure OpusIdent where
  version : Nat
  channels : Nat
  preSkip : Nat
  rate : Nat
  gain : Nat
  family : Nat
  deriving DecidableEq, Repr

/-- opus/properties.rs 102-111. -/
def opusIdent (ident : Bytes) : Except Err OpusIdent := do
  let (version, r) ← readU8 (ident.drop 8)
  let (channels, r) ← readU8 r
  let (preSkip, r) ← readLE 2 r
  let (rate, r) ← readLE 4 r
  let (gain, r) ← readLE 2 r
  let (family, _) ← readU8 r
  .ok ⟨version.toNat, channels.toNat, preSkip, rate, gain, family.toNat⟩

/-- opus/properties.rs 132-157: duration and bit rates from the granule positions, the size of the file and of its two
header packets. -/
def opusTimes (first last preSkip fileLen headers : Nat) : Except Err (Nat × Nat × Nat) :=
  let total := last - first - preSkip
  if 0 < total then do
    let a ← mulU64 total 1000
    let length ← divRound 64 a 48000
    let stream ← subU64 fileLen headers
    let b ← mulU64 fileLen 8
    let overall ← divU64 b length
    let c ← mulU64 stream 8
    let audio ← divU64 c length
    .ok (length, overall % 2 ^ 32, audio % 2 ^ 32)
  else .ok (0, 0, 0)

/-- opus/properties.rs 113-122. -/
def opusChannelsBad (i : OpusIdent) : Bool :=
  (i.family = 0 ∧ 2 < i.channels) ∨ (i.family = 1 ∧ 8 < i.channels)

/-- `read_properties`, opus/properties.rs 87-162, given the result of the search for the last page. -/
def opusProperties (h : Headers) (last : Except Err Page) (fileLen : Nat) : Except Err Opus := do
  let i ← opusIdent h.ident
  if opusChannelsBad i then .error .parse
  else
    match Channels.fromOpus i.channels with
    | none => .error .panic
    | some mask =>
      match last with
      | .error _ => .ok ⟨0, 0, 0, i.channels, mask, i.version, i.rate, i.gain⟩
      | .ok page => do
        let (d, o, a) ← opusTimes h.firstAbgp page.header.abgp i.preSkip fileLen (h.ident.length + h.comment.length)
        .ok ⟨d, o, a, i.channels, mask, i.version, i.rate, i.gain⟩

/-- `OPUSHEAD`, `OPUSTAGS`, ogg/constants.rs 6-7. -/
def opusHead : Bytes := ascii "OpusHead"
/-- `OPUSTAGS`, ogg/constants.rs 6. -/
def opusTags : Bytes := ascii "OpusTags"

/-- The properties of `OpusFile::read_from`, ogg/opus/mod.rs 28-46. -/
def readOpus (f : Bytes) (readTags : Bool) : Except Err Opus := do
  let h ← readHeaders f opusHead opusTags 2 readTags
  opusProperties h (findLastPage f h.stop) f.length

/-! ## Vorbis -/

/-- `VorbisProperties`, ogg/vorbis/properties.rs 13-25; the signed bit rates are kept as 32 bits. -/
structure Vorbis where
  duration : Nat
  overall : Nat
  audio : Nat
  rate : Nat
  channels : Nat
  version : Nat
  maximum : Nat
  nominal : Nat
  minimum : Nat
  deriving DecidableEq, Repr

/-- vorbis/properties.rs 118-140: the length used for the bit rate, and the duration. -/
def vorbisLength (first rate : Nat) : Except Err Page → Except Err (Nat × Nat)
  | .error _ => .ok (1000, 0)
  | .ok page =>
    if 0 < rate then
      let total := page.header.abgp - first
      if 0 < total then do
        let l ← divRound 128 (total * 1000) rate
        .ok (l % 2 ^ 64, l % 2 ^ 64)
      else .ok (1000, 0)
    else .ok (1000, 0)

/-- `audio_bitrate`, vorbis/properties.rs 145-147 and speex/properties.rs 186: a positive signed 32 bit number divided by 1000. -/
def nominalRate (n : Nat) : Nat := if 0 < signed 32 n then n / 1000 else 0

/-- `read_properties`, vorbis/properties.rs 88-150. -/
def vorbisProperties (h : Headers) (last : Except Err Page) (fileLen : Nat) : Except Err Vorbis := do
  let (version, r) ← readLE 4 (h.ident.drop 7)
  let (channels, r) ← readU8 r
  let (rate, r) ← readLE 4 r
  let (maximum, r) ← readLE 4 r
  let (nominal, r) ← readLE 4 r
  let (minimum, _) ← readLE 4 r
  let (length, duration) ← vorbisLength h.firstAbgp rate last
  let overall := if length = 0 then 0 else satMul fileLen 8 / length % 2 ^ 32
  .ok ⟨duration, overall, nominalRate nominal, rate, channels.toNat, version, maximum, nominal, minimum⟩

/-- `VORBIS_IDENT_HEAD`, ogg/constants.rs 2. -/
def vorbisHead : Bytes := 1 :: ascii "vorbis"
/-- `VORBIS_COMMENT_HEAD`, ogg/constants.rs 3. -/
def vorbisTags : Bytes := 3 :: ascii "vorbis"

/-- The properties of `VorbisFile::read_from`, ogg/vorbis/mod.rs. -/
def readVorbis (f : Bytes) (readTags : Bool) : Except Err Vorbis := do
  let h ← readHeaders f vorbisHead vorbisTags 3 readTags
  vorbisProperties h (findLastPage f h.stop) f.length

/-! ## Speex -/

/-- `SpeexProperties`, ogg/speex/properties.rs 13-26; the nominal bit rate is kept as 32 bits. -/
structure Speex where
  duration : Nat
  version : Nat
  rate : Nat
  mode : Nat
  channels : Nat
  vbr : Bool
  overall : Nat
  audio : Nat
  nominal : Nat
  deriving DecidableEq, Repr

/-- speex/properties.rs 162-182: the length used for the bit rates, and the duration. -/
def speexLength (first rate : Nat) : Except Err Page → Except Err (Nat × Nat)
  | .error _ => .ok (1000, 0)
  | .ok page =>
    if 0 < rate then
      let total := page.header.abgp - first
      if 0 < total then do
        let a ← mulU64 total 1000
        let l ← divRound 64 a rate
        .ok (l, l)
      else .ok (1000, 0)
    else .ok (1000, 0)

/-- speex/properties.rs 184-192: overall and audio bit rate. -/
def speexRates (nominal fileLen stream length : Nat) : Except Err (Nat × Nat) :=
  if 0 < signed 32 nominal then do
    let o ← divU64 (satMul fileLen 8) length
    .ok (o % 2 ^ 32, nominalRate nominal)
  else do
    let o ← divRound 64 (satMul fileLen 8) length
    let a ← divRound 64 (satMul stream 8) length
    .ok (o % 2 ^ 32, a % 2 ^ 32)

/-- `read_properties`, speex/properties.rs 89-195. -/
def speexProperties (h : Headers) (last : Except Err Page) (fileLen : Nat) : Except Err Speex :=
  if h.ident.length < 80 then .error .parse
  else do
    let (version, r) ← readLE 4 (h.ident.drop 28)
    if 1 < version then .error .parse
    else do
      let (_, r) ← readLE 4 r
      let (rate, r) ← readLE 4 r
      let (mode, r) ← readLE 4 r
      let (_, r) ← readLE 4 r
      let (channels, r) ← readLE 4 r
      if channels ≠ 1 ∧ channels ≠ 2 then .error .parse
      else do
        let (nominal, r) ← readLE 4 r
        let (_, r) ← readLE 4 r
        let (vbr, _) ← readLE 4 r
        let (length, duration) ← speexLength h.firstAbgp rate last
        let (o, a) ← speexRates nominal fileLen (fileLen - (h.ident.length + h.comment.length)) length
        .ok ⟨duration, version, rate, mode, channels, vbr = 1, o, a, nominal⟩

/-- `SPEEXHEADER`, ogg/constants.rs 10. -/
def speexHead : Bytes := ascii "Speex   "

/-- The properties of `SpeexFile::read_from`, ogg/speex/mod.rs; the comment packet has no signature. -/
def readSpeex (f : Bytes) (readTags : Bool) : Except Err Speex := do
  let h ← readHeaders f speexHead [] 2 readTags
  speexProperties h (findLastPage f h.stop) f.length

end Lofty.OggProps
