import Verif.Model.Math
import Verif.Model.Timestamp
/-!
# Musepack streams, `lofty/src/musepack`

Modelled: the packet reader and the properties of stream version 8, and the headers of versions 7 and 4 to 6.  Not
modelled: numbers computed with floating point (replay gains and the duration of version 7, the bit rate of versions 4
to 6), and the tags around the stream (`musepack/read.rs`).
-/
namespace Lofty.Mpc
open Lofty.Math (divRound)

/-- `FREQUENCY_TABLE`, musepack/constants.rs 10. -/
def frequencyTable : List Nat := [44100, 48000, 37800, 32000, 0, 0, 0, 0]

/-- `MPC_DECODER_SYNTH_DELAY`, musepack/constants.rs 16. -/
def synthDelay : Nat := 481

/-- `MPC_FRAME_LENGTH`, musepack/constants.rs 17. -/
def frameLength : Nat := 36 * 32

/-- `PacketReader::read_size`, sv8/read.rs 141-169, after `count` bytes that gave `size`: the size, the number of bytes
it takes, and the rest. -/
def readSizeFrom (size count : Nat) : Bytes → Except Err ((Nat × Nat) × Bytes)
  | [] => .error .eof
  | b :: r =>
    if 9 < count + 1 then .error .tooMuch
    else
      let size := ((size <<< 7) % 2 ^ 64) ||| (b.toNat &&& 0x7F)
      if b.toNat &&& 0x80 = 0 then .ok ((size, count + 1), r)
      else readSizeFrom size (count + 1) r

/-- `PacketReader::read_size`, sv8/read.rs 141-169. -/
def readSize (r : Bytes) : Except Err ((Nat × Nat) × Bytes) := readSizeFrom 0 0 r

/-- `PacketReader`, sv8/read.rs 93-96: the bytes not yet read and how many of them belong to the current packet. -/
structure Reader where
  rest : Bytes
  capacity : Nat
  deriving DecidableEq, Repr

/-- `u8::is_ascii_uppercase` -/
def upper (b : UInt8) : Bool := 65 ≤ b.toNat ∧ b.toNat ≤ 90

/-- `PacketReader::next`, sv8/read.rs 107-136: the key and the size of the content. -/
def Reader.next (s : Reader) : Except Err ((Bytes × Nat) × Reader) := do
  let (key, r) ← readN 2 (s.rest.drop s.capacity)
  if key.all upper = false then .error .parse
  else do
    let ((size, count), r) ← readSize r
    .ok ((key, size - (2 + count)), { rest := r, capacity := size - (2 + count) })

/-- Reading from the current packet: `<PacketReader as Read>::read`, sv8/read.rs 172-178, gives at most the rest of the
packet to `g`. -/
def Reader.within (s : Reader) (g : Bytes → Except Err (α × Bytes)) : Except Err (α × Reader) := do
  let window := s.rest.take s.capacity
  let (a, r) ← g window
  let n := window.length - r.length
  .ok (a, { rest := s.rest.drop n, capacity := s.capacity - n })

/-- `StreamHeader`, sv8/properties.rs 78-101. -/
structure StreamHeader where
  crc : Nat := 0
  streamVersion : Nat := 0
  sampleCount : Nat := 0
  beginningSilence : Nat := 0
  sampleRate : Nat := 0
  maxUsedBands : Nat := 0
  channels : Nat := 0
  msUsed : Bool := false
  audioBlockFrames : Nat := 0
  deriving DecidableEq, Repr

/-- `StreamHeader::read`, sv8/properties.rs 104-151. -/
def StreamHeader.read (r : Bytes) : Except Err (StreamHeader × Bytes) := do
  let (crc, r) ← readBE 4 r
  let (version, r) ← readU8 r
  let ((count, _), r) ← readSize r
  let ((silence, _), r) ← readSize r
  let (b1, r) ← readU8 r
  match frequencyTable[(b1.toNat &&& 0xE0) >>> 5]? with
  | none => .error .panic
  | some rate => do
    let (b2, r) ← readU8 r
    .ok ({ crc, streamVersion := version.toNat, sampleCount := count, beginningSilence := silence, sampleRate := rate,
           maxUsedBands := (b1.toNat &&& 0x1F) + 1, channels := (b2.toNat >>> 4) + 1,
           msUsed := b2.toNat &&& 8 = 8, audioBlockFrames := 4 ^ (b2.toNat &&& 7) }, r)

/-- `ReplayGain`, sv8/properties.rs 167-178. -/
structure ReplayGain where
  version : Nat := 0
  titleGain : Nat := 0
  titlePeak : Nat := 0
  albumGain : Nat := 0
  albumPeak : Nat := 0
  deriving DecidableEq, Repr

/-- `ReplayGain::read`, sv8/properties.rs 181-204. -/
def ReplayGain.read (r : Bytes) : Except Err (ReplayGain × Bytes) := do
  let (version, r) ← readU8 r
  let (titleGain, r) ← readBE 2 r
  let (titlePeak, r) ← readBE 2 r
  let (albumGain, r) ← readBE 2 r
  let (albumPeak, r) ← readBE 2 r
  .ok ({ version := version.toNat, titleGain, titlePeak, albumGain, albumPeak }, r)

/-- `EncoderInfo`, sv8/properties.rs 209-220.  The profile is kept in eighths, as it is stored. -/
structure EncoderInfo where
  profile8 : Nat
  pnsTool : Bool
  major : Nat
  minor : Nat
  build : Nat
  deriving DecidableEq, Repr

/-- `EncoderInfo::read`, sv8/properties.rs 223-248. -/
def EncoderInfo.read (r : Bytes) : Except Err (EncoderInfo × Bytes) := do
  let (b1, r) ← readU8 r
  let (major, r) ← readU8 r
  let (minor, r) ← readU8 r
  let (build, r) ← readU8 r
  .ok ({ profile8 := (b1.toNat &&& 0xFE) >>> 1, pnsTool := b1.toNat &&& 1 = 1, major := major.toNat,
         minor := minor.toNat, build := build.toNat }, r)

/-- What the loop over the packets has found so far, sv8/read.rs 27-32. -/
structure Found where
  streamHeader : Option StreamHeader := none
  replayGain : Option ReplayGain := none
  encoderInfo : Option EncoderInfo := none
  streamLength : Nat := 0
  streamEnd : Bool := false
  deriving DecidableEq, Repr

/-- One packet, sv8/read.rs 35-46.  Adding lengths beyond 64 bits is a panic in checked builds. -/
def packet (key : Bytes) (length : Nat) (s : Reader) (acc : Found) : Except Err (Found × Reader) :=
  if 2 ^ 64 ≤ acc.streamLength + length then .error .panic
  else
    let acc := { acc with streamLength := acc.streamLength + length }
    if key = ascii "SH" then do
      let (h, s) ← s.within StreamHeader.read
      .ok ({ acc with streamHeader := some h }, s)
    else if key = ascii "RG" then do
      let (h, s) ← s.within ReplayGain.read
      .ok ({ acc with replayGain := some h }, s)
    else if key = ascii "EI" then do
      let (h, s) ← s.within EncoderInfo.read
      .ok ({ acc with encoderInfo := some h }, s)
    else if key = ascii "SE" then .ok ({ acc with streamEnd := true }, s)
    else .ok (acc, s)

/-- The loop over the packets, sv8/read.rs 34-47.  `fuel` bounds the number of packets. -/
def packets : Nat → Reader → Found → Except Err Found
  | 0, _, _ => .error .diverge
  | fuel + 1, s, acc =>
    match s.next with
    | .error _ => .ok acc
    | .ok ((key, length), s) => do
      let (acc, s) ← packet key length s acc
      if acc.streamEnd = true then .ok acc else packets fuel s acc

/-- `MpcSv8Properties`, sv8/properties.rs 15-24.  Durations are in milliseconds. -/
structure Sv8 where
  duration : Nat := 0
  averageBitrate : Nat := 0
  streamHeader : StreamHeader
  replayGain : ReplayGain
  encoderInfo : Option EncoderInfo
  deriving DecidableEq, Repr

/-- `read`, sv8/properties.rs 251-301.  Products beyond 64 bits are a panic in checked builds. -/
def sv8Properties (streamLength : Nat) (h : StreamHeader) (gain : ReplayGain) (enc : Option EncoderInfo) :
    Except Err Sv8 :=
  let p : Sv8 := { streamHeader := h, replayGain := gain, encoderInfo := enc }
  if h.beginningSilence > h.sampleCount then .error .parse
  else if h.sampleRate = 0 then .ok p
  else if h.sampleCount = 0 then .ok p
  else
    let total := h.sampleCount - h.beginningSilence
    if total = 0 then .ok p
    else if 2 ^ 64 ≤ total * 1000 then .error .panic
    else do
      let length ← divRound 64 (total * 1000) h.sampleRate
      if 2 ^ 64 ≤ streamLength * 8 ∨ 2 ^ 64 ≤ streamLength * 8 * h.sampleRate then .error .panic
      else .ok { p with duration := length,
                        averageBitrate := (streamLength * 8 * h.sampleRate) / (total * 1000) % 2 ^ 32 }

/-- `read_from`, sv8/read.rs 18-91, from behind the magic bytes. -/
def sv8Read (r : Bytes) (mode : Mode) : Except Err Sv8 := do
  let acc ← packets (r.length + 1) { rest := r, capacity := 0 } {}
  if acc.streamHeader.isNone ∧ mode = .strict then .error .parse
  else if acc.replayGain.isNone ∧ mode = .strict then .error .parse
  else if acc.streamLength = 0 ∧ mode = .strict then .error .parse
  else if acc.streamEnd = false ∧ mode = .strict then .error .parse
  else sv8Properties acc.streamLength (acc.streamHeader.getD {}) (acc.replayGain.getD {}) acc.encoderInfo

/-- `MpcSv7Properties`, sv7/properties.rs 107-133, without the duration and with the replay gain numbers as stored. -/
structure Sv7 where
  averageBitrate : Nat := 0
  channels : Nat := 2
  frameCount : Nat := 0
  intensityStereo : Bool := false
  midSideStereo : Bool := false
  maxBand : Nat := 0
  profile : Nat := 0
  link : Nat := 0
  sampleFreq : Nat := 0
  maxLevel : Nat := 0
  rawTitlePeak : Nat := 0
  rawTitleGain : Nat := 0
  rawAlbumPeak : Nat := 0
  rawAlbumGain : Nat := 0
  trueGapless : Bool := false
  lastFrameLength : Nat := 0
  fastSeekingSafe : Bool := false
  encoderVersion : Nat := 0
  deriving DecidableEq, Repr

/-- The average bit rate of `MpcSv7Properties::read`, sv7/properties.rs 356-384: subtraction below zero, products beyond
64 bits and division by zero panic. -/
def sv7Bitrate (p : Sv7) (streamLength : Nat) : Except Err Sv7 :=
  if p.lastFrameLength > frameLength then .error .tooMuch
  else if p.sampleFreq = 0 then .ok p
  else if p.frameCount = 0 then .ok p
  else
    let minus := if p.trueGapless then frameLength - p.lastFrameLength else synthDelay
    if p.frameCount * frameLength < minus then .error .panic
    else
      let total := p.frameCount * frameLength - minus
      if 2 ^ 64 ≤ streamLength * 8 ∨ 2 ^ 64 ≤ streamLength * 8 * p.sampleFreq ∨ 2 ^ 64 ≤ total * 1000 then .error .panic
      else if total * 1000 = 0 then .error .panic
      else .ok { p with averageBitrate := (streamLength * 8 * p.sampleFreq) / (total * 1000) % 2 ^ 32 }

/-- `MpcSv7Properties::read`, sv7/properties.rs 265-387, from behind the three magic bytes. -/
def sv7Read (r : Bytes) (streamLength : Nat) : Except Err Sv7 := do
  let (version, r) ← readU8 r
  if version.toNat &&& 0x0F ≠ 7 then .error .parse
  else do
    let (frameCount, r) ← readLE 4 r
    let (chunk, r) ← readLE 4 r
    let byte1 := (chunk &&& 0xFF000000) >>> 24
    let byte2 := (chunk &&& 0xFF0000) >>> 16
    match frequencyTable[byte2 &&& 3]? with
    | none => .error .panic
    | some freq => do
      let (titlePeak, r) ← readLE 2 r
      let (titleGain, r) ← readLE 2 r
      let (albumPeak, r) ← readLE 2 r
      let (albumGain, r) ← readLE 2 r
      let (chunk2, r) ← readLE 4 r
      let (encoder, _) ← readU8 r
      sv7Bitrate
        { frameCount, intensityStereo := (byte1 &&& 0x80) >>> 7 = 1, midSideStereo := (byte1 &&& 0x40) >>> 6 = 1,
          maxBand := byte1 &&& 0x3F, profile := (byte2 &&& 0xF0) >>> 4, link := (byte2 &&& 0x0C) >>> 2,
          sampleFreq := freq, maxLevel := chunk &&& 0xFFFF, rawTitlePeak := titlePeak, rawTitleGain := titleGain,
          rawAlbumPeak := albumPeak, rawAlbumGain := albumGain, trueGapless := chunk2 >>> 31 = 1,
          lastFrameLength := if chunk2 >>> 31 = 1 then (chunk2 >>> 20) &&& 0x7FF else 0,
          fastSeekingSafe := (chunk2 >>> 19) &&& 1 = 1, encoderVersion := encoder.toNat } streamLength

/-- `MpcSv4to6Properties`, sv4to6/properties.rs, without the average bit rate. -/
structure Sv4 where
  duration : Nat := 0
  channels : Nat := 2
  frameCount : Nat := 0
  midSideStereo : Bool := false
  streamVersion : Nat := 0
  maxBand : Nat := 0
  sampleRate : Nat := 44100
  deriving DecidableEq, Repr

/-- Reading `n` 32-bit little-endian numbers, `read_u32_into`. -/
def readWords : Nat → Bytes → Except Err (List Nat × Bytes)
  | 0, r => .ok ([], r)
  | n + 1, r => do
    let (w, r) ← readLE 4 r
    let (ws, r) ← readWords n r
    .ok (w :: ws, r)

/-- The duration of `MpcSv4to6Properties::read`, sv4to6/properties.rs 140-147. -/
def sv4Duration (p : Sv4) : Except Err Sv4 :=
  if p.frameCount = 0 then .ok p
  else
    let samples := p.frameCount * frameLength - synthDelay
    if 2 ^ 64 ≤ samples * 1000 then .error .panic
    else do
      let length ← divRound 64 (samples * 1000) p.sampleRate
      .ok { p with duration := length }

/-- `MpcSv4to6Properties::read`, sv4to6/properties.rs 82-162. -/
def sv4Read (r : Bytes) (mode : Mode) : Except Err Sv4 := do
  let (ws, _) ← readWords 8 r
  let w0 := ws.getD 0 0
  let w1 := ws.getD 1 0
  let version := (w0 >>> 11) &&& 0x3FF
  if version < 4 ∨ 6 < version then .error .parse
  else if mode = .strict ∧ (w0 >>> 23) &&& 0x1FF ≠ 0 then .error .parse
  else if mode = .strict ∧ (w0 >>> 22) &&& 1 = 1 then .error .parse
  else if mode = .strict ∧ w0 &&& 0x3F ≠ 1 then .error .parse
  else
    let count := if version ≥ 5 then w1 else w1 >>> 16
    sv4Duration
      { frameCount := if version < 6 then count - 1 else count
        midSideStereo := (w0 >>> 21) &&& 1 = 1
        streamVersion := version
        maxBand := (w0 >>> 6) &&& 0x1F }

end Lofty.Mpc
