import Verif.Model.Float64
import Verif.Model.Math
import Verif.Model.File
import Verif.Model.ChannelMask
import Verif.Model.Text
/-!
# Audio properties of FLAC, WAV, AIFF and Monkey's Audio

`lofty/src/flac/properties.rs`, `lofty/src/iff/wav/properties.rs`, `lofty/src/iff/aiff/properties.rs`,
`lofty/src/ape/properties.rs` and the 80 bit numbers of `lofty/src/util/math.rs`.  Durations are in milliseconds, bit rates
in kilobits per second.  The readers are given the bytes of the header and the sizes of audio and file.
-/
namespace Lofty.Lossless
open Lofty.Math (divRound)
open Lofty.Float64

/-- `(size as f64) * 8.0 / length + 0.5) as u32`: the bit rates of AIFF (iff/aiff/properties.rs 183-184), WavPack
(wavpack/properties.rs 234 and 237) and Monkey's Audio (ape/properties.rs 263-264). -/
def kbps (size : Nat) (length : F64) : Nat := ((((F64.ofNat size).mul (.fin 8)).div length).add .half).toU 32

/-- `samples * 1000.0 / sample_rate`: the length in milliseconds, iff/aiff/properties.rs 179, wavpack/properties.rs 232,
ape/properties.rs 260. -/
def millis (samples rate : Nat) : F64 := ((F64.ofNat samples).mul (.fin 1000)).div (.ofNat rate)

/-! ## FLAC -/

/-- `FlacProperties`, flac/properties.rs 11-19. -/
structure Flac where
  duration : Nat
  overall : Nat
  audio : Nat
  sampleRate : Nat
  bitDepth : Nat
  channels : Nat
  signature : Nat
  deriving DecidableEq

/-- `read_properties`, flac/properties.rs 72-126.  `total_samples * 1000` fits into 64 bits, as there are 36 bits for the
samples; `file_length * 8` overflows from 2^61 bytes. -/
def flac (info : Bytes) (stream file : Nat) : Except Err Flac := do
  let (_, r) ← readBE 4 info
  let (_, r) ← readBE 6 r
  let (w, r) ← readBE 4 r
  let (low, r) ← readBE 4 r
  let rate := w >>> 12
  let total := ((w &&& 0xF) <<< 32) ||| low
  let (sig, _) ← readBE 16 r
  let p : Flac := ⟨0, 0, 0, rate, ((w >>> 4) &&& 31) + 1, ((w >>> 9) &&& 7) + 1, sig⟩
  if 0 < rate ∧ 0 < total then
    let length := total * 1000 / rate
    if 0 < length ∧ 0 < file ∧ 0 < stream then
      if 2 ^ 64 ≤ file * 8 ∨ 2 ^ 64 ≤ stream * 8 then .error .panic
      else .ok { p with duration := length, overall := (file * 8 / length) % 2 ^ 32, audio := (stream * 8 / length) % 2 ^ 32 }
    else .ok { p with duration := length }
  else .ok p

/-! ## WAV -/

/-- `FmtChunk`, iff/wav/properties.rs 117-126 (`extensible`: the bits per sample that are valid and the channel mask). -/
structure Fmt where
  format : Nat
  channels : Nat
  rate : Nat
  bytesPerSecond : Nat
  blockAlign : Nat
  bits : Nat
  extensible : Option (Nat × Nat)
  deriving DecidableEq

/-- `read_fmt_chunk`, iff/wav/properties.rs 128-173. -/
def readFmt (b : Bytes) : Except Err Fmt := do
  let (format, r) ← readLE 2 b
  let (channels, r) ← readLE 2 r
  let (rate, r) ← readLE 4 r
  let (bps, r) ← readLE 4 r
  let (align, r) ← readLE 2 r
  let (bits, r) ← readLE 2 r
  if format = 0xFFFE then
    if b.length < 40 then .error .parse
    else do
      let (_, r) ← readLE 2 r
      let (valid, r) ← readLE 2 r
      let (mask, r) ← readLE 4 r
      let (format, _) ← readLE 2 r
      .ok ⟨format, channels % 256, rate, bps, align, bits, some (valid, mask)⟩
  else .ok ⟨format, channels % 256, rate, bps, align, bits, none⟩

/-- `WavFormat`, iff/wav/properties.rs 16-23. -/
inductive WavFormat
  | pcm
  | ieeeFloat
  | other (n : Nat)
  deriving DecidableEq

/-- `WavProperties`, iff/wav/properties.rs 34-43. -/
structure Wav where
  format : WavFormat
  duration : Nat
  overall : Nat
  audio : Nat
  sampleRate : Nat
  bitDepth : Nat
  channels : Nat
  mask : Option Nat
  deriving DecidableEq

/-- `x * 8` in 64 bits. -/
def times8 (x : Nat) : Except Err Nat := if 2 ^ 64 ≤ x * 8 then .error .panic else .ok (x * 8)

/-- The bit depth, iff/wav/properties.rs 216-223. -/
def wavDepth (f : Fmt) : Nat :=
  match f.extensible with
  | some (valid, _) => if 0 < valid then valid % 256 else if 0 < f.bits then f.bits % 256
    else min (f.blockAlign / f.channels * 8) 65535 % 256
  | none => if 0 < f.bits then f.bits % 256 else min (f.blockAlign / f.channels * 8) 65535 % 256

/-- The durations and bit rates, iff/wav/properties.rs 239-267: duration, overall bit rate, audio bit rate. -/
def wavTimes (f : Fmt) (samples stream file : Nat) : Except Err (Nat × Nat × Nat) := do
  let audio ← (if 0 < f.bytesPerSecond then do
      let a ← divRound 64 (f.bytesPerSecond * 8) 1000
      .ok (a % 2 ^ 32)
    else .ok 0)
  if 0 < f.rate ∧ 0 < samples then do
    let length ← divRound 64 (samples * 1000) f.rate
    if 0 < length then do
      let x ← times8 file
      let overall ← divRound 64 x length
      if audio = 0 then do
        let a ← divRound 64 (stream * 8) length
        .ok (length, overall % 2 ^ 32, a % 2 ^ 32)
      else .ok (length, overall % 2 ^ 32, audio)
    else .ok (length, 0, audio)
  else if 0 < stream ∧ 0 < f.bytesPerSecond then do
    let length ← divRound 64 (stream * 1000) f.bytesPerSecond
    if 0 < length then do
      let x ← times8 file
      let overall ← divRound 64 x length
      .ok (length, overall % 2 ^ 32, audio)
    else .ok (length, 0, audio)
  else .ok (0, 0, audio)

/-- `read_properties`, iff/wav/properties.rs 175-283. -/
def wav (fmt : Bytes) (fact stream file : Nat) : Except Err Wav :=
  if fmt.length < 16 then .error .parse
  else if stream = 0 then .error .parse
  else do
    let f ← readFmt fmt
    if f.channels = 0 then .error .parse
    else if f.bits % 8 ≠ 0 then .error .parse
    else
      let pcm := f.format = 1 ∨ f.format = 3
      if ¬ pcm ∧ fact = 0 then .error .parse
      else do
        let samples := if 0 < f.bits ∧ (fact = 0 ∨ pcm) then stream / (f.channels * (f.bits / 8)) else fact
        let (duration, overall, audio) ← wavTimes f samples stream file
        .ok ⟨if f.format = 1 then .pcm else if f.format = 3 then .ieeeFloat else .other f.format,
          duration, overall, audio, f.rate, wavDepth f, f.channels, f.extensible.map (·.2)⟩

/-! ## AIFF -/

/-- `F80`, util/math.rs 31-37. -/
structure F80 where
  signed : Bool
  exponent : Nat
  fraction : Nat
  deriving DecidableEq

/-- `F80::from_be_bytes`, util/math.rs 42-56, of ten bytes. -/
def F80.ofBytes (b : Bytes) : F80 :=
  ⟨(b.getD 0 0) &&& 0x80 ≠ 0, (((b.getD 0 0) &&& 0x7F).toNat <<< 8) ||| (b.getD 1 0).toNat, fromBE (b.drop 2)⟩

/-- `F80::as_f64`, util/math.rs 59-92: the bits of the result.  The exponent is computed in 16 bits, extended to 64 and
shifted, which loses its upper bits. -/
def F80.bits (x : F80) : Nat :=
  let sign := if x.signed then 1 else 0
  if x.exponent = 32767 then
    if x.fraction = 0 then (sign <<< 63) ||| (2047 <<< 52) else (sign <<< 63) ||| (2047 <<< 52) ||| (1 <<< 51)
  else if x.fraction = 0 then sign <<< 63
  else
    let e : Nat := (((x.exponent : Int) - 16383 + 1023) % 4096).toNat
    (sign <<< 63) ||| (e <<< 52) ||| ((x.fraction &&& 0x7FFFFFFFFFFFFFFF) >>> 11)

/-- `f64::from_bits` of a number whose sign is positive. -/
def ofBits (b : Nat) : F64 :=
  let e : Nat := (b >>> 52) % 2048
  let m : Nat := b % 2 ^ 52
  if e = 2047 then (if m = 0 then .inf else .nan)
  else if e = 0 then .fin ((m : Rat) * pow2 (-1074))
  else .fin (((2 ^ 52 + m : Nat) : Rat) * pow2 ((e : Int) - 1075))

/-- The sample rate, iff/aiff/properties.rs 170-176. -/
def aiffRate (x : F80) : Except Err Nat :=
  match ofBits x.bits with
  | .fin v => if x.bits.testBit 63 then .error .parse else .ok ((F64.fin v).round.toU 32)
  | _ => .error .parse

/-- `AiffProperties`, iff/aiff/properties.rs 94-102 (the compression type: its four bytes, and the name if the type is not
known). -/
structure Aiff where
  duration : Nat
  overall : Nat
  audio : Nat
  sampleRate : Nat
  sampleSize : Nat
  channels : Nat
  compression : Option (Bytes × Option Str)
  deriving DecidableEq

/-- The types known to the reader, iff/aiff/properties.rs 211-224. -/
def knownTypes : List Bytes :=
  ["NONE", "ACE2", "ACE8", "MAC3", "MAC6", "sowt", "fl32", "fl64", "alaw", "ulaw", "ULAW", "ALAW", "FL32"].map ascii

/-- The compression type, iff/aiff/properties.rs 207-242. -/
def compression (r : Bytes) : Except Err (Bytes × Option Str) := do
  let (ty, r) ← readN 4 r
  if knownTypes.contains ty then .ok (ty, none)
  else do
    let (n, r) ← readU8 r
    if 0 < n.toNat then do
      let (b, _) ← readN n.toNat r
      let name ← Text.utf8Decode b
      .ok (ty, some name)
    else .ok (ty, some [])

/-- `read_properties`, iff/aiff/properties.rs 155-253. -/
def aiff (comm : Bytes) (aifc : Bool) (stream file : Nat) : Except Err Aiff := do
  let (channels, r) ← readBE 2 comm
  if channels = 0 then .error .parse
  else do
    let (frames, r) ← readBE 4 r
    let (size, r) ← readBE 2 r
    let (b, r) ← readN 10 r
    let rate ← aiffRate (F80.ofBytes b)
    let (duration, overall, audio) :=
      if 0 < rate ∧ 0 < frames then
        let length := millis frames rate
        (length.toU 64, kbps file length, kbps stream length)
      else (0, 0, 0)
    if 5 ≤ r.length ∧ aifc then do
      let c ← compression r
      .ok ⟨duration, overall, audio, rate, size, channels, some c⟩
    else .ok ⟨duration, overall, audio, rate, size, channels, none⟩

/-! ## Monkey's Audio -/

/-- `ApeProperties`, ape/properties.rs 13-21. -/
structure Mac where
  version : Nat
  duration : Nat
  overall : Nat
  audio : Nat
  sampleRate : Nat
  bitDepth : Nat
  channels : Nat
  deriving DecidableEq

/-- `verify`, ape/properties.rs 231-243. -/
def macValid (frames channels : Nat) : Bool := 1 ≤ channels ∧ channels ≤ 32 ∧ frames ≠ 0

/-- `get_duration_bitrate`, ape/properties.rs 245-266. -/
def macTimes (p : Mac) (frames final perFrame stream file : Nat) : Mac :=
  let samples := if 1 < final then final + perFrame * (frames - 1) else final
  if 0 < p.sampleRate then
    let length := millis samples p.sampleRate
    { p with duration := (length.add .half).toU 64, audio := kbps stream length, overall := kbps file length }
  else p

/-- The check of `verify` and what follows, ape/properties.rs 144-159 and 212-227. -/
def macFinish (strict : Bool) (p : Mac) (frames final perFrame stream file : Nat) : Except Err Mac :=
  if macValid frames p.channels then .ok (macTimes p frames final perFrame stream file)
  else if strict then .error .parse
  else .ok p

/-- `properties_gt_3980`, ape/properties.rs 95-160, behind the version. -/
def macNew (strict : Bool) (r : Bytes) (version stream file : Nat) : Except Err Mac := do
  match readN 46 r with
  | .error _ => .error .parse
  | .ok (d, r) =>
    let len := fromLE ((d.drop 2).take 4)
    let r := if 52 < len then r.drop (len - 52) else r
    match readN 24 r with
    | .error _ => .error .parse
    | .ok (h, _) => do
      let (perFrame, h) ← readLE 4 (h.drop 4)
      let (final, h) ← readLE 4 h
      let (frames, h) ← readLE 4 h
      let (depth, h) ← readLE 2 h
      let (channels, h) ← readLE 2 h
      let (rate, _) ← readLE 4 h
      macFinish strict ⟨version, 0, 0, 0, rate, depth % 256, channels % 256⟩ frames final perFrame stream file

/-- The blocks of a frame in old files, ape/properties.rs 194-198. -/
def macBlocks (version level : Nat) : Nat :=
  if 3950 ≤ version then 73728 * 4
  else if 3900 ≤ version ∨ (3800 ≤ version ∧ 4000 ≤ level) then 73728
  else 9216

/-- `properties_lt_3980`, ape/properties.rs 162-228, behind the version. -/
def macOld (strict : Bool) (r : Bytes) (version stream file : Nat) : Except Err Mac :=
  match readN 26 r with
  | .error _ => .error .parse
  | .ok (h, _) => do
    let (level, h) ← readLE 2 h
    let (flags, h) ← readLE 2 h
    let depth := if flags &&& 1 = 1 then 8 else if flags &&& 8 = 8 then 24 else 16
    let (channels, h) ← readLE 2 h
    let (rate, h) ← readLE 4 h
    let (_, h) ← readN 8 h
    let (frames, h) ← readLE 4 h
    let (final, _) ← readLE 4 h
    macFinish strict ⟨version, 0, 0, 0, rate, depth, channels % 256⟩ frames final (macBlocks version level) stream file

/-- `read_properties`, ape/properties.rs 74-93, behind `MAC `. -/
def mac (strict : Bool) (r : Bytes) (stream file : Nat) : Except Err Mac :=
  match readLE 2 r with
  | .error _ => .error .parse
  | .ok (version, r) =>
    if 3980 ≤ version then macNew strict r version stream file else macOld strict r version stream file

end Lofty.Lossless
