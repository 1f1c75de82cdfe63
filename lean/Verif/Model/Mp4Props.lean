import Verif.Model.Mp4Read
import Verif.Model.Lossless
/-!
# The audio properties of an MP4 file

`lofty/src/mp4/properties.rs` and the rest of `read_from` of `lofty/src/mp4/read/mod.rs`.  Durations are in milliseconds, bit
rates in kilobits per second.
-/
namespace Lofty.Mp4Props
open Lofty.Text Lofty.Mp4 Lofty.Ilst Lofty.Mp4Read
open Lofty.Math (divRound)

/-- `Mp4Codec`, mp4/properties.rs 18-27. -/
inductive Codec
  | aac
  | alac
  | mp3
  | flac
  deriving DecidableEq

/-- `AudioObjectType::try_from`, mp4/properties.rs 125-176: which numbers are types; a type is represented by its number. -/
def knownType (n : Nat) : Bool := (1 ≤ n && n ≤ 9) || (12 ≤ n && n ≤ 17) || (19 ≤ n && n ≤ 30) || (32 ≤ n && n ≤ 46)

/-- `Mp4Properties`, mp4/properties.rs 184-195, without the brand. -/
structure Props where
  codec : Option Codec := none
  objectType : Option Nat := none
  duration : Nat := 0
  overall : Option Nat := none
  audio : Option Nat := none
  sampleRate : Option Nat := none
  bitDepth : Option Nat := none
  channels : Option Nat := none
  drm : Bool := false
  deriving DecidableEq

/-- The variables of `find_audio_trak`, mp4/properties.rs 297-299. -/
structure Trak where
  audio : Bool
  mdhd : Option Info
  minf : Option Info
  deriving DecidableEq

/-- The loop over the atoms of a `mdia`, mp4/properties.rs 312-353.  A `minf` is not skipped, its atoms are looked at next. -/
def mdiaLoop (mode : Mode) (len : Nat) : Nat → Rd → Nat → Trak → Except Err Trak
  | 0, _, _, _ => .error .diverge
  | k + 1, r, read, t =>
    if read < len then do
      let (a, r) ← r.next mode
      match a with
      | none => .ok t
      | some a =>
        let read := read + a.len
        if a.ident = .fourcc (ascii "mdhd") then
          let r ← skipAtom r a.extended a.len
          mdiaLoop mode len k r read { t with mdhd := some a }
        else if a.ident = .fourcc (ascii "hdlr") then
          if a.len < 20 then
            let r ← skipAtom r a.extended a.len
            mdiaLoop mode len k r read t
          else do
            let (ty, r) ← (r.skip 8).take 4
            let r ← skipAtom r a.extended (a.len - 12)
            mdiaLoop mode len k r read { t with audio := t.audio || ty = ascii "soun" }
        else if a.ident = .fourcc (ascii "minf") then mdiaLoop mode len k r read { t with minf := some a }
        else
          let r ← skipAtom r a.extended a.len
          mdiaLoop mode len k r read t
    else .ok t

/-- The loop over the tracks, mp4/properties.rs 302-354; every iteration of the inner loop adds at least 8 to `read`. -/
def trakLoop (mode : Mode) (r : Rd) : List Info → Trak → Except Err Trak
  | [], t => .ok t
  | m :: ms, t =>
    if t.audio then .ok t
    else do
      let t ← mdiaLoop mode m.len (m.len + 1) (r.seekStart (m.start + 8)) 8 ⟨false, none, none⟩
      trakLoop mode r ms t

/-- `find_audio_trak`, mp4/properties.rs 288-367: where `mdhd` and `minf` of the first track with audio are. -/
def findAudio (mode : Mode) (r : Rd) (traks : List Info) : Except Err (Info × Option Info) := do
  let t ← trakLoop mode r traks ⟨false, none, none⟩
  if !t.audio then .error .parse
  else
    match t.mdhd with
    | none => .error .parse
    | some m => .ok (m, t.minf)

/-- `Mdhd::parse`, mp4/properties.rs 374-415: the time scale and the duration. -/
def parseMdhd (r : Rd) : Except Err (Nat × Nat) := do
  let (v, r) ← r.raw 1
  let (_, r) ← r.raw 3
  if v = [1] then do
    let (_, r) ← r.raw 8
    let (_, r) ← r.raw 8
    let (t, r) ← r.raw 4
    let (d, _) ← r.raw 8
    .ok (fromBE t, fromBE d)
  else do
    let (_, r) ← r.raw 4
    let (_, r) ← r.raw 4
    let (t, r) ← r.raw 4
    let (d, _) ← r.raw 4
    .ok (fromBE t, fromBE d)

/-- The entries of `stts`, mp4/properties.rs 448-456. -/
def sttsEntries : Nat → Rd → Except Err (List (Nat × Nat) × Rd)
  | 0, r => .ok ([], r)
  | n + 1, r => do
    let (c, r) ← r.take 4
    let (d, r) ← r.take 4
    let (l, r) ← sttsEntries n r
    .ok ((fromBE c, fromBE d) :: l, r)

/-- `Stts::parse`, mp4/properties.rs 432-463; at most `limit` entries are allowed (util/alloc.rs 103-114). -/
def parseStts (limit : Nat) (r : Rd) : Except Err (List (Nat × Nat) × Rd) := do
  let (_, r) ← r.take 4
  let (n, r) ← r.take 4
  if fromBE n > limit then .error .alloc else sttsEntries (fromBE n) r

/-- `parse_stsd`, mp4/properties.rs 505-515: a copy of the atom. -/
def parseStsd (limit : Nat) (r : Rd) (a : Info) : Except Err (Bytes × Rd) :=
  if a.len - 8 > limit then .error .alloc else r.take (a.len - 8)

/-- The loop over the atoms of `stbl`, mp4/properties.rs 496-529.  Freeform atoms are not skipped. -/
def stblLoop (mode : Mode) (limit len : Nat) : Nat → Rd → Nat → Option Bytes × Option (List (Nat × Nat)) →
    Except Err (Option Bytes × Option (List (Nat × Nat)))
  | 0, _, _, _ => .error .diverge
  | k + 1, r, read, t =>
    if read < len then do
      let (a, r) ← r.next mode
      match a with
      | none => .ok t
      | some a =>
        let read := read + a.len
        match a.ident with
        | .freeform _ _ => stblLoop mode limit len k r read t
        | .fourcc id =>
          if id = ascii "stsd" then do
            let (b, r) ← parseStsd limit r a
            stblLoop mode limit len k r read (some b, t.2)
          else if id = ascii "stts" then do
            let (s, r) ← parseStts limit r
            stblLoop mode limit len k r read (t.1, some s)
          else do
            let r ← skipAtom r a.extended a.len
            stblLoop mode limit len k r read t
    else .ok t

/-- `Minf::parse`, mp4/properties.rs 470-540: the content of `stsd` and the entries of `stts`. -/
def parseMinf (mode : Mode) (limit : Nat) (r : Rd) (len : Nat) : Except Err (Option (Bytes × Option (List (Nat × Nat)))) := do
  let (a, r) ← findChild (r.f.length + 1) r len (ascii "stbl") mode
  match a with
  | none => .ok none
  | some a => do
    let t ← stblLoop mode limit a.len (a.len + 1) r 8 (none, none)
    match t.1 with
    | none => .ok none
    | some b => .ok (some (b, t.2))

/-- The length of a descriptor, mp4/properties.rs 1054-1060, of which only the number of its bytes matters. -/
def descLen : Nat → Rd → Except Err Rd
  | 0, r => .ok r
  | n + 1, r => do
    let (b, r) ← r.take 1
    if b.all (· < 0x80) then .ok r else descLen n r

/-- `Descriptor::read`, mp4/properties.rs 1048-1064: the tag. -/
def descriptor (r : Rd) : Except Err (Bytes × Rd) := do
  let (t, r) ← r.take 1
  let r ← descLen 4 r
  .ok (t, r)

/-- `SAMPLE_RATES`, mp4/properties.rs 767-769. -/
def sampleRates : List Nat := [96000, 88200, 64000, 48000, 44100, 32000, 24000, 22050, 16000, 12000, 11025, 8000, 7350, 0, 0]

/-- The sample rate (`none`: as before) and the channel configuration, mp4/properties.rs 861-894. -/
def rateOf (r : Rd) (extended : Bool) (index b : Nat) : Except Err (Option Nat × Nat × Rd) :=
  if index = 15 then do
    let (x, r) ← r.raw 3
    let x := fromBE x
    if extended then .ok (if 0 < x >>> 1 then some (x >>> 1) else none, (x >>> 4) &&& 0xF, r)
    else do
      let (c, r) ← r.raw 1
      .ok (if 0 < x <<< 1 then some (x <<< 1) else none, ((x &&& 0x80) ||| (fromBE c >>> 1)) &&& 0xF, r)
  else if index < 15 then
    if extended then do
      let (c, r) ← r.raw 1
      .ok (some (sampleRates.getD index 0), (b &&& 1) ||| (fromBE c &&& 0xE0), r)
    else .ok (some (sampleRates.getD index 0), (b >>> 3) &&& 0xF, r)
  else .ok (none, (b >>> 3) &&& 0xF, r)

/-- The header of the Audio Lossless Coding, mp4/properties.rs 903-914; `as u8 + 1` overflows. -/
def als (r : Rd) (p : Props) : Except Err Props := do
  let (id, r) ← r.take 5
  if id = [0] ++ ascii "ALS" ++ [0] then do
    let (s, r) ← r.raw 4
    let (c, _) ← (r.skip 4).raw 2
    if fromBE c % 256 = 255 then .error .panic
    else .ok { p with sampleRate := some (fromBE s), channels := some (fromBE c % 256 + 1) }
  else .ok p

/-- The audio specific config, mp4/properties.rs 841-915. -/
def specific (r : Rd) (p : Props) : Except Err Props := do
  let (a, r) ← r.raw 1
  let (b, r) ← r.raw 1
  let a := fromBE a
  let b := fromBE b
  let extended := a >>> 3 = 31
  let type := if extended then 32 + ((a &&& 7) ||| (b >>> 5)) else a >>> 3
  let index := if extended then (b >>> 1) &&& 0xF else ((a &&& 7) <<< 1) ||| (b >>> 7)
  if !knownType type then .error .parse
  else do
    let (rate, conf, r) ← rateOf r extended index b
    let p := { p with objectType := some type, sampleRate := rate.or p.sampleRate, channels := if 0 < conf then some conf else p.channels }
    if type = 36 then als r p else .ok p

/-- The decoder configuration, mp4/properties.rs 810-919. -/
def decoderConfig (r : Rd) (p : Props) : Except Err Props := do
  let (c, r) ← r.raw 1
  let c := fromBE c
  let p := { p with codec :=
    if c = 0x40 ∨ c = 0x41 ∨ c = 0x66 ∨ c = 0x67 ∨ c = 0x68 then some .aac else if c = 0x69 ∨ c = 0x6B then some .mp3 else none }
  let (avg, r) ← (r.skip 8).raw 4
  let avg := fromBE avg
  let (tag, r) ← descriptor r
  let p ← if tag = [5] then specific r p else .ok p
  .ok (if 0 < avg ∨ p.duration = 0 then { p with audio := some (avg / 1000) } else p)

/-- `mp4a_properties`, mp4/properties.rs 771-924. -/
def mp4a (mode : Mode) (r : Rd) (p : Props) : Except Err Props :=
  let p := { p with codec := some .aac }
  match r.next mode with
  | .error .panic => .error .panic
  | .error _ => .ok p
  | .ok (none, _) => .ok p
  | .ok (some a, r) =>
    if a.ident ≠ .fourcc (ascii "esds") then .ok p
    else do
      let (v, r) ← r.raw 4
      if fromBE v ≠ 0 then .ok p
      else do
        let (tag, r) ← descriptor r
        if tag = [3] then do
          let (tag, r) ← descriptor (r.skip 3)
          if tag = [4] then decoderConfig r p else .ok p
        else .ok p

/-- `alac_properties`, mp4/properties.rs 926-978. -/
def alac (mode : Mode) (r : Rd) (p : Props) : Except Err Props :=
  if r.len ≠ 80 then .ok p
  else
    match r.next mode with
    | .error .panic => .error .panic
    | .error _ => .ok p
    | .ok (none, _) => .ok p
    | .ok (some a, r) =>
      if a.ident ≠ .fourcc (ascii "alac") then .ok p
      else do
        let (s, r) ← (r.skip 9).raw 1
        let (c, r) ← (r.skip 3).raw 1
        let (b, r) ← (r.skip 6).raw 4
        let (f, _) ← r.raw 4
        .ok { p with codec := some .alac, bitDepth := some (fromBE s), channels := some (fromBE c), audio := some (fromBE b / 1000),
                     sampleRate := some (fromBE f) }

/-- `flac_properties`, mp4/properties.rs 980-1021, with `Block::read` (flac/block.rs 32-64); `dfla.len - 12` underflows. -/
def flac (mode : Mode) (limit : Nat) (r : Rd) (p : Props) : Except Err Props := do
  let p := { p with codec := some .flac }
  let (a, r) ← r.next mode
  match a with
  | none => .ok p
  | some a =>
    if a.ident ≠ .fourcc (ascii "dfLa") then .ok p
    else if a.len < 12 then .error .panic
    else if a.len - 12 < 18 then .ok p
    else do
      let (_, r) ← (r.skip 4).take 1
      let (n, r) ← r.take 3
      if fromBE n > limit then .error .alloc
      else do
        let (c, _) ← r.take (fromBE n)
        let q ← Lossless.flac c 0 0
        .ok { p with sampleRate := some q.sampleRate, bitDepth := some q.bitDepth, channels := some q.channels }

/-- One entry of `stsd`, mp4/properties.rs 572-666: the properties; `none` for the reader if the loop ends. -/
def stsdEntry (mode : Mode) (limit : Nat) (r : Rd) (p : Props) : Except Err (Props × Option Rd) := do
  let (a, r) ← r.next mode
  match a with
  | none => .error .parse
  | some a =>
    if a.extended then .error .parse
    else
      match a.ident with
      | .freeform _ _ => .error .parse
      | .fourcc id => do
        let (v, r) ← (r.skip 8).raw 2
        let v := fromBE v
        if 2 < v then .error .parse
        else do
          let (c, r) ← (r.skip 6).raw 2
          let (s, r) ← (r.skip 6).raw 4
          let p := { p with channels := some (fromBE c % 256), sampleRate := some (fromBE s >>> 16) }
          let r ← if v = 1 then .ok (r.skip 16)
            else if v = 2 then do
              let (x, r) ← r.raw 4
              .ok (r.skip (32 + fromBE x))
            else .ok r
          if id = ascii "mp4a" then do
            let p ← mp4a mode r p
            .ok (p, none)
          else if id = ascii "alac" then do
            let p ← alac mode r p
            .ok (p, none)
          else if id = ascii "fLaC" then do
            let p ← flac mode limit r p
            .ok (p, none)
          else do
            let p := if id = ascii "drms" then { p with drm := true } else p
            let r' ← skipAtom r false (r.pos - a.start)
            .ok (p, some r')

/-- The loop over the entries of `stsd`, mp4/properties.rs 572-666. -/
def stsdLoop (mode : Mode) (limit : Nat) : Nat → Rd → Props → Except Err Props
  | 0, _, p => .ok p
  | n + 1, r, p => do
    let (p, r) ← stsdEntry mode limit r p
    match r with
    | none => .ok p
    | some r => stsdLoop mode limit n r p

/-- `read_stsd`, mp4/properties.rs 544-671, on a copy of the atom. -/
def readStsd (mode : Mode) (limit : Nat) (b : Bytes) (p : Props) : Except Err Props := do
  let (n, r) ← ((Rd.new b).skip 4).raw 4
  stsdLoop mode limit (fromBE n) r p

/-- `mdat_length`, mp4/properties.rs 1024-1041: the length of the first `mdat`. -/
def mdatLength (mode : Mode) : Nat → Rd → Except Err Nat
  | 0, _ => .error .diverge
  | k + 1, r =>
    match r.next mode with
    | .error .panic => .error .panic
    | .error _ => .error .parse
    | .ok (none, _) => .error .parse
    | .ok (some a, r) =>
      if a.ident = .fourcc (ascii "mdat") then .ok (a.len - 8)
      else do
        let r ← skipAtom r a.extended a.len
        mdatLength mode k r

/-- The bit rates, mp4/properties.rs 722-759. -/
def bitrates (p : Props) (timescale duration mdat file : Nat) (stts : Option (List (Nat × Nat))) : Except Err Props :=
  let p := match stts with
    | none => p
    | some l =>
      if l.length = 1 ∧ l.all (fun e => e.2 = 1) then p
      else { p with audio := some (mdat * 8 * timescale / duration % 2 ^ 32 / 1000) }
  if p.duration = 0 then .ok p
  else if 2 ^ 64 ≤ file * 8 then .error .panic
  else
    let p := { p with overall := some (file * 8 / p.duration % 2 ^ 32) }
    if p.audio = none ∨ p.audio = some 0 then
      if 2 ^ 64 ≤ mdat * 8 then .error .panic
      else .ok { p with audio := some (mdat * 8 / p.duration % 2 ^ 32) }
    else .ok p

/-- The duration, mp4/properties.rs 695-698; `duration * 1000` overflows. -/
def millis (timescale duration : Nat) : Except Err Nat :=
  if timescale = 0 then .ok 0
  else if 2 ^ 64 ≤ duration * 1000 then .error .panic
  else divRound 64 (duration * 1000) timescale

/-- `read_properties`, mp4/properties.rs 673-764, for a reader whose bounds are those of the file. -/
def readProperties (mode : Mode) (limit : Nat) (r : Rd) (traks : List Info) (file : Nat) : Except Err Props := do
  let (mdhd, minf) ← findAudio mode r traks
  let (timescale, duration) ← parseMdhd (r.seekStart (mdhd.start + 8))
  let d ← millis timescale duration
  let p : Props := { duration := d }
  match minf with
  | none => .ok p
  | some m => do
    let x ← parseMinf mode limit (r.seekStart (m.start + 8)) m.len
    match x with
    | none => .ok p
    | some (stsd, stts) => do
      let p ← readStsd mode limit stsd p
      if 0 < duration then
        match mdatLength mode (r.f.length + 1) (r.seekStart 0) with
        | .error .panic => .error .panic
        | .error .diverge => .error .diverge
        | .error e => if mode = .strict then .error e else .ok p
        | .ok n => bitrates p timescale duration n file stts
      else .ok p

/-- `read_from`, mp4/read/mod.rs 50-85: the brand, the tag and the properties.  All that `read_properties` does with the reader
starts with seeking. -/
def readFile (cfg : Config) (f : Bytes) : Except Err (Str × Option Tag × Option Props) := do
  let (brand, m) ← readFrom cfg f
  if cfg.properties then do
    let p ← readProperties cfg.opts.mode cfg.limit ((Rd.new f).resetBounds 0 f.length) m.traks f.length
    .ok (brand, m.ilst, some p)
  else .ok (brand, m.ilst, none)

end Lofty.Mp4Props
