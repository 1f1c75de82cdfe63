import Verif.Model.Lossless
/-!
# Audio properties of WavPack

`lofty/src/wavpack/properties.rs`.  The block headers are read at their offsets in the file.
-/
namespace Lofty.WavPack
open Lofty.Float64
open Lofty.Lossless (kbps millis)

/-- `WavPackProperties`, wavpack/properties.rs 15-25. -/
structure Props where
  version : Nat := 0
  duration : Nat := 0
  overall : Nat := 0
  audio : Nat := 0
  sampleRate : Nat := 0
  channels : Nat := 0
  mask : Nat := 0
  bitDepth : Nat := 0
  lossless : Bool := false
  deriving DecidableEq

/-- `SAMPLE_RATES`, wavpack/properties.rs 119-122. -/
def sampleRates : List Nat :=
  [6000, 8000, 9600, 11025, 12000, 16000, 22050, 24000, 32000, 44100, 48000, 64000, 88200, 96000, 192000, 0]

/-- `WVHeader`, wavpack/properties.rs 246-252. -/
structure Block where
  version : Nat
  size : Nat
  total : Nat
  samples : Nat
  flags : Nat
  deriving DecidableEq

/-- `parse_wv_header`, wavpack/properties.rs 255-296.  Seeking does not fail; the position of the last four bytes is not
read. -/
def header (r : Bytes) : Except Err Block := do
  let (id, r) ← readN 4 r
  if id ≠ ascii "wvpk" then .error .unsupported
  else do
    let (size, r) ← readLE 4 r
    if size < 24 then .error .notEnough
    else if 1048576 < size then .error .tooMuch
    else do
      let (version, r) ← readLE 2 r
      let (total, r) ← readLE 4 (r.drop 2)
      let (samples, r) ← readLE 4 (r.drop 4)
      let (flags, _) ← readLE 4 r
      .ok ⟨version, size, total, samples, flags⟩

/-- `size -= n`, a panic if there is less. -/
def sub (a b : Nat) : Except Err Nat := if a < b then .error .panic else .ok (a - b)

/-- The channels, wavpack/properties.rs 366-419: the properties, which keep the number of channels if the size is wrong, the rest of the
reader and the rest of the size, of which the first byte read is not taken off. -/
def multichannel (r : Bytes) (size : Nat) (p : Props) : Props × Except Err (Bytes × Nat) :=
  if size ≤ 1 then (p, .error .parse)
  else
    match readU8 r with
    | .error e => (p, .error e)
    | .ok (c, r) =>
      let p := { p with channels := c.toNat }
      match (do
        let s ← sub size 2
        if s ≤ 3 then do
          let (mask, r) ← readLE (s + 1) r
          let size ← sub size (s + 1)
          .ok ({ p with mask := mask }, r, size)
        else if s ≤ 5 then do
          let (d, r) ← readU8 r
          let (mask, r) ← readLE (s - 1) r
          let size ← sub size s
          .ok ({ p with channels := (c.toNat ||| ((d &&& 0xF).toNat <<< 8)) + 1, mask := mask }, r, size)
        else .error .parse : Except Err (Props × Bytes × Nat)) with
      | .error e => (p, .error e)
      | .ok (p, r, size) => (p, .ok (r, size))

/-- One sub-block of `get_extended_meta_info`, wavpack/properties.rs 332-424: the properties, the rest of the reader and the rest of
the size; `none` if the loop ends. -/
def subBlock (strict : Bool) (id : Nat) (r : Bytes) (size : Nat) (p : Props) : Props × Except Err (Option (Bytes × Nat)) :=
  if id = 0x27 then
    if size < 3 then (p, .error .parse)
    else
      match readLE 3 r, sub size 3 with
      | .ok (rate, r), .ok size => ({ p with sampleRate := rate }, .ok (some (r, size)))
      | .error e, _ => (p, .error e)
      | _, .error e => (p, .error e)
  else if id = 0xE then
    if size ≤ 1 then (p, .error .parse)
    else
      match readU8 r, sub size 1 with
      | .ok (m, r), .ok size =>
        if 30 < m.toNat then (if strict then (p, .error .parse) else (p, .ok none))
        else ({ p with sampleRate := p.sampleRate * (1 <<< m.toNat) % 2 ^ 32 }, .ok (some (r, size)))
      | .error e, _ => (p, .error e)
      | _, .error e => (p, .error e)
  else if id = 0xD then
    match multichannel r size p with
    | (p, .ok x) => (p, .ok (some x))
    | (p, .error e) => (p, .error e)
  else (p, .ok (some (r, size)))

/-- The identifier and the size of a sub-block, wavpack/properties.rs 309-316. -/
def subHeader (r : Bytes) : Except Err (UInt8 × Nat × Bytes) := do
  let (id, r) ← readU8 r
  let (a, r) ← readU8 r
  let size := a.toNat <<< 1
  if id &&& 0x80 ≠ 0 then do
    let (b, r) ← readU8 r
    let (c, r) ← readU8 r
    .ok (id, size + (b.toNat <<< 9) + (c.toNat <<< 17), r)
  else .ok (id, size, r)

/-- `get_extended_meta_info`, wavpack/properties.rs 298-440: the properties that are set when the loop ends or fails, and how
it ended.  Every round reads at least two bytes. -/
def extended (strict : Bool) : Nat → Bytes → Props → Props × Except Err Unit
  | 0, _, p => (p, .error .diverge)
  | n + 1, r, p =>
    if r.length < 2 then (p, .ok ())
    else
      match subHeader r with
      | .error e => (p, .error e)
      | .ok (id, size, r) =>
        if size = 0 then extended strict n r p
        else if r.length < size then (p, .error .sizeMismatch)
        else
          let odd := id &&& 0x40 ≠ 0
          match sub size (if odd then 1 else 0) with
          | .error e => (p, .error e)
          | .ok size =>
            match subBlock strict (id &&& 0x3F).toNat r size p with
            | (p, .error e) => (p, .error e)
            | (p, .ok none) => (p, .ok ())
            | (p, .ok (some (r, size))) =>
              if r.length < size then (p, .error .sizeMismatch)
              else
                let r := r.drop size
                if odd then
                  match readU8 r with
                  | .error e => (p, .error e)
                  | .ok (_, r) => extended strict n r p
                else extended strict n r p

/-- How a round of the loop ends: with an error, with `break`, with `total_samples` after the loop, or with the next
offset. -/
inductive Step
  | fail (e : Err)
  | stop (p : Props) (total : Nat)
  | next (p : Props) (total : Nat) (offset : Nat)
  deriving DecidableEq

/-- The part of a round behind the sample rate, wavpack/properties.rs 173-214. -/
def stepBody (strict : Bool) (b : Block) (p : Props) (total offset : Nat) : Step :=
  let initial := b.flags &&& 0x800 = 0x800
  if initial ∧ (b.version < 0x402 ∨ 0x410 < b.version) then
    if strict then .fail .parse else .stop p total
  else
    let mono := b.flags &&& 4 > 0
    let p := if initial then
        { p with
          bitDepth := (((b.flags &&& 3) + 1) * 8 - ((b.flags &&& (0x1F <<< 13)) >>> 13)) % 256
          version := b.version
          lossless := b.flags &&& 8 = 0
          channels := if b.flags &&& 0x1000 > 0 then (if mono then 1 else 2) else p.channels
          mask := if b.flags &&& 0x1000 > 0 then (if mono then Channels.mono else Channels.stereo) else p.mask }
      else p
    let total := if initial then b.total else total
    if b.samples = 0 then .next p total (offset + (b.size + 8))
    else if b.flags &&& 0x1000 = 0x1000 then .stop p total
    else .next p total (offset + (b.size + 8))

/-- A round of the loop of `read_properties`, wavpack/properties.rs 133-215. -/
def step (strict : Bool) (f : Bytes) (p : Props) (total offset : Nat) : Step :=
  match header (f.drop offset) with
  | .error e => if strict then .fail e else .stop p total
  | .ok b =>
    let idx := (b.flags >>> 23) &&& 0xF
    let p := { p with sampleRate := sampleRates.getD idx 0 }
    if idx = 15 ∨ b.flags &&& 0x80000000 = 0x80000000 then
      match readAt f (offset + 32) (b.size - 24) with
      | .error e => .fail e
      | .ok content =>
        match extended strict (content.length + 1) content p with
        | (p, .error e) => if strict then .fail e else .stop p total
        | (p, .ok ()) =>
          if idx = 15 ∧ p.sampleRate = 0 then
            if strict then .fail .parse else .stop p total
          else stepBody strict b p total offset
    else stepBody strict b p total offset

/-- The loop of `read_properties`, wavpack/properties.rs 133-215.  Every round goes at least 32 bytes on. -/
def loop (strict : Bool) (f : Bytes) : Nat → Props → Nat → Nat → Except Err (Props × Nat)
  | 0, _, _, _ => .error .diverge
  | n + 1, p, total, offset =>
    match step strict f p total offset with
    | .fail e => .error e
    | .stop p total => .ok (p, total)
    | .next p total offset => loop strict f n p total offset

/-- `read_properties`, wavpack/properties.rs 125-240. -/
def readProperties (strict : Bool) (f : Bytes) (stream : Nat) : Except Err Props := do
  let (p, total) ← loop strict f (f.length + 1) {} 0 0
  if total = 2 ^ 32 - 1 then .ok p
  else if total = 0 ∨ p.sampleRate = 0 then
    if strict then .error .parse else .ok p
  else
    let length := millis total p.sampleRate
    .ok { p with
      duration := (length.add .half).toU 64
      audio := kbps stream length
      overall := kbps f.length length }

end Lofty.WavPack
