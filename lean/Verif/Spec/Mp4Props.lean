import Verif.Spec.Mp4Read
import Verif.Model.Mp4Props
/-!
# What the atoms of an MP4 file say about its audio

Written from ISO 14496-1, -3, -12, the descriptions of `alac` and of FLAC in MP4.
-/
namespace Lofty.Mp4Props
open Lofty.Mp4 Lofty.Ilst Lofty.Mp4Write Lofty.Mp4Read

/-! ## The sample descriptions -/

/-- A sample entry of an audio track, without what follows it: `version` 0 or 1, the number of channels and the sample rate (with 16
bits behind the point) among fields that are of no interest here. -/
structure Entry where
  reserved : Bytes
  version : Nat
  vendor : Bytes
  channels : Nat
  sizes : Bytes
  rate : Nat
  fraction : Nat
  extra : Bytes

/-- The bytes of a sample entry. -/
def Entry.bytes (e : Entry) : Bytes :=
  e.reserved ++ (beBytes 2 e.version ++ (e.vendor ++ (beBytes 2 e.channels ++ (e.sizes ++ (beBytes 4 (e.rate * 65536 + e.fraction) ++ e.extra)))))

/-- The sizes of the fields. -/
structure Entry.Ok (e : Entry) : Prop where
  reserved : e.reserved.length = 8
  version : (e.version = 0 ∧ e.extra = []) ∨ (e.version = 1 ∧ e.extra.length = 16)
  vendor : e.vendor.length = 6
  channels : e.channels < 256
  sizes : e.sizes.length = 6
  rate : e.rate < 65536 ∧ e.fraction < 65536

/-- The content of `stsd`: the first entry, with the atoms in it, and what follows. -/
def stsdOf (flags : Bytes) (count : Nat) (id : Bytes) (e : Entry) (kids rest : Bytes) : Bytes :=
  flags ++ (beBytes 4 count ++ (box id (e.bytes ++ kids) ++ rest))

/-- The length of a descriptor: seven bits in each byte, the first bit is set in all but the last. -/
def LenOk (l : Bytes) : Prop := ∃ a b, l = a ++ [b] ∧ a.length ≤ 3 ∧ (∀ x ∈ a, 0x80 ≤ x) ∧ b < 0x80

/-- The content of `esds`: an elementary stream descriptor, in it a decoder configuration, in it the configuration of the codec. -/
def esdsOf (l1 l2 l3 : Bytes) (stream : Bytes) (codec : Nat) (sizes : Bytes) (average : Nat) (config : Bytes) : Bytes :=
  [0, 0, 0, 0] ++ ([3] ++ (l1 ++ (stream ++ ([4] ++ (l2 ++ (beBytes 1 codec ++ (sizes ++ (beBytes 4 average ++ ([5] ++ (l3 ++ config))))))))))

/-- `AudioSpecificConfig`: five bits for the type, four for the sampling frequency, four for the channels; the rest of the bits is
`more`. -/
def configOf (type frequency channels more : Nat) : Bytes := beBytes 2 (type * 2048 + frequency * 128 + channels * 8 + more)

/-- `AudioSpecificConfig` for the types from 32: five bits that are set, six for the type less 32, the rest as before. -/
def escapedConfigOf (type frequency channels more : Nat) : Bytes :=
  beBytes 3 (31 * 2 ^ 19 + (type - 32) * 8192 + frequency * 512 + channels * 32 + more)

/-- `AudioSpecificConfig` with a sampling frequency that is not in the table: the index is 15, 24 bits for the frequency follow. -/
def explicitConfigOf (type rate channels more : Nat) : Bytes :=
  beBytes 5 (type * 2 ^ 35 + 15 * 2 ^ 31 + rate * 128 + channels * 8 + more)

/-- `AudioSpecificConfig` for the Audio Lossless Coding (type 36) with an explicit sampling frequency and no channel configuration,
and the beginning of `ALSSpecificConfig`. -/
def alsOf (rate frequency samples channels : Nat) : Bytes :=
  beBytes 6 (31 * 2 ^ 43 + 4 * 2 ^ 37 + 15 * 2 ^ 33 + rate * 512) ++
    ((ascii "ALS" ++ [0]) ++ (beBytes 4 frequency ++ (beBytes 4 samples ++ beBytes 2 (channels - 1))))

/-- The sampling frequencies of ISO 14496-3, table 1.18. -/
def frequencies : List Nat := [96000, 88200, 64000, 48000, 44100, 32000, 24000, 22050, 16000, 12000, 11025, 8000, 7350]

/-- The types of ISO 14496-3, table 1.17. -/
def types : List Nat := [1, 2, 3, 4, 5, 6, 7, 8, 9, 12, 13, 14, 15, 16, 17, 19, 20, 21, 22, 23, 24, 25, 26, 27, 28, 29, 30, 32, 33, 34, 35, 36,
  37, 38, 39, 40, 41, 42, 43, 44, 45, 46]

/-- What the object type indication of ISO 14496-1, table 5, says about the codec. -/
def codecOf (n : Nat) : Option Codec :=
  if n ∈ [0x40, 0x41, 0x66, 0x67, 0x68] then some .aac else if n ∈ [0x69, 0x6B] then some .mp3 else none

/-- The content of the inner `alac` atom. -/
def cookieOf (version : Bytes) (perFrame : Bytes) (compatible : UInt8) (bits : Nat) (rice : Bytes) (channels : Nat) (maxima : Bytes)
    (average rate : Nat) : Bytes :=
  version ++ (perFrame ++ ([compatible] ++ (beBytes 1 bits ++ (rice ++ (beBytes 1 channels ++ (maxima ++ (beBytes 4 average ++ beBytes 4 rate)))))))

/-! ## The tracks -/

/-- The first `mdia` of a track. -/
def mediaOf : Forest → Option Forest
  | .nil => none
  | .leaf _ _ rest => mediaOf rest
  | .node id kids rest => if id = ascii "mdia" then some kids else mediaOf rest

/-- The `mdia` atoms of the tracks. -/
def medias : Forest → List Forest
  | .nil => []
  | .leaf _ _ rest => medias rest
  | .node id kids rest => (if id = ascii "trak" then (mediaOf kids).toList else []) ++ medias rest

/-- Is there a handler for sound? -/
def Sound (media : Forest) : Prop := ∃ c, (ascii "hdlr", c) ∈ items media ∧ 12 ≤ c.length ∧ (c.drop 8).take 4 = ascii "soun"

/-- The atom `minf`, if there is one, comes last. -/
def MinfLast (media : Forest) : Prop := ∀ x ∈ (items media).dropLast, x.1 ≠ ascii "minf"

/-- There is an atom of the given name, and all of this name have this content. -/
def Only (id c : Bytes) (f : Forest) : Prop := (id, c) ∈ items f ∧ ∀ d, (id, d) ∈ items f → d = c

/-- The content of `mdhd`, version 0. -/
def mdhd0 (flags times : Bytes) (timescale duration : Nat) (more : Bytes) : Bytes :=
  [0] ++ (flags ++ (times ++ (beBytes 4 timescale ++ (beBytes 4 duration ++ more))))

/-- The content of `mdhd`, version 1. -/
def mdhd1 (flags times : Bytes) (timescale duration : Nat) (more : Bytes) : Bytes :=
  [1] ++ (flags ++ (times ++ (beBytes 4 timescale ++ (beBytes 8 duration ++ more))))

/-- The content of `mdhd` says this time scale and duration. -/
def Times (c : Bytes) (timescale duration : Nat) : Prop :=
  timescale < 2 ^ 32 ∧ ((∃ flags times more, flags.length = 3 ∧ times.length = 8 ∧ duration < 2 ^ 32 ∧ c = mdhd0 flags times timescale duration more) ∨
    (∃ flags times more, flags.length = 3 ∧ times.length = 16 ∧ duration < 2 ^ 64 ∧ c = mdhd1 flags times timescale duration more))

/-- The content of `stts`. -/
def sttsOf (flags : Bytes) (l : List (Nat × Nat)) : Bytes :=
  flags ++ (beBytes 4 l.length ++ l.flatMap fun x => beBytes 4 x.1 ++ beBytes 4 x.2)

/-- The content of `stts` lists these entries. -/
def Steps (c : Bytes) (l : List (Nat × Nat)) : Prop :=
  ∃ flags, flags.length = 4 ∧ l.length < 2 ^ 32 ∧ (∀ x ∈ l, x.1 < 2 ^ 32 ∧ x.2 < 2 ^ 32) ∧ c = sttsOf flags l

/-- The time table among the tables, if there is one. -/
def Paced (tables : Forest) : Option (List (Nat × Nat)) → Prop
  | none => ascii "stts" ∉ tables.top
  | some l => ∃ c, Only (ascii "stts") c tables ∧ Steps c l

/-- The audio of a file: the track (the first with sound) has this header, sample description and time table, and the audio takes
`mdat` bytes. -/
structure Audio (before moov after : Forest) (timescale duration : Nat) (stsd : Bytes) (stts : Option (List (Nat × Nat))) (mdat : Nat) : Prop where
  tracks : ∃ mute media rest, medias moov = mute ++ media :: rest ∧ (∀ m ∈ mute, ¬ Sound m ∧ MinfLast m) ∧ Sound media ∧
    (∃ c, Only (ascii "mdhd") c media ∧ Times c timescale duration) ∧
    ∃ front minf1 tables minf2 : Forest, media = front.append (.node (ascii "minf") (minf1.append (.node (ascii "stbl") tables minf2)) .nil) ∧
      ascii "minf" ∉ front.top ∧ ascii "stbl" ∉ minf1.top ∧ Only (ascii "stsd") stsd tables ∧ Paced tables stts
  data : ∃ c, (items (whole before moov after)).find? (fun x => x.1 = ascii "mdat") = some (ascii "mdat", c) ∧ c.length = mdat

/-- The properties are the same, except for the overall bit rate, which depends on the size of the file. -/
def Props.Same (p q : Props) : Prop := { p with overall := none } = { q with overall := none }

end Lofty.Mp4Props
