import Verif.Model.Mpeg
/-!
# MPEG audio frame headers according to the standards (ISO/IEC 11172-3 and 13818-3)
-/
namespace Lofty.Mpeg.Spec

/-- Numbers in steps of a quarter of the last power of two. -/
def octaves (i : Nat) : Nat := (32 + 8 * (i % 4)) * 2 ^ (i / 4)

/-- Bit rates in kbit/s for the indices 1 to 14. -/
def bitrate (version : Version) (layer : Layer) (i : Nat) : Nat :=
  match version, layer with
  | .v1, .layer1 => 32 * i
  | .v1, .layer2 => if i = 1 then 32 else octaves i
  | .v1, .layer3 => octaves (i - 1)
  | _, .layer1 => if i = 1 then 32 else if i ≤ 8 then octaves i else if i ≤ 12 then 16 * i else 32 * (i - 6)
  | _, _ => if i ≤ 8 then 8 * i else 16 * (i - 4)

/-- Sampling rates in Hz for the indices 0 to 2. -/
def sampleRate (version : Version) (i : Nat) : Nat :=
  (if i = 0 then 44100 else if i = 1 then 48000 else 32000) / (match version with | .v1 => 1 | .v2 => 2 | .v25 => 4)

/-- Samples per frame and channel. -/
def samples (version : Version) (layer : Layer) : Nat :=
  match layer with
  | .layer1 => 384
  | .layer2 => 1152
  | .layer3 => if version = .v1 then 1152 else 576

/-- Length of a frame in bytes.  The slots of layer I have four bytes, those of the other layers one. -/
def frameLength (version : Version) (layer : Layer) (kbps rate padding : Nat) : Nat :=
  match layer with
  | .layer1 => (12 * (1000 * kbps) / rate + padding) * 4
  | _ => samples version layer / 8 * (1000 * kbps) / rate + padding

/-- The bits from `lo` (counted from the least significant) on, `n` of them. -/
def field (data lo n : Nat) : Nat := data / 2 ^ lo % 2 ^ n

/-- An 11-bit frame sync at position `i`. -/
def SyncAt (f : Bytes) (i : Nat) : Prop := ∃ b, f[i]? = some 0xFF ∧ f[i + 1]? = some b ∧ 0xE0 ≤ b.toNat

/-- The big-endian word at position `i`. -/
def wordAt (f : Bytes) (i : Nat) : Option Nat := if i + 4 ≤ f.length then some (fromBE ((f.drop i).take 4)) else none

end Lofty.Mpeg.Spec
