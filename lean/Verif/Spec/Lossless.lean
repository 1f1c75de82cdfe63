import Verif.Model.WavPack
/-!
# Specification: durations, bit rates and headers of lossless formats
-/
namespace Lofty.Lossless

/-- The integer nearest to `a / b`, the greater of two. -/
def nearest (a b : Nat) : Nat := (2 * a + b) / (2 * b)

/-- A number rounded to an integer, give or take what is lost by computing in floating point. -/
def Near (n : Nat) (v : Rat) : Prop := v - 1 / 2 - 1 / 65536 ≤ n ∧ (n : Rat) ≤ v + 1 / 2 + 1 / 65536

/-- Kilobits per second of `size` bytes in `samples` samples. -/
def rateOf (size samples rate : Nat) : Rat := ((size * 8 * rate : Nat) : Rat) / ((samples * 1000 : Nat) : Rat)

/-- The 34 bytes of STREAMINFO, the first metadata block of FLAC. -/
def streamInfo (blocks frames rate channels bits total signature : Nat) : Bytes :=
  beBytes 4 blocks ++ beBytes 6 frames ++ beBytes 8 (((rate * 8 + (channels - 1)) * 32 + (bits - 1)) * 2 ^ 36 + total) ++ beBytes 16 signature

/-- The `fmt ` chunk of WAV: the 16 bytes that are always there and what follows. -/
def fmtChunk (format channels rate bytesPerSecond blockAlign bits : Nat) (rest : Bytes) : Bytes :=
  leBytes 2 format ++ leBytes 2 channels ++ leBytes 4 rate ++ leBytes 4 bytesPerSecond ++ leBytes 2 blockAlign ++ leBytes 2 bits ++ rest

/-- What follows in the extensible format. -/
def fmtExtra (valid mask format : Nat) (rest : Bytes) : Bytes :=
  leBytes 2 22 ++ leBytes 2 valid ++ leBytes 4 mask ++ leBytes 2 format ++ rest

/-- The number of samples: computed from the size of the audio for PCM (1) and floating point (3), otherwise that of the `fact`
chunk. -/
def wavSamples (format channels bits fact stream : Nat) : Nat :=
  if format = 1 ∨ format = 3 then stream / (channels * (bits / 8)) else fact

/-- The value of an 80 bit number without its sign. -/
def F80.value (x : F80) : Rat := (x.fraction : Rat) * Float64.pow2 ((x.exponent : Int) - 16446)

/-- An 80 bit number as ten bytes. -/
def F80.bytes (x : F80) : Bytes := beBytes 2 ((if x.signed then 32768 else 0) + x.exponent) ++ beBytes 8 x.fraction

/-- An integer as an 80 bit number. -/
def F80.ofInt (n : Nat) : F80 := ⟨false, 16383 + n.log2, n * 2 ^ (63 - n.log2)⟩

/-- The `COMM` chunk of AIFF. -/
def commChunk (channels frames size : Nat) (rate : F80) (rest : Bytes) : Bytes :=
  beBytes 2 channels ++ beBytes 4 frames ++ beBytes 2 size ++ rate.bytes ++ rest

/-- The headers of Monkey's Audio from version 3980, behind `MAC `: the descriptor, of which only its own size (`52 + extra.length`)
is used, and the header. -/
def macHeader (version : Nat) (d1 d2 extra : Bytes) (level flags perFrame final frames bits channels rate : Nat) (rest : Bytes) : Bytes :=
  leBytes 2 version ++ (d1 ++ leBytes 4 (52 + extra.length) ++ d2) ++ extra ++
    (leBytes 2 level ++ leBytes 2 flags ++ leBytes 4 perFrame ++ leBytes 4 final ++ leBytes 4 frames ++ leBytes 2 bits ++
      leBytes 2 channels ++ leBytes 4 rate) ++ rest

/-- The header of older files. -/
def macHeaderOld (version level flags channels rate wavHeader wavTail frames final : Nat) (rest : Bytes) : Bytes :=
  leBytes 2 version ++ (leBytes 2 level ++ leBytes 2 flags ++ leBytes 2 channels ++ leBytes 4 rate ++ leBytes 4 wavHeader ++
    leBytes 4 wavTail ++ leBytes 4 frames ++ leBytes 4 final) ++ rest

end Lofty.Lossless
