import Verif.Model.Bytes
/-!
# Text encodings, `lofty/src/util/text.rs`

A Rust `String`/`&str` is a list of Unicode scalar values (`Char`).  UTF-8 is
Lean's own `String.utf8EncodeChar` / `ByteArray.utf8Decode?`.
-/
namespace Lofty

/-- A Rust string. -/
abbrev Str := List Char

/-- `str::as_bytes`. -/
def utf8 (t : Str) : Bytes := t.flatMap String.utf8EncodeChar

/-- `String::from_utf8` / `str::from_utf8` (the error value is not kept). -/
def fromUtf8 (b : Bytes) : Option Str := b.toByteArray.utf8Decode?.map Array.toList

/-- A string literal. -/
def str (s : String) : Str := s.toList

namespace Text

/-- `TextEncoding`, text.rs 177-186. -/
inductive Encoding
  | latin1 | utf16 | utf16be | utf8
  deriving DecidableEq, Repr

/-- `TextEncoding as u8`, text.rs 176-186. -/
def Encoding.toByte : Encoding → UInt8
  | .latin1 => 0 | .utf16 => 1 | .utf16be => 2 | .utf8 => 3

/-- `TextEncoding::try_from(u8)`, text.rs 188-200. -/
def Encoding.ofByte (b : UInt8) : Except Err Encoding :=
  if b = 0 then .ok .latin1 else if b = 1 then .ok .utf16
  else if b = 2 then .ok .utf16be else if b = 3 then .ok .utf8 else .error .badText

/-- `TextEncoding::verify_latin1`, text.rs 203-205. -/
def verifyLatin1 (t : Str) : Bool := t.all fun c => c.toNat ≤ 255

/-- `TextEncoding::to_id3v23`, text.rs 210-221. -/
def Encoding.toId3v23 : Encoding → Encoding
  | .utf8 => .utf16 | .utf16be => .utf16 | e => e

/-- Byte order of a `u16`: `be = true` is `to_be_bytes`, `false` is `to_le_bytes`
(`to_ne_bytes` is one of the two, depending on the target). -/
def u16Bytes (be : Bool) (u : Nat) : Bytes := if be then beBytes 2 u else leBytes 2 u

/-- `u16::from_be_bytes` / `from_le_bytes` of a two-byte chunk. -/
def u16Of (be : Bool) (b1 b2 : UInt8) : Nat := if be then fromBE [b1, b2] else fromLE [b1, b2]

/-- `char::encode_utf16`. -/
def utf16Units (c : Char) : List Nat :=
  let v := c.toNat
  if v < 0x10000 then [v]
  else [0xD800 + (v - 0x10000) / 0x400, 0xDC00 + (v - 0x10000) % 0x400]

/-- `String::from_utf16`. -/
def fromUtf16 : List Nat → Option Str
  | [] => some []
  | u :: rest =>
    if u < 0xD800 ∨ 0xE000 ≤ u then (fromUtf16 rest).map (Char.ofNat u :: ·)
    else if 0xDC00 ≤ u then none
    else match rest with
      | [] => none
      | v :: rest =>
        if 0xDC00 ≤ v ∧ v < 0xE000 then
          (fromUtf16 rest).map (Char.ofNat (0x10000 + (u - 0xD800) * 0x400 + (v - 0xDC00)) :: ·)
        else none

/-- `trim_end_nulls` / `trim_end_nulls_str`, text.rs 525-534. -/
def trimEndNulls (t : Str) : Str := (t.reverse.dropWhile (· = '\x00')).reverse

/-- `latin1_decode`, text.rs 425-429. -/
def latin1Decode (b : Bytes) : Str := trimEndNulls (b.map fun c => Char.ofNat c.toNat)

/-- `latin1_encode(..).collect()`, text.rs 431-447; the error is `valid_up_to`.  `i`
is the running character index of `enumerate`. -/
def latin1EncodeFrom (lossy : Bool) : Nat → Str → Except Nat Bytes
  | _, [] => .ok []
  | i, c :: cs =>
    if c.toNat ≤ 255 then (latin1EncodeFrom lossy (i + 1) cs).map (UInt8.ofNat c.toNat :: ·)
    else if lossy then (latin1EncodeFrom lossy (i + 1) cs).map (UInt8.ofNat '?'.toNat :: ·)
    else .error i

/-- `latin1_encode(..).collect()`, text.rs 431-447. -/
def latin1Encode (t : Str) (lossy : Bool) : Except Nat Bytes := latin1EncodeFrom lossy 0 t

/-- `utf8_decode` / `utf8_decode_str`, text.rs 449-462. -/
def utf8Decode (b : Bytes) : Except Err Str :=
  match fromUtf8 b with
  | some t => .ok (trimEndNulls t)
  | none => .error .badText

/-- `utf16_decode`, text.rs 464-471. -/
def utf16Decode (ws : List Nat) : Except Err Str :=
  match fromUtf16 ws with
  | some t => .ok (trimEndNulls t)
  | none => .error .badText

/-- The `chunks_exact(2).filter_map(..)` of `utf16_decode_bytes`, text.rs 481-490: a
final odd byte is ignored and byte order marks of either order are dropped. -/
def utf16Chunks (be : Bool) : Bytes → List Nat
  | b1 :: b2 :: rest =>
    if (b1 = 0xFF ∧ b2 = 0xFE) ∨ (b1 = 0xFE ∧ b2 = 0xFF) then utf16Chunks be rest
    else u16Of be b1 b2 :: utf16Chunks be rest
  | _ => []

/-- `utf16_decode_bytes`, text.rs 473-493. -/
def utf16DecodeBytes (b : Bytes) (be : Bool) : Except Err Str :=
  if b.isEmpty then .ok [] else utf16Decode (utf16Chunks be b)

/-- `utf16_encode`, text.rs 536-557. -/
def utf16Encode (t : Str) (be bom terminated : Bool) : Bytes :=
  (if bom then u16Bytes be 0xFEFF else [])
    ++ (t.flatMap utf16Units).flatMap (u16Bytes be)
    ++ (if terminated then [0, 0] else [])

/-- `TextEncoding::encode`, text.rs 223-250.  `ne` is the byte order of the target
(`true` = big endian). -/
def encode (ne : Bool) (e : Encoding) (t : Str) (terminated lossy : Bool) : Except Err Bytes :=
  match e with
  | .latin1 =>
    match latin1Encode t lossy with
    | .ok b => .ok (b ++ if terminated then [0] else [])
    | .error _ => .error .badText
  | .utf16 => .ok (utf16Encode t ne true terminated)
  | .utf16be => .ok (utf16Encode t true false terminated)
  | .utf8 => .ok (utf8 t ++ if terminated then [0] else [])

/-- First loop of `read_to_terminator`, text.rs 400-407: text bytes, terminator
length, rest of the reader. -/
def readTerm1 : Bytes → Bytes × Nat × Bytes
  | [] => ([], 0, [])
  | b :: d => if b = 0 then ([], 1, d) else
    let (t, n, r) := readTerm1 d
    (b :: t, n, r)

/-- Second loop of `read_to_terminator`, text.rs 410-418 (a single last byte is
consumed and lost). -/
def readTerm2 : Bytes → Bytes × Nat × Bytes
  | b1 :: b2 :: d => if b1 = 0 ∧ b2 = 0 then ([], 2, d) else
    let (t, n, r) := readTerm2 d
    (b1 :: b2 :: t, n, r)
  | _ => ([], 0, [])

/-- `read_to_terminator`, text.rs 391-423. -/
def readToTerminator (e : Encoding) (d : Bytes) : Bytes × Nat × Bytes :=
  match e with
  | .latin1 | .utf8 => readTerm1 d
  | .utf16 | .utf16be => readTerm2 d

/-- `DecodeTextResult`, text.rs 254-258. -/
structure Decoded where
  content : Str
  bytesRead : Nat
  bom : UInt8 × UInt8
  deriving DecidableEq

/-- The `match options.encoding` of `decode_text`, text.rs 356-382. -/
def decodeRaw (e : Encoding) (optBom : UInt8 × UInt8) (raw : Bytes) :
    Except Err (Str × (UInt8 × UInt8)) :=
  match e with
  | .latin1 => .ok (latin1Decode raw, (0, 0))
  | .utf16 =>
    match raw with
    | b1 :: b2 :: _ =>
      if raw.length % 2 ≠ 0 then .error .badText
      else
        let bom := if optBom = (0, 0) then (b1, b2) else optBom
        if bom = (0xFE, 0xFF) then (utf16DecodeBytes raw true).map (·, bom)
        else if bom = (0xFF, 0xFE) then (utf16DecodeBytes raw false).map (·, bom)
        else .error .badText
    | _ => .error .badText
  | .utf16be => (utf16DecodeBytes raw true).map (·, (0, 0))
  | .utf8 => (utf8Decode raw).map (·, (0, 0))

/-- `decode_text`, text.rs 315-389, returning also the rest of the reader. -/
def decodeText (e : Encoding) (terminated : Bool) (optBom : UInt8 × UInt8) (d : Bytes) :
    Except Err (Decoded × Bytes) :=
  if terminated then
    match readToTerminator e d with
    | (raw, tl, rest) =>
      if raw.isEmpty then .ok (⟨[], tl, (0, 0)⟩, rest)
      else (decodeRaw e optBom raw).map fun x => (⟨x.1, raw.length + tl, x.2⟩, rest)
  else if d.isEmpty then .ok (⟨[], 0, (0, 0)⟩, [])
  else (decodeRaw e optBom d).map fun x => (⟨x.1, d.length, x.2⟩, [])

/-- `utf16_decode_terminated_maybe_bom`, text.rs 505-523; `be` is the given
endianness. -/
def utf16DecodeTerminatedMaybeBom (be : Bool) (d : Bytes) : Except Err ((Str × Nat) × Bytes) :=
  match readToTerminator .utf16 d with
  | (raw, tl, rest) =>
    let n := raw.length + tl
    match raw with
    | b1 :: b2 :: raw' =>
      if b1 = 0xFF ∧ b2 = 0xFE then (utf16DecodeBytes raw' false).map fun t => ((t, n), rest)
      else if b1 = 0xFE ∧ b2 = 0xFF then (utf16DecodeBytes raw' true).map fun t => ((t, n), rest)
      else (utf16DecodeBytes raw be).map fun t => ((t, n), rest)
    | _ => (utf16DecodeBytes raw be).map fun t => ((t, n), rest)

end Text
end Lofty
