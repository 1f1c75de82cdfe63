import Verif.Model.Ascii
/-!
# Timestamps, `lofty/src/tag/items/timestamp.rs`
-/
namespace Lofty

/-- `ParsingMode`, lofty/src/config/parse_options.rs 188-219. -/
inductive Mode
  | strict | bestAttempt | relaxed
  deriving DecidableEq, Repr

/-- `Timestamp`, timestamp.rs 26-41.  `year` is a `u16`, the other fields `u8`. -/
structure Timestamp where
  year : Nat
  month : Option Nat := none
  day : Option Nat := none
  hour : Option Nat := none
  minute : Option Nat := none
  second : Option Nat := none
  deriving DecidableEq, Repr

namespace Timestamp

/-- `{:0w}` of an unsigned integer. -/
def pad (w n : Nat) : Str := List.replicate (w - (toDec n).length) '0' ++ toDec n

/-- One `if let Some(x) = field { write!(f, "<sep>{:02}", x)?; <rest> }` of `fmt`. -/
def fmtField (sep : Char) (x : Option Nat) (rest : Str) : Str :=
  match x with
  | none => []
  | some n => sep :: (pad 2 n ++ rest)

/-- `<Timestamp as Display>::fmt`, timestamp.rs 60-85. -/
def fmt (t : Timestamp) : Str :=
  pad 4 t.year ++ fmtField '-' t.month (fmtField '-' t.day (fmtField 'T' t.hour
    (fmtField ':' t.minute (fmtField ':' t.second []))))

/-- `Timestamp::SEPARATORS`, timestamp.rs 180: `-`, `.`, `T`, `:`. -/
def isSep (b : UInt8) : Bool := b == 45 || b == 46 || b == 84 || b == 58

/-- `u8::is_ascii_digit`. -/
def isDigit (b : UInt8) : Bool := 48 ≤ b.toNat && b.toNat ≤ 57

/-- `u8::is_ascii_whitespace`: space, tab, line feed, form feed, carriage return. -/
def isSpace (b : UInt8) : Bool := b == 32 || b == 9 || b == 10 || b == 12 || b == 13

/-- The loop over `content[..SIZE]` of `segment`, timestamp.rs 333-368. -/
def segLoop (hasSep : Bool) (mode : Mode) : Bytes → Option Nat → Nat → Except Err (Option Nat × Nat)
  | [], num, count => .ok (num, count)
  | i :: rest, num, count =>
    if i = 32 then
      if mode = .strict then .error .parse else segLoop hasSep mode rest num (count + 1)
    else if isDigit i = false then
      if hasSep = true ∧ isSep i = true ∧ mode ≠ .strict then .ok (num, count) else .error .parse
    else segLoop hasSep mode rest (some (num.getD 0 * 10 + (i.toNat - 48))) (count + 1)

/-- The part of `segment` behind the separator, timestamp.rs 325-382: the number, the
bytes read (0 = stop parsing) and the remaining content. -/
def segDigits (size : Nat) (hasSep : Bool) (mode : Mode) (content : Bytes) :
    Except Err ((Nat × Nat) × Bytes) :=
  if content.length < size then
    if mode = .strict then .error .parse else .ok ((0, 0), content)
  else do
    let (num, count) ← segLoop hasSep mode (content.take size) none 0
    match num with
    | none => if mode = .strict then .error .panic else .ok ((0, 0), content)
    | some n => .ok ((n, count), content.drop count)

/-- `Timestamp::segment::<SIZE>`, timestamp.rs 292-383. -/
def segment (size : Nat) (sep : Option Bytes) (mode : Mode) (content : Bytes) :
    Except Err ((Nat × Nat) × Bytes) :=
  match content, sep with
  | [], _ => .ok ((0, 0), [])
  | content, none => segDigits size false mode content
  | b :: content, some sep =>
    match sep.findIdx? (· == b) with
    | some pos =>
      if 0 < pos ∧ mode = .strict then .error .parse else segDigits size true mode content
    | none => if mode = .strict then .error .parse else .ok ((0, 0), content)

/-- The `loop` of `parse` with its `read_segment!` calls, timestamp.rs 254-286, as the
list of the values read (`val as u8`; a value of two digits always fits). -/
def segments (mode : Mode) : List (Option Bytes) → Bytes → Except Err (List Nat)
  | [], _ => .ok []
  | s :: ss, content => do
    let ((val, n), content) ← segment 2 s mode content
    if n = 0 then .ok [] else do
      let r ← segments mode ss content
      .ok (val % 256 :: r)

/-- The separators expected before month, day, hour, minute and second, timestamp.rs
256-284. -/
def expected (seps : Bool) : List (Option Bytes) :=
  [if seps then some [45, 46] else none, if seps then some [45, 46] else none, some [84],
   if seps then some [58] else none, if seps then some [58] else none]

/-- `while c.is_ascii_whitespace() { c = reader.read_u8()?; }`, timestamp.rs 219-223. -/
def skipSpace : UInt8 → Bytes → Except Err (UInt8 × Bytes)
  | c, [] => if isSpace c then .error .eof else .ok (c, [])
  | c, d :: r => if isSpace c then skipSpace d r else .ok (c, d :: r)

/-- `if parse_mode != ParsingMode::Strict { while .. }`, timestamp.rs 219-223. -/
def start (mode : Mode) (c : UInt8) (r : Bytes) : Except Err (UInt8 × Bytes) :=
  if mode = .strict then .ok (c, r) else skipSpace c r

/-- The part of `Timestamp::parse` behind the content is collected, timestamp.rs 232-289. -/
def parseContent (mode : Mode) (content : Bytes) : Except Err (Option Timestamp) := do
  let seps := content.any fun b => b != 84 && isSep b
  let ((year, n), content) ← segment 4 none mode content
  if n ≠ 4 then
    if mode = .strict then .error .parse else .ok none
  else if content.isEmpty then .ok (some ⟨year, none, none, none, none, none⟩)
  else do
    let r ← segments mode (expected seps) content
    .ok (some ⟨year, r[0]?, r[1]?, r[2]?, r[3]?, r[4]?⟩)

/-- `Timestamp::parse`, timestamp.rs 189-290.  Only the first 19 bytes behind leading
white space are looked at; what is left of the reader is not returned. -/
def parse (mode : Mode) (r : Bytes) : Except Err (Option Timestamp) :=
  match r with
  | [] => if mode = .strict then .error .parse else .ok none
  | c :: r => do
    let (c, r) ← start mode c r
    parseContent mode (c :: r.take 18)

/-- `<Timestamp as FromStr>::from_str`, timestamp.rs 165-172. -/
def fromStr (s : Str) : Except Err Timestamp := do
  match ← parse .bestAttempt (utf8 s) with
  | some t => .ok t
  | none => .error .parse

/-- `verify_field`, timestamp.rs 386-399. -/
def verifyField (field : Option Nat) (limit : Nat) (parent : Bool) : Bool :=
  match field with
  | some f => parent && f ≤ limit
  | none => true

/-- `Timestamp::verify`, timestamp.rs 385-410. -/
def verify (t : Timestamp) : Bool :=
  t.year ≤ 9999 && verifyField t.month 12 true && verifyField t.day 31 t.month.isSome
    && verifyField t.hour 23 t.day.isSome && verifyField t.minute 59 t.hour.isSome
    && verifyField t.second 59 t.minute.isSome

end Timestamp
end Lofty
