import Verif.Model.Text
/-!
# ASCII case, decimal numbers

The parts of the Rust standard library used on keys and numeric values.
-/
namespace Lofty

/-- `char::to_ascii_lowercase`. -/
def lowerChar (c : Char) : Char :=
  if 'A'.toNat ≤ c.toNat ∧ c.toNat ≤ 'Z'.toNat then Char.ofNat (c.toNat + 32) else c

/-- `u8::to_ascii_lowercase`. -/
def lowerByte (c : UInt8) : UInt8 :=
  if 65 ≤ c.toNat ∧ c.toNat ≤ 90 then UInt8.ofNat (c.toNat + 32) else c

/-- `str::eq_ignore_ascii_case`. -/
def eqIc (a b : Str) : Bool := a.map lowerChar == b.map lowerChar

/-- `<[u8]>::eq_ignore_ascii_case`. -/
def eqIcB (a b : Bytes) : Bool := a.map lowerByte == b.map lowerByte

/-- `u32::to_string` and the other unsigned integers' `Display`. -/
def toDec (n : Nat) : Str := Nat.toDigits 10 n

/-- Value of an ASCII digit (`char::to_digit(10)`). -/
def digitVal (c : Char) : Option Nat :=
  if '0'.toNat ≤ c.toNat ∧ c.toNat ≤ '9'.toNat then some (c.toNat - '0'.toNat) else none

/-- The digit loop of `uN::from_str`: `none` on a non-digit or when the value leaves
`0..max` (`checked_mul`/`checked_add`). -/
def parseDigits (max : Nat) : Nat → Str → Option Nat
  | acc, [] => some acc
  | acc, c :: cs =>
    match digitVal c with
    | none => none
    | some d => if acc * 10 + d < max then parseDigits max (acc * 10 + d) cs else none

/-- `uN::from_str` for an unsigned type with `max` values: an optional `+` and at least
one digit. -/
def parseUInt (max : Nat) (s : Str) : Option Nat :=
  match s with
  | [] => none
  | '+' :: cs => if cs = [] then none else parseDigits max 0 cs
  | cs => parseDigits max 0 cs

/-- `str::parse::<u32>`. -/
def parseU32 (s : Str) : Option Nat := parseUInt (2 ^ 32) s

/-- `str::splitn(2, sep)`: the part before the first separator and, if there is one, the
part after it. -/
def split2 {α} [DecidableEq α] (sep : α) : List α → List α × Option (List α)
  | [] => ([], none)
  | c :: cs => if c = sep then ([], some cs) else
    let (a, b) := split2 sep cs
    (c :: a, b)

end Lofty
