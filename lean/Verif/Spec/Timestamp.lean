import Verif.Model.Timestamp
/-!
# Specification of timestamp texts

The ISO 8601 subset, written down without reference to the parser.
-/
namespace Lofty.Timestamp

/-- A decimal digit as an ASCII byte. -/
def dig (d : Nat) : UInt8 := UInt8.ofNat (48 + d)

/-- `n` in two digits. -/
def two (n : Nat) : Bytes := [dig (n / 10), dig (n % 10)]

/-- `n` in four digits. -/
def four (n : Nat) : Bytes := [dig (n / 1000), dig (n / 100 % 10), dig (n / 10 % 10), dig (n % 10)]

/-- A separator, or nothing in the compact form. -/
def sepB (seps : Bool) (b : UInt8) : Bytes := if seps then [b] else []

/-- The text of a timestamp: `YYYY-MM-DDThh:mm:ss` (`seps`), or `YYYYMMDDThhmmss`,
cut behind the last component present. -/
def render (seps : Bool) : Timestamp → Bytes
  | ⟨y, some mo, some d, some h, some mi, some s⟩ =>
    four y ++ sepB seps 45 ++ two mo ++ sepB seps 45 ++ two d ++ [84] ++ two h
      ++ sepB seps 58 ++ two mi ++ sepB seps 58 ++ two s
  | ⟨y, some mo, some d, some h, some mi, none⟩ =>
    four y ++ sepB seps 45 ++ two mo ++ sepB seps 45 ++ two d ++ [84] ++ two h ++ sepB seps 58 ++ two mi
  | ⟨y, some mo, some d, some h, none, _⟩ =>
    four y ++ sepB seps 45 ++ two mo ++ sepB seps 45 ++ two d ++ [84] ++ two h
  | ⟨y, some mo, some d, none, _, _⟩ => four y ++ sepB seps 45 ++ two mo ++ sepB seps 45 ++ two d
  | ⟨y, some mo, none, _, _, _⟩ => four y ++ sepB seps 45 ++ two mo
  | ⟨y, none, _, _, _, _⟩ => four y

/-- No component without all coarser ones, and every component has the number of digits
it is written with. -/
structure Shape (t : Timestamp) : Prop where
  year : t.year ≤ 9999
  month : ∀ x ∈ t.month, x ≤ 99
  day : ∀ x ∈ t.day, x ≤ 99 ∧ t.month.isSome
  hour : ∀ x ∈ t.hour, x ≤ 99 ∧ t.day.isSome
  minute : ∀ x ∈ t.minute, x ≤ 99 ∧ t.hour.isSome
  second : ∀ x ∈ t.second, x ≤ 99 ∧ t.minute.isSome

/-- The documented ranges (timestamp.rs 27-40, 126-131). -/
structure InRange (t : Timestamp) : Prop where
  year : t.year ≤ 9999
  month : ∀ x ∈ t.month, x ≤ 12
  day : ∀ x ∈ t.day, x ≤ 31 ∧ t.month.isSome
  hour : ∀ x ∈ t.hour, x ≤ 23 ∧ t.day.isSome
  minute : ∀ x ∈ t.minute, x ≤ 59 ∧ t.hour.isSome
  second : ∀ x ∈ t.second, x ≤ 59 ∧ t.minute.isSome

/-- The separators `-`, `.` and `:`. -/
def IsMark (b : UInt8) : Prop := b = 45 ∨ b = 46 ∨ b = 58

/-- The text of exactly the timestamp `t`.  Behind a complete compact timestamp up to four more bytes
(the rest of the 19 that are looked at) are tolerated as long as they are no separators. -/
def StrictText (r : Bytes) (t : Timestamp) : Prop :=
  Shape t ∧ ∃ seps tail, r.take 19 = render seps t ++ tail ∧
    (tail ≠ [] → seps = false ∧ t.second.isSome ∧ ∀ b ∈ tail, ¬ IsMark b)

end Lofty.Timestamp
