/-!
# Bytes, fixed-width integers and readers

Shared vocabulary of the model.  A reader (`std::io::Read` over an in-memory or
on-disk source) is the list of bytes that are still to be read; every read
function returns what it read together with the rest.
-/
namespace Lofty

/-- A byte buffer (`Vec<u8>`, `&[u8]`, the contents of a file). -/
abbrev Bytes := List UInt8

/-- The error values the model distinguishes.  `panic` is a Rust panic (index
out of range, `unwrap` on `None`, arithmetic overflow in a debug build, division
by zero). -/
inductive Err
  | eof            -- `std::io::ErrorKind::UnexpectedEof` from `read_exact`
  | parse          -- any `*ParseError::message(..)` and marker errors
  | tooMuch        -- `TooMuchDataError`
  | sizeMismatch   -- `SizeMismatchError`
  | notEnough      -- `NotEnoughDataError` / `PageError::NotEnoughData`
  | badText        -- text decoding errors
  | encode         -- any `*EncodingError`
  | unsupported    -- unsupported tag / version
  | alloc          -- allocation limit exceeded
  | panic          -- a Rust panic
  | diverge        -- the fuel of a loop of the model ran out (proved unreachable)
  deriving DecidableEq, Repr

/-- Equality of results is decidable (used by the concrete examples only). -/
instance {ε α} [DecidableEq ε] [DecidableEq α] : DecidableEq (Except ε α)
  | .ok a, .ok b => if h : a = b then isTrue (h ▸ rfl) else isFalse (fun e => h (by injection e))
  | .error a, .error b =>
    if h : a = b then isTrue (h ▸ rfl) else isFalse (fun e => h (by injection e))
  | .ok _, .error _ => isFalse (fun e => by cases e)
  | .error _, .ok _ => isFalse (fun e => by cases e)

/-- `u16/u32/u64::to_le_bytes` (and `WriteBytesExt::write_uN::<LittleEndian>`),
for a width of `k` bytes.  Values that do not fit wrap, as an `as uN` cast does. -/
def leBytes : Nat → Nat → Bytes
  | 0, _ => []
  | k + 1, n => UInt8.ofNat n :: leBytes k (n / 256)

/-- `uN::from_le_bytes`. -/
def fromLE : Bytes → Nat
  | [] => 0
  | b :: bs => b.toNat + 256 * fromLE bs

/-- `u16/u32/u64::to_be_bytes` (and `write_uN::<BigEndian>`), width `k` bytes. -/
def beBytes (k n : Nat) : Bytes := (leBytes k n).reverse

/-- `uN::from_be_bytes`. -/
def fromBE (bs : Bytes) : Nat := fromLE bs.reverse

/-- `Read::read_exact` into a buffer of `n` bytes. -/
def readN (n : Nat) (r : Bytes) : Except Err (Bytes × Bytes) :=
  if n ≤ r.length then .ok (r.take n, r.drop n) else .error .eof

/-- `ReadBytesExt::read_u8`. -/
def readU8 : Bytes → Except Err (UInt8 × Bytes)
  | [] => .error .eof
  | b :: r => .ok (b, r)

/-- `ReadBytesExt::read_uN::<LittleEndian>` for an `N = 8*k` bit integer. -/
def readLE (k : Nat) (r : Bytes) : Except Err (Nat × Bytes) :=
  match readN k r with
  | .ok (b, r) => .ok (fromLE b, r)
  | .error e => .error e

/-- `ReadBytesExt::read_uN::<BigEndian>` for an `N = 8*k` bit integer. -/
def readBE (k : Nat) (r : Bytes) : Except Err (Nat × Bytes) :=
  match readN k r with
  | .ok (b, r) => .ok (fromBE b, r)
  | .error e => .error e

/-- An ASCII string literal as bytes (`b"..."`). -/
def ascii (s : String) : Bytes := s.toList.map fun c => UInt8.ofNat c.toNat

end Lofty
