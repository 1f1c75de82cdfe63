import Verif.Model.Bytes
/-! Specifications for C01 and C02. -/
namespace Lofty.Synchsafe

/-- No byte of the value has its top bit set: the specification of a synchsafe
integer of `w` bits. -/
def TopBitsClear {w : Nat} (s : BitVec w) : Prop := ∀ i, i < w → i % 8 = 7 → s.getLsbD i = false

/-- Specification: remove every zero byte that directly follows a `0xFF`
(the pair is consumed together, so in `FF 00 00` only the first zero goes). -/
def desync : Bytes → Bytes
  | [] => []
  | [b] => [b]
  | a :: b :: r => if a = 0xFF ∧ b = 0 then a :: desync r else a :: desync (b :: r)

/-- Specification of unsynchronisation as ID3v2 describes it: insert a zero byte
after every `0xFF` for which `needs` (a function of the bytes that follow) says so. -/
def unsyncWith (needs : Bytes → Bool) : Bytes → Bytes
  | [] => []
  | b :: r => if b = 0xFF ∧ needs r = true then b :: 0 :: unsyncWith needs r
              else b :: unsyncWith needs r

/-- Splitting a byte sequence into consecutive pieces of the given sizes (the
last ones shorter or empty once the sequence is exhausted). -/
def pieces (bs : Bytes) : List Nat → List Bytes
  | [] => []
  | n :: ns => bs.take n :: pieces (bs.drop n) ns

/-- The rule of the ID3v2 specification: a `0xFF` is followed by a zero byte when
the next byte is zero or at least `0xE0`, or at the end of the data. -/
def id3Rule : Bytes → Bool
  | [] => true
  | b :: _ => b == 0 || b ≥ 0xE0

end Lofty.Synchsafe
