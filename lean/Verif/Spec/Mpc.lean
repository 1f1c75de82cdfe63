import Verif.Model.Mpc
/-!
# The layout of Musepack stream version 8
-/
namespace Lofty.Mpc.Spec

/-- `n` in `k` groups of seven bits, the most significant first; every byte but the last has its top bit set. -/
def size : Nat → Nat → Bytes
  | 0, _ => []
  | k + 1, n => UInt8.ofNat (n / 128 ^ k % 128 + if k = 0 then 0 else 128) :: size k n

/-- A packet; the size field has `width` bytes and counts the key and itself. -/
structure Packet where
  key : Bytes
  width : Nat
  payload : Bytes

/-- The bytes of a packet. -/
def Packet.bytes (p : Packet) : Bytes := p.key ++ size p.width (2 + p.width + p.payload.length) ++ p.payload

/-- The key consists of two capital letters and the size fits into its field. -/
structure Packet.Valid (p : Packet) : Prop where
  key : p.key.length = 2 ∧ ∀ b ∈ p.key, 65 ≤ b.toNat ∧ b.toNat ≤ 90
  width : 1 ≤ p.width ∧ p.width ≤ 9
  fits : 2 + p.width + p.payload.length < 128 ^ p.width

/-- The content of the last packet with a key. -/
def last (key : String) (l : List Packet) : Option Bytes := ((l.filter (·.key = ascii key)).getLast?).map (·.payload)

end Lofty.Mpc.Spec
