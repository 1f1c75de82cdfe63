import Verif.Model.Bytes
import Mathlib.Algebra.Polynomial.Basic
import Mathlib.Data.ZMod.Basic
/-!
Specification for C08: cyclic redundancy checks, bit by bit and as a remainder of
polynomials over the two-element field.
-/
namespace Lofty.Ogg

open Polynomial

/-- The low 32 coefficients of the generator polynomial 0x104C11DB7. -/
def crcPoly : BitVec 32 := 0x04C11DB7

/-- Feed one message bit to the shift register. -/
def crcBit (c : BitVec 32) (b : Bool) : BitVec 32 :=
  (c <<< 1) ^^^ (if c.msb ^^ b then crcPoly else 0)

/-- The bits of a byte string, most significant bit of each byte first. -/
def bitsOf (bs : Bytes) : List Bool :=
  bs.flatMap fun b => (List.range 8).map fun i => b.toBitVec.getMsbD i

/-- Bitwise checksum: zero initial register, no reflection, no final inversion. -/
def crcSpec (bits : List Bool) : BitVec 32 := bits.foldl crcBit 0

/-- The polynomial whose coefficient of `X ^ i` is bit `i` of the word. -/
noncomputable def wordPoly (w : BitVec 32) : (ZMod 2)[X] :=
  ∑ i ∈ Finset.range 32, if w.getLsbD i then X ^ i else 0

/-- The generator polynomial `X^32 + X^26 + X^23 + .. + 1`. -/
noncomputable def generator : (ZMod 2)[X] := X ^ 32 + wordPoly crcPoly

/-- The message polynomial: first bit is the highest coefficient. -/
noncomputable def messagePoly (bits : List Bool) : (ZMod 2)[X] :=
  bits.foldl (fun p b => p * X + (if b then 1 else 0)) 0

/-- XOR of two equally long byte strings. -/
def xorBytes (a b : Bytes) : Bytes := List.zipWith (· ^^^ ·) a b

end Lofty.Ogg
