import Verif.Model.Id3v2Header
import Verif.Lemmas.Bytes
import Verif.Props.Synchsafe
/-! Helper lemmas for the ID3v2 header. -/
namespace Lofty.Id3v2

theorem and_mask (x s : Nat) : x &&& (127 * 2 ^ s) = (x / 2 ^ s % 128) * 2 ^ s := by
  apply Nat.eq_of_testBit_eq
  intro i
  rw [Nat.testBit_and, Nat.testBit_mul_two_pow, Nat.testBit_mul_two_pow]
  rw [show 128 = 2 ^ 7 from rfl, Nat.testBit_mod_two_pow, Nat.testBit_div_two_pow]
  rw [show 127 = 2 ^ 7 - 1 from rfl, Nat.testBit_two_pow_sub_one]
  by_cases h : s ≤ i
  · simp only [h, decide_true, Bool.true_and]
    rw [show i - s + s = i by omega]
    cases h7 : decide (i - s < 7) <;> simp
  · simp [h]

/-- The synchsafe value of four bytes. -/
theorem unsynch_eq (n : Nat) (h : n < 2 ^ 32) :
    unsynch n = (n / 2 ^ 24 % 128) * 2 ^ 21 + (n / 2 ^ 16 % 128) * 2 ^ 14 + (n / 2 ^ 8 % 128) * 2 ^ 7 + n % 128 := by
  unfold unsynch Synchsafe.unsynch32
  simp only [BitVec.toNat_or, BitVec.toNat_and, BitVec.toNat_ushiftRight, BitVec.toNat_ofNat]
  rw [Nat.mod_eq_of_lt h]
  have e1 : (0x7F000000 % 2 ^ 32 : Nat) = 127 * 2 ^ 24 := by decide
  have e2 : (0x7F0000 % 2 ^ 32 : Nat) = 127 * 2 ^ 16 := by decide
  have e3 : (0x7F00 % 2 ^ 32 : Nat) = 127 * 2 ^ 8 := by decide
  have e4 : (0x7F % 2 ^ 32 : Nat) = 127 * 2 ^ 0 := by decide
  rw [e1, e2, e3, e4, and_mask, and_mask, and_mask, and_mask]
  simp only [Nat.shiftRight_eq_div_pow]
  have sh : ∀ x a b : Nat, x * 2 ^ (a + b) / 2 ^ b = x * 2 ^ a := by
    intro x a b
    rw [Nat.pow_add, ← Nat.mul_assoc, Nat.mul_div_cancel _ (Nat.two_pow_pos b)]
  have a1 : (n / 2 ^ 24 % 128) * 2 ^ 24 / 2 ^ 3 = (n / 2 ^ 24 % 128) <<< 21 := by
    rw [Nat.shiftLeft_eq, sh _ 21 3]
  have a2 : (n / 2 ^ 16 % 128) * 2 ^ 16 / 2 ^ 2 = (n / 2 ^ 16 % 128) * 2 ^ 14 := sh _ 14 2
  have a3 : (n / 2 ^ 8 % 128) * 2 ^ 8 / 2 ^ 1 = (n / 2 ^ 8 % 128) * 2 ^ 7 := sh _ 7 1
  rw [a1, a2, a3]
  simp only [Nat.pow_zero, Nat.div_one, Nat.mul_one]
  rw [← Nat.shiftLeft_add_eq_or_of_lt (show (n / 2 ^ 16 % 128) * 2 ^ 14 < 2 ^ 21 by omega)]
  have b1 : (n / 2 ^ 24 % 128) <<< 21 + (n / 2 ^ 16 % 128) * 2 ^ 14
      = ((n / 2 ^ 24 % 128) * 2 ^ 7 + (n / 2 ^ 16 % 128)) <<< 14 := by
    rw [Nat.shiftLeft_eq, Nat.shiftLeft_eq]; omega
  rw [b1, ← Nat.shiftLeft_add_eq_or_of_lt (show (n / 2 ^ 8 % 128) * 2 ^ 7 < 2 ^ 14 by omega)]
  have b2 : ((n / 2 ^ 24 % 128) * 2 ^ 7 + (n / 2 ^ 16 % 128)) <<< 14 + (n / 2 ^ 8 % 128) * 2 ^ 7
      = (((n / 2 ^ 24 % 128) * 2 ^ 7 + (n / 2 ^ 16 % 128)) * 2 ^ 7 + (n / 2 ^ 8 % 128)) <<< 7 := by
    rw [Nat.shiftLeft_eq, Nat.shiftLeft_eq]; omega
  rw [b2, ← Nat.shiftLeft_add_eq_or_of_lt (show n % 128 < 2 ^ 7 by omega), Nat.shiftLeft_eq]
  omega

/-- Synchsafe encoding succeeds exactly below 2^28. -/
theorem synch_isSome (n : Nat) (h : n < 2 ^ 32) : (∃ s, synch n = some s) ↔ n < 2 ^ 28 := by
  unfold synch
  have := Synchsafe.synch32_isSome_iff (BitVec.ofNat 32 n)
  rw [BitVec.toNat_ofNat, Nat.mod_eq_of_lt h] at this
  rw [← this]
  cases Synchsafe.synch32 (BitVec.ofNat 32 n) <;> simp

theorem synch_none (n : Nat) (h : n < 2 ^ 32) : synch n = none ↔ 2 ^ 28 ≤ n := by
  have := synch_isSome n h
  cases hs : synch n with
  | none => rw [hs] at this; simp only [reduceCtorEq, exists_false, false_iff] at this; simp; omega
  | some s => rw [hs] at this; simp only [Option.some.injEq, exists_eq', true_iff] at this; simp; omega

theorem unsynch_synch (n s : Nat) (h : n < 2 ^ 32) (hs : synch n = some s) : unsynch s = n ∧ s < 2 ^ 32 := by
  unfold synch at hs
  cases h2 : Synchsafe.synch32 (BitVec.ofNat 32 n) with
  | none => rw [h2] at hs; cases hs
  | some b =>
    rw [h2] at hs
    simp only [Option.map_some, Option.some.injEq] at hs
    subst hs
    refine ⟨?_, b.isLt⟩
    have := (Synchsafe.synch32_roundtrip _ _ h2).1
    unfold unsynch
    rw [BitVec.ofNat_toNat, BitVec.setWidth_eq, this, BitVec.toNat_ofNat, Nat.mod_eq_of_lt h]

theorem need_append (a b c : Bytes) (n : Nat) (h : b.length = n) :
    need (a ++ (b ++ c)) a.length n = .ok (b, a.length + n) := by
  unfold need
  rw [if_pos (by simp; omega)]
  simp [← h]

theorem need_ok {d : Bytes} {pos n : Nat} (h : pos + n ≤ d.length) : need d pos n = .ok ((d.drop pos).take n, pos + n) := by
  rw [need, if_pos h]

end Lofty.Id3v2
