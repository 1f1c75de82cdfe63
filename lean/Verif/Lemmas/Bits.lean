import Mathlib.Tactic.IntervalCases
/-! Helper lemmas about bit vectors. -/
namespace Lofty

theorem getElem_of_toNat_lt {w k : Nat} {n : BitVec w} (h : n.toNat < 2 ^ k) {i : Nat}
    (hw : i < w) (hi : k ≤ i) : n[i] = false := by
  rw [← BitVec.getLsbD_eq_getElem, BitVec.getLsbD]
  exact Nat.testBit_lt_two_pow (Nat.lt_of_lt_of_le h (Nat.pow_le_pow_right (by omega) hi))

end Lofty
