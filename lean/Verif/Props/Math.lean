import Verif.Model.Math
/-! # C06: rounded division -/
namespace Lofty.Math

/-- C06: the call succeeds exactly when the divisor is non-zero and the sum fits. -/
theorem divRound_ok_iff (w a b : Nat) :
    (∃ q, divRound w a b = .ok q) ↔ 0 < b ∧ a + b / 2 < 2 ^ w := by
  unfold divRound
  split
  · simp; omega
  · split
    · simp; omega
    · simp; omega

/-- C06: the result is the nearest integer to `a / b`, ties rounded up:
`q - 1/2 ≤ a/b < q + 1/2`, up to the parity of the divisor. -/
theorem divRound_nearest (w a b q : Nat) (h : divRound w a b = .ok q) :
    2 * q * b ≤ 2 * a + b ∧ 2 * a < 2 * q * b + b := by
  unfold divRound at h
  split at h
  · cases h
  · split at h
    · cases h
    · rename_i hb _
      injection h with h
      have hb' : 0 < b := by omega
      have h1 := Nat.div_mul_le_self (a + b / 2) b
      have h2 := Nat.lt_div_mul_add hb' (a := a + b / 2)
      rw [h] at h1 h2
      rw [Nat.mul_assoc]
      omega

/-- C06: monotone in the numerator. -/
theorem divRound_mono (w a a' b q q' : Nat) (h : a ≤ a') (hq : divRound w a b = .ok q)
    (hq' : divRound w a' b = .ok q') : q ≤ q' := by
  unfold divRound at hq hq'
  split at hq
  · cases hq
  · split at hq
    · cases hq
    · split at hq'
      · cases hq'
      · split at hq'
        · cases hq'
        injection hq with hq
        injection hq' with hq'
        subst hq hq'
        exact Nat.div_le_div_right (by omega)

/-- C06: never more than one above the truncated quotient, never below it. -/
theorem divRound_trunc (w a b q : Nat) (h : divRound w a b = .ok q) :
    a / b ≤ q ∧ q ≤ a / b + 1 := by
  unfold divRound at h
  split at h
  · cases h
  · split at h
    · cases h
    · rename_i hb _
      injection h with h
      subst h
      constructor
      · exact Nat.div_le_div_right (by omega)
      · rw [← Nat.add_div_right _ (by omega)]
        exact Nat.div_le_div_right (by omega)

/-- The comment "if the result is less than 1, it will be rounded up to 1" is false. -/
theorem divRound_below_half : divRound 32 1500 4000 = .ok 0 := by decide

example : divRound 32 1500 3000 = .ok 1 := by decide
example : divRound 64 7 2 = .ok 4 ∧ divRound 64 8 2 = .ok 4 := by decide

end Lofty.Math
