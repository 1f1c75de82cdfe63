import Verif.Model.Float64
import Mathlib.Algebra.Order.Field.Basic
import Mathlib.Data.Rat.Floor
import Mathlib.Tactic.Linarith
import Mathlib.Tactic.FieldSimp
import Mathlib.Tactic.Positivity
import Mathlib.Tactic.Ring
/-!
# Lemmas about rounding
-/
namespace Lofty.Float64

theorem pow2_eq (e : Int) : pow2 e = (2 : ℚ) ^ e := by
  cases e with
  | ofNat n => simp [pow2]
  | negSucc n => simp [pow2, zpow_negSucc]

theorem pow2_pos (e : Int) : 0 < pow2 e := by rw [pow2_eq]; exact zpow_pos (by norm_num) e

theorem pow2_add (a b : Int) : pow2 (a + b) = pow2 a * pow2 b := by
  simp only [pow2_eq]; rw [zpow_add₀ (by norm_num)]

theorem floor_eq (q : ℚ) : q.floor = ⌊q⌋ := rfl

/-- Up to a half away. -/
theorem nearestEven_err (q : ℚ) : |(nearestEven q : ℚ) - q| ≤ 1 / 2 := by
  have h1 := Int.floor_le q
  have h2 := Int.lt_floor_add_one q
  unfold nearestEven
  rw [floor_eq]
  simp only
  rw [abs_le]
  split
  · constructor <;> linarith
  · split
    · push_cast; constructor <;> linarith
    · split
      · constructor <;> linarith
      · push_cast; constructor <;> linarith

theorem nearestEven_int (n : ℤ) : nearestEven (n : ℚ) = n := by
  unfold nearestEven
  rw [floor_eq, Int.floor_intCast]
  simp

theorem expo_le {x : ℚ} (hx : 0 < x) : pow2 (expo x) ≤ x ∧ x < pow2 (expo x + 1) := by
  have hn : 0 < x.num := Rat.num_pos.mpr hx
  have hd := x.den_pos
  obtain ⟨n, hn'⟩ : ∃ n : ℕ, x.num = n := ⟨x.num.toNat, by omega⟩
  have hxd : x * (x.den : ℚ) = n := by
    rw [Rat.mul_den_eq_num, hn']; rfl
  have hn0 : n ≠ 0 := by omega
  have a1 := Nat.log2_self_le hn0
  have a2 := Nat.lt_log2_self (n := n)
  have b1 := Nat.log2_self_le (Nat.pos_iff_ne_zero.mp hd)
  have b2 := Nat.lt_log2_self (n := x.den)
  have a1' : (2 : ℚ) ^ n.log2 ≤ n := by exact_mod_cast a1
  have a2' : (n : ℚ) < 2 ^ (n.log2 + 1) := by exact_mod_cast a2
  have b1' : (2 : ℚ) ^ x.den.log2 ≤ x.den := by exact_mod_cast b1
  have b2' : (x.den : ℚ) < 2 ^ (x.den.log2 + 1) := by exact_mod_cast b2
  have hdq : (0 : ℚ) < x.den := by exact_mod_cast hd
  unfold expo
  rw [hn', Int.toNat_natCast]
  simp only
  have up : x < pow2 ((n.log2 : ℤ) - (x.den.log2 : ℤ) + 1) := by
    rw [pow2_eq, show (n.log2 : ℤ) - (x.den.log2 : ℤ) + 1 = ((n.log2 + 1 : ℕ) : ℤ) - (x.den.log2 : ℤ) by push_cast; ring,
      zpow_sub₀ (by norm_num), zpow_natCast, zpow_natCast, lt_div_iff₀ (by positivity)]
    calc x * 2 ^ x.den.log2 ≤ x * x.den := by apply mul_le_mul_of_nonneg_left b1' hx.le
      _ = n := hxd
      _ < _ := a2'
  have low : pow2 ((n.log2 : ℤ) - (x.den.log2 : ℤ) - 1) ≤ x := by
    rw [pow2_eq, show (n.log2 : ℤ) - (x.den.log2 : ℤ) - 1 = ((n.log2 : ℕ) : ℤ) - ((x.den.log2 + 1 : ℕ) : ℤ) by push_cast; ring,
      zpow_sub₀ (by norm_num), zpow_natCast, zpow_natCast, div_le_iff₀ (by positivity)]
    calc (2 : ℚ) ^ n.log2 ≤ n := a1'
      _ = x * x.den := hxd.symm
      _ ≤ _ := mul_le_mul_of_nonneg_left b2'.le hx.le
  split
  · next h => exact ⟨h, up⟩
  · next h =>
    refine ⟨low, ?_⟩
    rw [show (n.log2 : ℤ) - (x.den.log2 : ℤ) - 1 + 1 = (n.log2 : ℤ) - (x.den.log2 : ℤ) by ring]
    exact lt_of_not_ge h

/-- The relative error of rounding is at most 2^-53. -/
theorem rnd_err {x : ℚ} (hx : 0 ≤ x) : |rnd x - x| ≤ x / 2 ^ 53 := by
  unfold rnd
  split
  · next h =>
    have : x = 0 := le_antisymm h hx
    subst this; simp
  · next h =>
    have hx : 0 < x := lt_of_not_ge h
    simp only
    obtain ⟨h1, -⟩ := expo_le hx
    have hs := pow2_pos (expo x - 52)
    have e := nearestEven_err (x / pow2 (expo x - 52))
    have : (nearestEven (x / pow2 (expo x - 52)) : ℚ) * pow2 (expo x - 52) - x
        = (nearestEven (x / pow2 (expo x - 52)) - x / pow2 (expo x - 52)) * pow2 (expo x - 52) := by
      field_simp
    rw [this, abs_mul, abs_of_pos hs]
    calc _ ≤ 1 / 2 * pow2 (expo x - 52) := mul_le_mul_of_nonneg_right e hs.le
      _ = pow2 (expo x) / 2 ^ 53 := by
        rw [show expo x - 52 = expo x + (-52) by ring, pow2_add, pow2_eq (-52)]
        norm_num
        ring
      _ ≤ _ := by apply div_le_div_of_nonneg_right h1 (by positivity)

/-- Numbers of 53 bits are not changed by rounding. -/
theorem rnd_exact {m : ℕ} (hm : m < 2 ^ 53) (e : ℤ) : rnd (m * pow2 e) = m * pow2 e := by
  unfold rnd
  split
  · next h =>
    have := pow2_pos e
    have hm0 : (m : ℚ) ≤ 0 := by
      by_contra hc
      have : 0 < (m : ℚ) * pow2 e := mul_pos (lt_of_not_ge hc) this
      linarith
    have : (m : ℚ) = 0 := le_antisymm hm0 (by positivity)
    rw [this]; ring
  · next h =>
    have hx : 0 < (m : ℚ) * pow2 e := lt_of_not_ge h
    simp only
    generalize hk : (m : ℚ) * pow2 e = x at hx
    obtain ⟨h1, -⟩ := expo_le hx
    -- the exponent of the last bit is at most e
    have hlt : expo x - 52 ≤ e := by
      by_contra hc
      have hc : e + 53 ≤ expo x := by omega
      have : pow2 (e + 53) ≤ pow2 (expo x) := by
        simp only [pow2_eq]
        exact zpow_le_zpow_right₀ (by norm_num) hc
      have h53 : x < pow2 (e + 53) := by
        rw [← hk, pow2_add, mul_comm]
        apply mul_lt_mul_of_pos_left _ (pow2_pos e)
        rw [pow2_eq]
        exact_mod_cast hm
      linarith
    obtain ⟨k, hk2⟩ : ∃ k : ℕ, e = expo x - 52 + k := ⟨(e - (expo x - 52)).toNat, by omega⟩
    have hs := pow2_pos (expo x - 52)
    have : x / pow2 (expo x - 52) = ((m * 2 ^ k : ℕ) : ℤ) := by
      rw [div_eq_iff hs.ne']
      have : pow2 e = pow2 (expo x - 52) * 2 ^ k := by
        conv_lhs => rw [hk2, pow2_add, pow2_eq (k : ℤ), zpow_natCast]
      refine hk.symm.trans ?_
      rw [this]
      push_cast
      ring
    rw [this, nearestEven_int, ← this]
    field_simp

theorem rnd_nonneg (x : ℚ) : 0 ≤ rnd x := by
  rcases le_or_gt x 0 with h | h
  · simp [rnd, h]
  · have := rnd_err h.le
    rw [abs_le] at this
    have : x / 2 ^ 53 ≤ x := by
      rw [div_le_iff₀ (by positivity)]
      nlinarith
    linarith

theorem rnd_nat {n : ℕ} (h : n < 2 ^ 53) : rnd n = n := by
  have := rnd_exact h 0
  simpa [pow2] using this

theorem rnd_half {n : ℕ} (h : n < 2 ^ 53) : rnd (n / 2) = n / 2 := by
  have := rnd_exact h (-1)
  rw [pow2_eq] at this
  simpa [div_eq_mul_inv] using this

theorem nearestEven_ge {n : ℤ} {q : ℚ} (h : (n : ℚ) ≤ q) : n ≤ nearestEven q := by
  have : n ≤ ⌊q⌋ := Int.le_floor.mpr h
  unfold nearestEven
  rw [floor_eq]
  simp only
  split
  · exact this
  · split
    · omega
    · split <;> omega

/-- Rounding does not move a number below a number of 53 bits. -/
theorem rnd_ge {m : ℕ} (hm : m < 2 ^ 53) (e : ℤ) {x : ℚ} (h : m * pow2 e ≤ x) : m * pow2 e ≤ rnd x := by
  rcases le_or_gt x 0 with hx | hx
  · exact (h.trans hx).trans (rnd_nonneg x)
  · unfold rnd
    rw [if_neg (not_le.mpr hx)]
    simp only
    obtain ⟨h1, -⟩ := expo_le hx
    have hs := pow2_pos (expo x - 52)
    by_cases hc : expo x - 52 ≤ e
    · obtain ⟨k, hk⟩ : ∃ k : ℕ, e = expo x - 52 + k := ⟨(e - (expo x - 52)).toNat, by omega⟩
      have he : (m : ℚ) * pow2 e = ((m * 2 ^ k : ℕ) : ℤ) * pow2 (expo x - 52) := by
        have : pow2 e = pow2 (expo x - 52) * 2 ^ k := by
          conv_lhs => rw [hk, pow2_add, pow2_eq (k : ℤ), zpow_natCast]
        rw [this]
        push_cast
        ring
      rw [he] at h ⊢
      apply mul_le_mul_of_nonneg_right _ hs.le
      have := nearestEven_ge ((le_div_iff₀ hs).mpr h)
      exact_mod_cast this
    · have h53 : (m : ℚ) * pow2 e ≤ pow2 (expo x) := by
        calc (m : ℚ) * pow2 e ≤ 2 ^ 53 * pow2 e := by
              apply mul_le_mul_of_nonneg_right _ (pow2_pos e).le
              exact_mod_cast hm.le
          _ = pow2 (e + 53) := by rw [pow2_add, pow2_eq 53, mul_comm]; norm_num
          _ ≤ _ := by
              simp only [pow2_eq]
              exact zpow_le_zpow_right₀ (by norm_num) (by omega)
      refine h53.trans ?_
      have he : pow2 (expo x) = ((2 ^ 52 : ℕ) : ℤ) * pow2 (expo x - 52) := by
        conv_lhs => rw [show expo x = expo x - 52 + (52 : ℕ) by push_cast; ring, pow2_add, pow2_eq ((52 : ℕ) : ℤ), zpow_natCast]
        push_cast
        ring
      rw [he] at h1
      conv_lhs => rw [he]
      apply mul_le_mul_of_nonneg_right _ hs.le
      have := nearestEven_ge ((le_div_iff₀ hs).mpr h1)
      exact_mod_cast this

theorem rnd_ge_half {k : ℕ} (hk : k < 2 ^ 53) {x : ℚ} (h : (k : ℚ) / 2 ≤ x) : (k : ℚ) / 2 ≤ rnd x := by
  have := rnd_ge hk (-1) (x := x)
  rw [pow2_eq] at this
  have e : (k : ℚ) * 2 ^ (-1 : ℤ) = k / 2 := by norm_num; ring
  rw [e] at this
  exact this h

theorem rnd_le {x : ℚ} (hx : 0 ≤ x) : rnd x ≤ x + x / 2 ^ 53 := by
  have := (abs_le.mp (rnd_err hx)).2
  linarith

/-- A fraction rounded to a floating point number and truncated is the quotient. -/
theorem floor_rnd {a b : ℕ} (hb : 0 < b) (ha : a < 2 ^ 52) : ⌊rnd ((a : ℚ) / b)⌋ = ((a / b : ℕ) : ℤ) := by
  have hbq : (0 : ℚ) < b := by exact_mod_cast hb
  rw [Int.floor_eq_iff]
  have hq : ((a / b : ℕ) : ℚ) ≤ (a : ℚ) / b := by
    rw [le_div_iff₀ hbq]
    exact_mod_cast Nat.div_mul_le_self a b
  have hle : a / b ≤ a := Nat.div_le_self a b
  constructor
  · have := rnd_ge (m := a / b) (by omega) 0 (x := (a : ℚ) / b)
    simp only [pow2, pow_zero, Nat.cast_one, mul_one] at this
    exact_mod_cast this hq
  · have h0 : (0 : ℚ) ≤ (a : ℚ) / b := by positivity
    refine (rnd_le h0).trans_lt ?_
    have hlt : a + 1 ≤ (a / b + 1) * b := Nat.lt_mul_of_div_lt (by omega) hb
    have hlt' : (a : ℚ) + 1 ≤ (((a / b : ℕ) : ℚ) + 1) * b := by exact_mod_cast hlt
    have haq : (a : ℚ) < 2 ^ 52 := by exact_mod_cast ha
    rw [← mul_lt_mul_iff_of_pos_right hbq]
    have e : ((a : ℚ) / b + (a : ℚ) / b / 2 ^ 53) * b = a + a / 2 ^ 53 := by field_simp
    rw [e, Int.cast_natCast]
    have : (a : ℚ) / 2 ^ 53 < 1 := by rw [div_lt_one (by positivity)]; linarith
    linarith

/-- A fraction rounded to a floating point number, to which a half is added, and truncated, is the nearest integer to the fraction. -/
theorem floor_rnd_half {a b : ℕ} (hb : 0 < b) (ha : a < 2 ^ 49) (hb' : b < 2 ^ 49) :
    ⌊rnd (rnd ((a : ℚ) / b) + 1 / 2)⌋ = (((2 * a + b) / (2 * b) : ℕ) : ℤ) := by
  have hbq : (0 : ℚ) < b := by exact_mod_cast hb
  have haq : (a : ℚ) < 2 ^ 49 := by exact_mod_cast ha
  have hbq' : (b : ℚ) < 2 ^ 49 := by exact_mod_cast hb'
  have h0 : (0 : ℚ) ≤ (a : ℚ) / b := by positivity
  have h2b : 0 < 2 * b := by omega
  generalize hk : (2 * a + b) / (2 * b) = k
  have hk1 : k * (2 * b) ≤ 2 * a + b := by rw [← hk]; exact Nat.div_mul_le_self _ _
  have hk2 : 2 * a + b + 1 ≤ (k + 1) * (2 * b) := Nat.lt_mul_of_div_lt (by omega) h2b
  have hkb : k ≤ 2 * a + b := by rw [← hk]; exact Nat.div_le_self _ _
  have hk1' : (k : ℚ) * (2 * b) ≤ 2 * a + b := by exact_mod_cast hk1
  have hk2' : (2 : ℚ) * a + b + 1 ≤ (k + 1) * (2 * b) := by exact_mod_cast hk2
  rw [Int.floor_eq_iff]
  have hr := rnd_le h0
  have hr0 := rnd_nonneg ((a : ℚ) / b)
  constructor
  · have hy : (k : ℚ) ≤ rnd ((a : ℚ) / b) + 1 / 2 := by
      cases k with
      | zero => push_cast; linarith
      | succ k =>
        have : ((2 * k + 1 : ℕ) : ℚ) / 2 ≤ rnd ((a : ℚ) / b) := by
          apply rnd_ge_half (by omega)
          rw [div_le_div_iff₀ (by positivity) hbq]
          push_cast at hk1' ⊢
          linarith
        push_cast at this ⊢
        linarith
    have := rnd_ge (m := k) (by omega) 0 (x := rnd ((a : ℚ) / b) + 1 / 2)
    simp only [pow2, pow_zero, Nat.cast_one, mul_one] at this
    exact_mod_cast this hy
  · have h1 := rnd_le (x := rnd ((a : ℚ) / b) + 1 / 2) (by linarith)
    refine h1.trans_lt ?_
    rw [← mul_lt_mul_iff_of_pos_right hbq]
    have e1 : (rnd ((a : ℚ) / b)) * b ≤ a + a / 2 ^ 53 := by
      calc _ ≤ ((a : ℚ) / b + (a : ℚ) / b / 2 ^ 53) * b := mul_le_mul_of_nonneg_right hr hbq.le
        _ = _ := by field_simp
    have : (rnd ((a : ℚ) / b) + 1 / 2 + (rnd ((a : ℚ) / b) + 1 / 2) / 2 ^ 53) * b
        = (rnd ((a : ℚ) / b) * b + b / 2) * (1 + 1 / 2 ^ 53) := by ring
    rw [this]
    push_cast
    have e2 : (rnd ((a : ℚ) / b) * b + b / 2) * (1 + 1 / 2 ^ 53) ≤ (a + a / 2 ^ 53 + b / 2) * (1 + 1 / 2 ^ 53) := by
      apply mul_le_mul_of_nonneg_right _ (by positivity)
      linarith
    refine e2.trans_lt ?_
    have e3 : (a + a / 2 ^ 53 + b / 2) * (1 + 1 / 2 ^ 53) < (a : ℚ) + b / 2 + 1 / 2 := by
      norm_num
      linarith
    linarith

end Lofty.Float64
