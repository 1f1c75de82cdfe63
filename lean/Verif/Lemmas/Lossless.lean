import Verif.Spec.Lossless
import Verif.Lemmas.Float64
import Verif.Lemmas.Bytes
/-!
# Lemmas about durations and bit rates computed in floating point
-/
namespace Lofty.Lossless
open Lofty.Float64

theorem millis_fin {samples rate : ℕ} (hs : samples < 2 ^ 39) (hr : rate < 2 ^ 49) (h0 : 0 < rate) :
    millis samples rate = .fin (rnd (((samples * 1000 : ℕ) : ℚ) / (rate : ℚ))) := by
  unfold millis F64.ofNat F64.mul F64.div
  have h1 : rnd (samples : ℚ) = samples := rnd_nat (by omega)
  have h2 : rnd ((samples : ℚ) * 1000) = ((samples * 1000 : ℕ) : ℚ) := by
    have := rnd_nat (n := samples * 1000) (by omega)
    push_cast at this ⊢
    exact this
  have h3 : rnd (rate : ℚ) = rate := rnd_nat (by omega)
  have h0' : (rate : ℚ) ≠ 0 := by exact_mod_cast h0.ne'
  simp only [h1, h2, h3]
  rw [if_neg h0']

/-- Durations that are rounded. -/
theorem millis_round {samples rate : ℕ} (hs : samples < 2 ^ 39) (hr : rate < 2 ^ 49) (h0 : 0 < rate) :
    ((millis samples rate).add .half).toU 64 = nearest (samples * 1000) rate := by
  rw [millis_fin hs hr h0]
  unfold F64.half F64.add F64.toU nearest
  simp only
  rw [floor_eq, floor_rnd_half h0 (by omega) hr, Int.toNat_natCast]
  apply Nat.min_eq_left
  have : (2 * (samples * 1000) + rate) / (2 * rate) ≤ 2 * (samples * 1000) + rate := Nat.div_le_self _ _
  omega

/-- Durations that are truncated. -/
theorem millis_trunc {samples rate : ℕ} (hs : samples < 2 ^ 39) (hr : rate < 2 ^ 49) (h0 : 0 < rate) :
    (millis samples rate).toU 64 = samples * 1000 / rate := by
  rw [millis_fin hs hr h0]
  unfold F64.toU
  simp only
  rw [floor_eq, floor_rnd h0 (by omega), Int.toNat_natCast]
  apply Nat.min_eq_left
  have : samples * 1000 / rate ≤ samples * 1000 := Nat.div_le_self _ _
  omega

theorem rnd_bounds {x : ℚ} (hx : 0 ≤ x) : x * (1 - 1 / 2 ^ 53) ≤ rnd x ∧ rnd x ≤ x * (1 + 1 / 2 ^ 53) := by
  have := abs_le.mp (rnd_err hx)
  constructor <;> linarith [this.1, this.2]

theorem kbps_fin (size : ℕ) {y : ℚ} (hy : y ≠ 0) :
    kbps size (.fin y) = min ⌊rnd (rnd (rnd (rnd (size : ℚ) * 8) / y) + 1 / 2)⌋.toNat (2 ^ 32 - 1) := by
  unfold kbps F64.ofNat F64.mul F64.div F64.half F64.add F64.toU
  simp only
  rw [if_neg hy]
  rfl

/-- Bit rates. -/
theorem kbps_near {size samples rate : ℕ} (hs : samples < 2 ^ 39) (hs0 : 0 < samples) (hr : rate < 2 ^ 49) (h0 : 0 < rate)
    (hv : rateOf size samples rate ≤ 2 ^ 32 - 2) : Near (kbps size (millis samples rate)) (rateOf size samples rate) := by
  rw [millis_fin hs hr h0]
  have hrq : (0 : ℚ) < rate := by exact_mod_cast h0
  have hsq : (0 : ℚ) < ((samples * 1000 : ℕ) : ℚ) := by
    have : 0 < samples * 1000 := by omega
    exact_mod_cast this
  have hL : (0 : ℚ) < ((samples * 1000 : ℕ) : ℚ) / rate := div_pos hsq hrq
  have hV : rateOf size samples rate = (size : ℚ) * 8 / (((samples * 1000 : ℕ) : ℚ) / rate) := by
    unfold rateOf
    rw [div_div_eq_mul_div]
    push_cast
    ring
  generalize rateOf size samples rate = V at hV hv ⊢
  generalize ((samples * 1000 : ℕ) : ℚ) / rate = L at hL hV ⊢
  have hS : (0 : ℚ) ≤ size := by positivity
  have hVL : V * L = (size : ℚ) * 8 := by rw [hV]; field_simp
  have hV0 : 0 ≤ V := by rw [hV]; positivity
  -- the length
  obtain ⟨y1, y2⟩ := rnd_bounds hL.le
  generalize rnd L = y at y1 y2 ⊢
  have hy : 0 < y := lt_of_lt_of_le (mul_pos hL (by norm_num)) y1
  rw [kbps_fin size hy.ne']
  generalize (size : ℚ) = S at hS hV hVL ⊢
  -- the size in bits
  obtain ⟨s1, s2⟩ := rnd_bounds hS
  have hs0 := rnd_nonneg S
  generalize rnd S = s at s1 s2 hs0 ⊢
  obtain ⟨a1, a2⟩ := rnd_bounds (x := s * 8) (by linarith)
  have ha0 := rnd_nonneg (s * 8)
  generalize rnd (s * 8) = A at a1 a2 ha0 ⊢
  -- the quotient
  have d0 : 0 ≤ A / y := by positivity
  have d2 : A / y ≤ V * (1 + 4 / 2 ^ 53) := by
    rw [div_le_iff₀ hy]
    have e1 : A ≤ S * 8 * (1 + 1 / 2 ^ 53) ^ 2 := by
      have := mul_le_mul_of_nonneg_right (mul_le_mul_of_nonneg_right s2 (by norm_num : (0 : ℚ) ≤ 8)) (by norm_num : (0 : ℚ) ≤ 1 + 1 / 2 ^ 53)
      refine a2.trans (this.trans (le_of_eq (by ring)))
    have e2 : V * (1 + 4 / 2 ^ 53) * (L * (1 - 1 / 2 ^ 53)) ≤ V * (1 + 4 / 2 ^ 53) * y :=
      mul_le_mul_of_nonneg_left y1 (by positivity)
    have e3 : V * (1 + 4 / 2 ^ 53) * (L * (1 - 1 / 2 ^ 53)) = S * 8 * ((1 + 4 / 2 ^ 53) * (1 - 1 / 2 ^ 53)) := by rw [← hVL]; ring
    have e4 : S * 8 * (1 + 1 / 2 ^ 53) ^ 2 ≤ S * 8 * ((1 + 4 / 2 ^ 53) * (1 - 1 / 2 ^ 53)) :=
      mul_le_mul_of_nonneg_left (by norm_num) (by positivity)
    linarith
  have d1 : V * (1 - 4 / 2 ^ 53) ≤ A / y := by
    rw [le_div_iff₀ hy]
    have e1 : S * 8 * (1 - 1 / 2 ^ 53) ^ 2 ≤ A := by
      have := mul_le_mul_of_nonneg_right (mul_le_mul_of_nonneg_right s1 (by norm_num : (0 : ℚ) ≤ 8)) (by norm_num : (0 : ℚ) ≤ 1 - 1 / 2 ^ 53)
      refine le_trans (le_of_eq (by ring)) (this.trans a1)
    have e2 : V * (1 - 4 / 2 ^ 53) * y ≤ V * (1 - 4 / 2 ^ 53) * (L * (1 + 1 / 2 ^ 53)) :=
      mul_le_mul_of_nonneg_left y2 (mul_nonneg hV0 (by norm_num))
    have e3 : V * (1 - 4 / 2 ^ 53) * (L * (1 + 1 / 2 ^ 53)) = S * 8 * ((1 - 4 / 2 ^ 53) * (1 + 1 / 2 ^ 53)) := by rw [← hVL]; ring
    have e4 : S * 8 * ((1 - 4 / 2 ^ 53) * (1 + 1 / 2 ^ 53)) ≤ S * 8 * (1 - 1 / 2 ^ 53) ^ 2 :=
      mul_le_mul_of_nonneg_left (by norm_num) (by positivity)
    linarith
  obtain ⟨D1, D2⟩ := rnd_bounds d0
  have hD0 := rnd_nonneg (A / y)
  generalize A / y = d at d0 d1 d2 D1 D2 hD0 ⊢
  generalize rnd d = D at D1 D2 hD0 ⊢
  obtain ⟨z1, z2⟩ := rnd_bounds (x := D + 1 / 2) (by linarith)
  have hz0 := rnd_nonneg (D + 1 / 2)
  generalize rnd (D + 1 / 2) = z at z1 z2 hz0 ⊢
  have up : z ≤ V + 1 / 2 + 1 / 65536 := by
    norm_num at *
    linarith
  have low : V + 1 / 2 - 1 / 65536 ≤ z := by
    norm_num at *
    linarith
  have f1 := Int.floor_le z
  have f2 := Int.lt_floor_add_one z
  have f0 : 0 ≤ ⌊z⌋ := Int.floor_nonneg.mpr hz0
  obtain ⟨n, hn⟩ : ∃ n : ℕ, ⌊z⌋ = n := ⟨⌊z⌋.toNat, by omega⟩
  rw [hn] at f1 f2 ⊢
  rw [Int.toNat_natCast]
  rw [Int.cast_natCast] at f1 f2
  have hmin : n ≤ 2 ^ 32 - 1 := by
    have : (n : ℚ) < 2 ^ 32 := by linarith
    have : n < 2 ^ 32 := by exact_mod_cast this
    omega
  rw [Nat.min_eq_left hmin]
  constructor
  · linarith
  · linarith

end Lofty.Lossless
