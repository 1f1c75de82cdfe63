import Verif.Model.OggCrc
import Verif.Spec.OggCrc
import Mathlib.Algebra.BigOperators.Fin
import Mathlib.Tactic.Ring
import Mathlib.Algebra.Polynomial.Div
import Mathlib.Tactic.IntervalCases
/-! Helper lemmas for C08. -/
namespace Lofty.Ogg
open Polynomial

/-- Feeding a zero bit. -/
def step0 (c : BitVec 32) : BitVec 32 := crcBit c false

def steps : Nat → BitVec 32 → BitVec 32
  | 0, c => c
  | n + 1, c => steps n (step0 c)

theorem step0_xor (a b : BitVec 32) : step0 (a ^^^ b) = step0 a ^^^ step0 b := by
  simp only [step0, crcBit, Bool.xor_false, BitVec.msb_xor, BitVec.shiftLeft_xor_distrib]
  cases a.msb <;> cases b.msb <;> simp
  · ac_rfl
  · ac_rfl
  · rw [show a <<< 1 ^^^ crcPoly ^^^ (b <<< 1 ^^^ crcPoly)
        = a <<< 1 ^^^ b <<< 1 ^^^ (crcPoly ^^^ crcPoly) by ac_rfl]
    simp

theorem steps_xor (n : Nat) (a b : BitVec 32) : steps n (a ^^^ b) = steps n a ^^^ steps n b := by
  induction n generalizing a b with
  | zero => rfl
  | succ n ih => simp only [steps, step0_xor, ih]

theorem steps_add (m n : Nat) (a : BitVec 32) : steps (m + n) a = steps n (steps m a) := by
  induction m generalizing a with
  | zero => simp [steps]
  | succ m ih => rw [Nat.succ_add]; simp only [steps, ih]

theorem step0_zero : step0 0 = 0 := by decide

theorem steps_zero (n : Nat) : steps n 0 = 0 := by
  induction n with
  | zero => rfl
  | succ n ih => simp only [steps, step0_zero, ih]

/-- The register update is injective: the lowest bit tells whether the polynomial was added. -/
theorem step0_eq_zero {a : BitVec 32} (h : step0 a = 0) : a = 0 := by
  simp only [step0, crcBit, Bool.xor_false] at h
  cases hm : a.msb
  · simp only [hm, Bool.false_eq_true, if_false] at h
    apply BitVec.eq_of_getLsbD_eq
    intro i hi
    by_cases h31 : i = 31
    · subst h31
      have := hm
      rw [BitVec.msb_eq_getLsbD_last] at this
      simpa using this
    · have := congrArg (·.getLsbD (i + 1)) h
      simp only [BitVec.getLsbD_shiftLeft, BitVec.getLsbD_xor] at this
      simpa [show i + 1 < 32 by omega] using this
  · simp only [hm, if_true] at h
    have := congrArg (·.getLsbD 0) h
    simp [crcPoly] at this

theorem steps_eq_zero {n : Nat} {a : BitVec 32} (h : steps n a = 0) : a = 0 := by
  induction n generalizing a with
  | zero => exact h
  | succ n ih => exact step0_eq_zero (ih h)

theorem crcBit_eq (c : BitVec 32) (b : Bool) : crcBit c b = step0 c ^^^ (if b then crcPoly else 0) := by
  simp only [step0, crcBit, Bool.xor_false]
  cases c.msb <;> cases b <;> simp [BitVec.xor_assoc]

theorem foldl_crcBit_xor (bits : List Bool) (a s : BitVec 32) :
    bits.foldl crcBit (a ^^^ s) = steps bits.length a ^^^ bits.foldl crcBit s := by
  induction bits generalizing a s with
  | nil => rfl
  | cons b bs ih =>
    simp only [List.foldl_cons, List.length_cons, steps]
    rw [← ih]
    congr 1
    rw [crcBit_eq, crcBit_eq, step0_xor, BitVec.xor_assoc]

theorem foldl_crcBit_start (bits : List Bool) (a : BitVec 32) :
    bits.foldl crcBit a = steps bits.length a ^^^ bits.foldl crcBit 0 := by
  have := foldl_crcBit_xor bits a 0
  simpa using this

/-- The eight bits of a byte, most significant first. -/
def byteBits (b : UInt8) : List Bool := (List.range 8).map fun i => b.toBitVec.getMsbD i

/-- The lookup table holds the eight-step remainders; complete check of 256 entries. -/
theorem table_steps : ∀ i : Fin 256, crcTable.getD i.val 0 = steps 8 (BitVec.ofNat 32 i.val <<< 24) := by
  decide +kernel

/-- Feeding a byte to a zero register; complete check of 256 bytes. -/
theorem byte_steps : ∀ p : Fin 256, (byteBits (UInt8.ofNat p.val)).foldl crcBit 0
    = steps 8 (BitVec.ofNat 32 p.val <<< 24) := by
  decide +kernel

theorem step0_shift {x : BitVec 32} (h : x.msb = false) : step0 x = x <<< 1 := by
  simp [step0, crcBit, h]

theorem steps_low (k : Nat) (x : BitVec 32) (h : ∀ i, 32 ≤ i + k → x.getLsbD i = false) :
    steps k x = x <<< k := by
  induction k generalizing x with
  | zero => simp [steps]
  | succ k ih =>
    have hm : x.msb = false := by
      rw [BitVec.msb_eq_getLsbD_last]
      exact h _ (by omega)
    rw [steps, step0_shift hm, ih, ← BitVec.shiftLeft_add, Nat.add_comm]
    intro i hi
    simp only [BitVec.getLsbD_shiftLeft]
    by_cases h0 : i < 1
    · simp [h0]
    · rw [h (i - 1) (by omega)]; simp

theorem split_high (c : BitVec 32) : c = ((c >>> 24) <<< 24) ^^^ (c &&& 0xFFFFFF#32) := by
  apply BitVec.eq_of_getLsbD_eq
  intro i hi
  have hm : (0xFFFFFF#32).getLsbD i = decide (i < 24) := by
    interval_cases i <;> rfl
  simp only [BitVec.getLsbD_xor, BitVec.getLsbD_shiftLeft, BitVec.getLsbD_ushiftRight,
    BitVec.getLsbD_and, hm, hi]
  by_cases h : i < 24
  · simp [h]
  · simp [h, show 24 + (i - 24) = i by omega]

theorem crcIndex_lt (c : BitVec 32) (p : UInt8) :
    ((BitVec.ofNat 32 p.toNat) ^^^ (c >>> 24)).toNat < 256 := by
  rw [BitVec.toNat_xor]
  apply Nat.xor_lt_two_pow (n := 8)
  · have := p.toNat_lt
    simp; omega
  · have := c.isLt
    simp only [BitVec.toNat_ushiftRight, Nat.shiftRight_eq_div_pow]
    omega

theorem crcStep_eq (c : BitVec 32) (p : UInt8) : crcStep c p = (byteBits p).foldl crcBit c := by
  have hlen : (byteBits p).length = 8 := by simp [byteBits]
  rw [foldl_crcBit_start, hlen]
  have hp := byte_steps ⟨p.toNat, p.toNat_lt⟩
  simp only [UInt8.ofNat_toNat] at hp
  rw [hp, ← steps_xor]
  unfold crcStep
  have ht := table_steps ⟨_, crcIndex_lt c p⟩
  simp only at ht
  rw [ht]
  have hidx : BitVec.ofNat 32 ((BitVec.ofNat 32 p.toNat) ^^^ (c >>> 24)).toNat
      = (BitVec.ofNat 32 p.toNat) ^^^ (c >>> 24) := by
    rw [BitVec.ofNat_toNat, BitVec.setWidth_eq]
  rw [hidx, BitVec.shiftLeft_xor_distrib]
  conv_rhs => rw [split_high c]
  rw [steps_xor, steps_xor, steps_xor]
  have hlow : steps 8 (c &&& 0xFFFFFF#32) = c <<< 8 := by
    rw [steps_low]
    · apply BitVec.eq_of_getLsbD_eq
      intro i hi
      simp only [BitVec.getLsbD_shiftLeft, BitVec.getLsbD_and]
      have hm : ∀ j, (0xFFFFFF#32).getLsbD j = decide (j < 24) := by
        intro j
        by_cases hj : j < 32
        · interval_cases j <;> rfl
        · rw [BitVec.getLsbD_of_ge _ _ (by omega)]; simp; omega
      rw [hm]
      by_cases h8 : i < 8
      · simp [h8]
      · simp [h8, show i - 8 < 24 by omega]
    · intro i hi
      have hm : ∀ j, (0xFFFFFF#32).getLsbD j = decide (j < 24) := by
        intro j
        by_cases hj : j < 32
        · interval_cases j <;> rfl
        · rw [BitVec.getLsbD_of_ge _ _ (by omega)]; simp; omega
      simp [hm]; omega
  rw [hlow]
  ac_rfl

theorem crc32_from (bs : Bytes) (c : BitVec 32) :
    bs.foldl crcStep c = (bitsOf bs).foldl crcBit c := by
  induction bs generalizing c with
  | nil => rfl
  | cons b bs ih =>
    simp only [List.foldl_cons, bitsOf, List.flatMap_cons, List.foldl_append]
    rw [ih, crcStep_eq]
    rfl

/-! Polynomials -/

theorem add_self_poly (p : (ZMod 2)[X]) : p + p = 0 := by
  have h : p + p = C ((1 : ZMod 2) + 1) * p := by rw [C_add, C_1]; ring
  rw [h, show (1 : ZMod 2) + 1 = 0 from rfl, C_0, zero_mul]

theorem wordPoly_xor (a b : BitVec 32) : wordPoly (a ^^^ b) = wordPoly a + wordPoly b := by
  unfold wordPoly
  rw [← Finset.sum_add_distrib]
  apply Finset.sum_congr rfl
  intro i _
  have h2 := add_self_poly (X ^ i)
  simp only [BitVec.getLsbD_xor]
  cases a.getLsbD i <;> cases b.getLsbD i <;> simp [h2]

theorem sum_shift (n : Nat) (f : Nat → Bool) :
    (∑ i ∈ Finset.range (n + 1), if f i then (X ^ i : (ZMod 2)[X]) else 0) * X
      = (∑ i ∈ Finset.range (n + 1), if (decide (0 < i) && f (i - 1)) then (X ^ i : (ZMod 2)[X]) else 0)
        + (if f n then X ^ (n + 1) else 0) := by
  rw [Finset.sum_mul, Finset.sum_range_succ, Finset.sum_range_succ' _ n]
  congr 1
  · simp
    apply Finset.sum_congr rfl
    intro i _
    split <;> simp [pow_succ]
  · split <;> simp [pow_succ]

theorem wordPoly_shift (c : BitVec 32) :
    wordPoly c * X = wordPoly (c <<< 1) + (if c.msb then X ^ 32 else 0) := by
  unfold wordPoly
  have hm : c.msb = c.getLsbD 31 := BitVec.msb_eq_getLsbD_last c
  have h := sum_shift 31 (fun i => c.getLsbD i)
  rw [show 31 + 1 = 32 from rfl] at h
  rw [h, hm, add_left_inj]
  apply Finset.sum_congr rfl
  intro i hi
  have : i < 32 := Finset.mem_range.mp hi
  rw [BitVec.getLsbD_shiftLeft]
  have e : (decide (0 < i) && c.getLsbD (i - 1)) = (decide (i < 32) && !decide (i < 1) && c.getLsbD (i - 1)) := by
    rw [show decide (i < 32) = true by simpa using this]
    by_cases h : 0 < i
    · have : ¬ i < 1 := by omega
      simp [h, this]
    · have : i < 1 := by omega
      simp [h, this]
  rw [e]

theorem wordPoly_zero : wordPoly 0 = 0 := by
  unfold wordPoly
  apply Finset.sum_eq_zero
  intro i _
  rw [show BitVec.getLsbD (0 : BitVec 32) i = false from BitVec.getLsbD_zero]
  rfl

theorem crc_poly_aux (bits : List Bool) (c : BitVec 32) (m : (ZMod 2)[X])
    (h : generator ∣ m * X ^ 32 + wordPoly c) :
    generator ∣ bits.foldl (fun p b => p * X + (if b then 1 else 0)) m * X ^ 32
      + wordPoly (bits.foldl crcBit c) := by
  induction bits generalizing c m with
  | nil => exact h
  | cons b bs ih =>
    simp only [List.foldl_cons]
    apply ih
    obtain ⟨q, hq⟩ := h
    have hx : wordPoly (crcBit c b) = wordPoly (c <<< 1) + (if c.msb ^^ b then wordPoly crcPoly else 0) := by
      have hz : wordPoly (if c.msb ^^ b then crcPoly else 0)
          = if c.msb ^^ b then wordPoly crcPoly else 0 := by
        split
        · rfl
        · exact wordPoly_zero
      rw [crcBit, wordPoly_xor, hz]
    have hg : generator = X ^ 32 + wordPoly crcPoly := rfl
    have e1 : wordPoly (c <<< 1) = wordPoly c * X + (if c.msb then X ^ 32 else 0) := by
      rw [wordPoly_shift, add_assoc, add_self_poly, add_zero]
    rw [hx, e1]
    generalize wordPoly c = w at hq ⊢
    generalize wordPoly crcPoly = g at hg ⊢
    have h2 := add_self_poly (X ^ 32)
    generalize (X : (ZMod 2)[X]) ^ 32 = y at hg hq h2 ⊢
    have key : (m * X + if b then 1 else 0) * y + (w * X + (if c.msb then y else 0)
        + (if c.msb ^^ b then g else 0))
        = (m * y + w) * X + (if c.msb ^^ b then generator else 0) := by
      cases c.msb <;> cases b
      · simp only [Bool.false_eq_true, if_false, Bool.xor_false]; ring
      · simp only [Bool.false_eq_true, if_false, if_true, Bool.xor_true, Bool.not_false, hg]; ring
      · simp only [Bool.false_eq_true, if_false, if_true, Bool.xor_false, hg]; ring
      · simp only [Bool.false_eq_true, if_false, if_true, Bool.xor_true, Bool.not_true]
        calc (m * X + 1) * y + (w * X + y + 0) = (m * y + w) * X + (y + y) := by ring
          _ = _ := by rw [h2]
    rw [key, hq]
    split
    · exact ⟨q * X + 1, by ring⟩
    · exact ⟨q * X, by ring⟩

theorem wordPoly_coeff (w : BitVec 32) (j : Nat) :
    (wordPoly w).coeff j = if j < 32 ∧ w.getLsbD j then 1 else 0 := by
  unfold wordPoly
  rw [finsetSum_coeff]
  by_cases hj : j < 32
  · rw [Finset.sum_eq_single j]
    · simp only [hj, true_and]
      split <;> simp
    · intro i _ hij
      split
      · rw [coeff_X_pow, if_neg (Ne.symm hij)]
      · simp
    · intro h
      exact absurd (Finset.mem_range.mpr hj) h
  · rw [if_neg (by tauto)]
    apply Finset.sum_eq_zero
    intro i hi
    have : i < 32 := Finset.mem_range.mp hi
    split
    · rw [coeff_X_pow, if_neg (by omega)]
    · simp

theorem wordPoly_degree (w : BitVec 32) : (wordPoly w).degree < 32 := by
  rw [show (32 : WithBot ℕ) = ((32 : ℕ) : WithBot ℕ) from rfl, degree_lt_iff_coeff_zero]
  intro j hj
  rw [wordPoly_coeff, if_neg (by omega)]

theorem generator_monic : generator.Monic := by
  unfold generator
  exact monic_X_pow_add (by exact_mod_cast wordPoly_degree crcPoly)

theorem generator_degree : generator.degree = 32 := by
  unfold generator
  rw [degree_add_eq_left_of_degree_lt]
  · rw [degree_X_pow]; rfl
  · rw [degree_X_pow]; exact_mod_cast wordPoly_degree crcPoly

/-! Bursts -/

/-- The bits placed at the top of a word, first bit at position 31. -/
def topBits : List Bool → BitVec 32
  | [] => 0
  | b :: bs => (if b then 0x80000000#32 else 0) ^^^ (topBits bs >>> 1)

theorem topBits_get (bs : List Bool) (j : Nat) (hj : j < 32) :
    (topBits bs).getLsbD j = bs.getD (31 - j) false := by
  induction bs generalizing j with
  | nil => simp [topBits]
  | cons b bs ih =>
    have hm : (0x80000000#32).getLsbD j = decide (j = 31) := by
      interval_cases j <;> rfl
    have h0 : (0 : BitVec 32).getLsbD j = false := BitVec.getLsbD_zero
    simp only [topBits, BitVec.getLsbD_xor, BitVec.getLsbD_ushiftRight]
    by_cases h31 : j = 31
    · subst h31
      rw [BitVec.getLsbD_of_ge _ (1 + 31) (by omega)]
      cases b
      · simp
      · simp
    · rw [ih (1 + j) (by omega), show 31 - j = (31 - (1 + j)) + 1 by omega]
      cases b
      · simp
      · simp [hm, h31]

theorem step0_ushiftRight (x : BitVec 32) (h : x.getLsbD 0 = false) : step0 (x >>> 1) = x := by
  rw [step0_shift]
  · apply BitVec.eq_of_getLsbD_eq
    intro i hi
    simp only [BitVec.getLsbD_shiftLeft, BitVec.getLsbD_ushiftRight, hi]
    by_cases h0 : i < 1
    · rw [show i = 0 by omega, h]; simp
    · simp [h0, show 1 + (i - 1) = i by omega]
  · rw [BitVec.msb_eq_getLsbD_last, BitVec.getLsbD_ushiftRight]
    exact BitVec.getLsbD_of_ge _ _ (by omega)

theorem crcBit_top (c : BitVec 32) (b : Bool) :
    crcBit c b = step0 (c ^^^ (if b then 0x80000000#32 else 0)) := by
  rw [step0_xor, crcBit_eq]
  cases b
  · rw [if_neg (by decide), if_neg (by decide), step0_zero]
  · rw [if_pos rfl, if_pos rfl, show step0 0x80000000#32 = crcPoly by decide]

theorem foldl_topBits (bs : List Bool) (h : bs.length ≤ 32) (s : BitVec 32) :
    bs.foldl crcBit s = steps bs.length (s ^^^ topBits bs) := by
  induction bs generalizing s with
  | nil => simp [steps, topBits]
  | cons b bs ih =>
    simp only [List.length_cons] at h
    have hb : (topBits bs).getLsbD 0 = false := by
      rw [topBits_get bs 0 (by omega)]
      simp [List.getD_eq_getElem?_getD, show bs.length ≤ 31 by omega]
    simp only [List.foldl_cons, List.length_cons, steps, topBits]
    rw [ih (by omega), crcBit_top]
    congr 1
    conv_lhs => rw [← step0_ushiftRight (topBits bs) hb]
    rw [← step0_xor, BitVec.xor_assoc]

theorem foldl_crcBit_false (bs : List Bool) (h : ∀ b ∈ bs, b = false) (s : BitVec 32) :
    bs.foldl crcBit s = steps bs.length s := by
  induction bs generalizing s with
  | nil => rfl
  | cons b bs ih =>
    have : b = false := h b (by simp)
    subst this
    simp only [List.foldl_cons, List.length_cons, steps]
    exact ih (fun b hb => h b (by simp [hb])) _

theorem foldl_zipWith_xor (u v : List Bool) (h : u.length = v.length) (s t : BitVec 32) :
    (List.zipWith (· ^^ ·) u v).foldl crcBit (s ^^^ t) = u.foldl crcBit s ^^^ v.foldl crcBit t := by
  induction u generalizing v s t with
  | nil =>
    cases v with
    | nil => rfl
    | cons => simp at h
  | cons a u ih =>
    cases v with
    | nil => simp at h
    | cons b v =>
      simp only [List.zipWith_cons_cons, List.foldl_cons]
      rw [← ih v (by simpa using h)]
      congr 1
      rw [crcBit_eq, crcBit_eq, crcBit_eq, step0_xor]
      cases a <;> cases b <;> simp
      · ac_rfl
      · ac_rfl
      · rw [show step0 s ^^^ crcPoly ^^^ (step0 t ^^^ crcPoly)
          = step0 s ^^^ step0 t ^^^ (crcPoly ^^^ crcPoly) by ac_rfl]
        simp

theorem bitsOf_length (bs : Bytes) : (bitsOf bs).length = 8 * bs.length := by
  induction bs with
  | nil => rfl
  | cons b bs ih =>
    simp only [bitsOf, List.flatMap_cons, List.length_append, List.length_map, List.length_range,
      List.length_cons]
    have : (bs.flatMap fun b => (List.range 8).map fun i => b.toBitVec.getMsbD i).length
        = 8 * bs.length := ih
    omega

theorem byteBits_xor (a b : UInt8) :
    byteBits (a ^^^ b) = List.zipWith (· ^^ ·) (byteBits a) (byteBits b) := by
  apply List.ext_getElem
  · simp [byteBits]
  · intro i h1 h2
    have : i < 8 := by simpa [byteBits] using h1
    simp [byteBits, BitVec.getMsbD_xor]

theorem bitsOf_xor (a b : Bytes) (h : a.length = b.length) :
    bitsOf (xorBytes a b) = List.zipWith (· ^^ ·) (bitsOf a) (bitsOf b) := by
  induction a generalizing b with
  | nil => rfl
  | cons x a ih =>
    cases b with
    | nil => simp at h
    | cons y b =>
      have ih' := ih b (by simpa using h)
      simp only [bitsOf, xorBytes] at ih' ⊢
      simp only [List.zipWith_cons_cons, List.flatMap_cons]
      rw [List.zipWith_append (by simp), ih']
      congr 1
      exact byteBits_xor x y

theorem byteBits_inj : ∀ a b : UInt8, byteBits a = byteBits b → a = b := by
  intro a b h
  apply UInt8.toBitVec_inj.mp
  apply BitVec.eq_of_getMsbD_eq
  intro i hi
  have := congrArg (fun l => l.getD i false) h
  simpa [byteBits, hi] using this

theorem bitsOf_inj (a b : Bytes) (h : bitsOf a = bitsOf b) : a = b := by
  induction a generalizing b with
  | nil =>
    have := congrArg List.length h
    rw [bitsOf_length, bitsOf_length] at this
    cases b with
    | nil => rfl
    | cons => simp at this
  | cons x a ih =>
    cases b with
    | nil =>
      have := congrArg List.length h
      rw [bitsOf_length, bitsOf_length] at this
      simp at this
    | cons y b =>
      simp only [bitsOf, List.flatMap_cons] at h
      obtain ⟨h1, h2⟩ := List.append_inj h (by simp)
      rw [byteBits_inj x y h1, ih b h2]

end Lofty.Ogg
