import Verif.Model.Id3v2Header
import Verif.Spec.Id3v2Crc
import Verif.Lemmas.OggCrc
/-! Helper lemmas for C80. -/
namespace Lofty.Id3v2
open Lofty.Ogg (crcBit crcPoly steps)

/-- The step of the table, `CRC32_TABLE`. -/
def rstep (c : BitVec 32) : BitVec 32 := if c &&& 1#32 = 1#32 then 0xEDB88320#32 ^^^ (c >>> 1) else c >>> 1

theorem low_bit (c : BitVec 32) : (c &&& 1#32 = 1#32) ↔ c.getLsbD 0 = true := by
  constructor
  · intro h
    have := congrArg (·.getLsbD 0) h
    simpa using this
  · intro h
    apply BitVec.eq_of_getLsbD_eq
    intro i hi
    rw [BitVec.getLsbD_and]
    by_cases h0 : i = 0
    · subst h0
      rw [h]; rfl
    · have : (1#32).getLsbD i = false := by
        rw [BitVec.getLsbD_one]
        simp [h0]
      rw [this]
      simp

theorem poly_reverse : (0xEDB88320#32) = crcPoly.reverse := by decide +kernel

theorem reverse_xor (a b : BitVec 32) : (a ^^^ b).reverse = a.reverse ^^^ b.reverse := by
  apply BitVec.eq_of_getLsbD_eq
  intro i hi
  simp only [BitVec.getLsbD_reverse, BitVec.getMsbD_xor, BitVec.getLsbD_xor]

theorem reverse_shift (a : BitVec 32) : (a <<< 1).reverse = a.reverse >>> 1 := by
  apply BitVec.eq_of_getLsbD_eq
  intro i hi
  simp only [BitVec.getLsbD_reverse, BitVec.getMsbD_shiftLeft, BitVec.getLsbD_ushiftRight, Nat.add_comm]

theorem rstep_reverse (c : BitVec 32) : rstep c.reverse = (Ogg.step0 c).reverse := by
  unfold rstep Ogg.step0 crcBit
  rw [reverse_xor, reverse_shift, Bool.xor_false]
  have hm : (c.reverse &&& 1#32 = 1#32) ↔ c.msb = true := by
    rw [low_bit, BitVec.getLsbD_reverse]
    rfl
  by_cases h : c.msb = true
  · rw [if_pos (hm.mpr h), if_pos h, poly_reverse, BitVec.xor_comm]
  · rw [if_neg (fun x => h (hm.mp x)), if_neg h]
    have : (0 : BitVec 32).reverse = 0 := BitVec.reverse_eq_zero_iff.mpr rfl
    rw [this]
    simp

/-- Several steps. -/
def rsteps : Nat → BitVec 32 → BitVec 32
  | 0, c => c
  | n + 1, c => rsteps n (rstep c)

theorem rsteps_reverse (n : Nat) : ∀ c : BitVec 32, rsteps n c.reverse = (steps n c).reverse := by
  induction n with
  | zero => intro c; rfl
  | succ n ih => intro c; rw [rsteps, rstep_reverse, ih]; rfl

theorem rsteps_eq (n : Nat) (c : BitVec 32) : rsteps n c = (steps n c.reverse).reverse := by
  rw [← rsteps_reverse, BitVec.reverse_reverse_eq]

theorem rsteps_xor (n : Nat) (a b : BitVec 32) : rsteps n (a ^^^ b) = rsteps n a ^^^ rsteps n b := by
  rw [rsteps_eq, rsteps_eq, rsteps_eq, reverse_xor, Ogg.steps_xor, reverse_xor]

theorem table_rsteps (c : BitVec 32) : crcTableEntry c = rsteps 8 c := by
  unfold crcTableEntry
  rfl

theorem rsteps_shift (k : Nat) : ∀ x : BitVec 32, (∀ i, i < k → x.getLsbD i = false) → rsteps k x = x >>> k := by
  induction k with
  | zero => intro x _; simp [rsteps]
  | succ k ih =>
    intro x h
    have h0 : ¬ (x &&& 1#32 = 1#32) := by rw [low_bit, h 0 (by omega)]; simp
    rw [rsteps, rstep, if_neg h0, ih, ← BitVec.shiftRight_add, Nat.add_comm]
    intro i hi
    rw [BitVec.getLsbD_ushiftRight]
    exact h _ (by omega)

theorem mask_bit (i : Nat) : (0xFF#32).getLsbD i = decide (i < 8) := by
  by_cases hi : i < 32
  · interval_cases i <;> rfl
  · rw [BitVec.getLsbD_of_ge _ _ (by omega)]; simp; omega

theorem split_low (x : BitVec 32) : x = (x &&& 0xFF#32) ^^^ ((x >>> 8) <<< 8) := by
  apply BitVec.eq_of_getLsbD_eq
  intro i hi
  simp only [BitVec.getLsbD_xor, BitVec.getLsbD_and, BitVec.getLsbD_shiftLeft, BitVec.getLsbD_ushiftRight, mask_bit, hi]
  by_cases h : i < 8
  · simp [h]
  · simp [h, show 8 + (i - 8) = i by omega]

theorem octet_high (o : UInt8) : (o.toBitVec.setWidth 32) >>> 8 = 0 := by
  apply BitVec.eq_of_getLsbD_eq
  intro i hi
  simp only [BitVec.getLsbD_ushiftRight, BitVec.getLsbD_setWidth]
  rw [BitVec.getLsbD_of_ge _ _ (by omega)]
  simp

/-- A byte in the table is eight steps of the register with the byte added to its low end. -/
theorem octet_step (c : BitVec 32) (o : UInt8) :
    (c >>> 8) ^^^ crcTableEntry (((c &&& 0xFF#32) ^^^ o.toBitVec.setWidth 32) &&& 0xFF#32) = rsteps 8 (c ^^^ o.toBitVec.setWidth 32) := by
  have e : ((c &&& 0xFF#32) ^^^ o.toBitVec.setWidth 32) &&& 0xFF#32 = (c ^^^ o.toBitVec.setWidth 32) &&& 0xFF#32 := by
    apply BitVec.eq_of_getLsbD_eq
    intro i hi
    simp only [BitVec.getLsbD_xor, BitVec.getLsbD_and, mask_bit]
    by_cases h : i < 8 <;> simp [h]
  have e2 : c >>> 8 = (c ^^^ o.toBitVec.setWidth 32) >>> 8 := by
    rw [BitVec.ushiftRight_xor_distrib, octet_high]
    exact (BitVec.xor_zero).symm
  rw [e, e2, table_rsteps]
  generalize c ^^^ o.toBitVec.setWidth 32 = x
  conv_rhs => rw [split_low x]
  rw [rsteps_xor, BitVec.xor_comm, rsteps_shift 8 ((x >>> 8) <<< 8)]
  · congr 1
    apply BitVec.eq_of_getLsbD_eq
    intro i hi
    simp only [BitVec.getLsbD_ushiftRight, BitVec.getLsbD_shiftLeft]
    by_cases h : 8 + i < 32
    · simp [h]
    · rw [BitVec.getLsbD_of_ge x _ (by omega)]
      simp [h]
  · intro i hi
    rw [BitVec.getLsbD_shiftLeft]
    simp [hi]

/-- Feeding a byte to a zero register, complete. -/
theorem octet_bits : ∀ p : Fin 256, (((List.range 8).map fun i => (UInt8.ofNat p.val).toBitVec.getLsbD i).foldl crcBit 0) =
    steps 8 ((UInt8.ofNat p.val).toBitVec.setWidth 32).reverse := by decide +kernel

theorem register (bs : Bytes) : ∀ c : BitVec 32,
    bs.foldl (fun (crc : BitVec 32) octet =>
      (crc >>> 8) ^^^ crcTableEntry (((crc &&& 0xFF#32) ^^^ octet.toBitVec.setWidth 32) &&& 0xFF#32)) c.reverse =
      ((lowBits bs).foldl crcBit c).reverse := by
  induction bs with
  | nil => intro c; rfl
  | cons o bs ih =>
    intro c
    have h := octet_bits ⟨o.toNat, o.toNat_lt⟩
    simp only [UInt8.ofNat_toNat] at h
    have e : rsteps 8 (c.reverse ^^^ o.toBitVec.setWidth 32) =
        (((List.range 8).map fun i => o.toBitVec.getLsbD i).foldl crcBit c).reverse := by
      rw [Ogg.foldl_crcBit_start, h, List.length_map, List.length_range, ← Ogg.steps_xor, rsteps_eq, reverse_xor, BitVec.reverse_reverse_eq]
    rw [List.foldl_cons, octet_step, e, ih]
    simp only [lowBits, List.flatMap_cons, List.foldl_append]

/-- The lowest bits first determine the bytes. -/
theorem lowBits_length (bs : Bytes) : (lowBits bs).length = 8 * bs.length := by
  induction bs with
  | nil => rfl
  | cons b bs ih =>
    rw [lowBits, List.flatMap_cons, List.length_append, ← lowBits, ih]
    simp only [List.length_map, List.length_range, List.length_cons]
    omega

theorem lowBits_inj {a b : Bytes} (h : lowBits a = lowBits b) : a = b := by
  induction a generalizing b with
  | nil =>
    have := congrArg List.length h
    rw [lowBits_length, lowBits_length] at this
    cases b with
    | nil => rfl
    | cons x b => simp at this
  | cons x a ih =>
    cases b with
    | nil =>
      have := congrArg List.length h
      rw [lowBits_length, lowBits_length] at this
      simp at this
    | cons y b =>
      simp only [lowBits, List.flatMap_cons] at h
      obtain ⟨h1, h2⟩ := List.append_inj h (by simp)
      rw [ih h2]
      congr 1
      apply UInt8.toBitVec_inj.mp
      apply BitVec.eq_of_getLsbD_eq
      intro i hi
      have := congrArg (·[i]?) h1
      simpa [hi] using this

/-- A difference confined to 32 bits that leaves the register as it is, is none. -/
theorem burst_none {d : List Bool} {k : Nat} (hget : ∀ i (h : i < d.length), d[i] = true → k ≤ i ∧ i < k + 32) (h0 : d.foldl crcBit 0 = 0) :
    ∀ x ∈ d, x = false := by
  have hsplit : d = d.take k ++ ((d.drop k).take 32 ++ d.drop (k + 32)) := by
    rw [← List.drop_drop, List.take_append_drop, List.take_append_drop]
  have hpre : ∀ x ∈ d.take k, x = false := by
    intro x hx
    obtain ⟨i, hi, rfl⟩ := List.getElem_of_mem hx
    simp only [List.length_take] at hi
    rw [List.getElem_take]
    cases hb : d[i]
    · rfl
    · have := hget i (by omega) hb
      omega
  have hpost : ∀ x ∈ d.drop (k + 32), x = false := by
    intro x hx
    obtain ⟨i, hi, rfl⟩ := List.getElem_of_mem hx
    simp only [List.length_drop] at hi
    rw [List.getElem_drop]
    cases hb : d[k + 32 + i]
    · rfl
    · have := hget _ (by omega) hb
      omega
  rw [hsplit, List.foldl_append, List.foldl_append, Ogg.foldl_crcBit_false _ hpre, Ogg.steps_zero,
    Ogg.foldl_crcBit_false _ hpost] at h0
  have h1 := Ogg.steps_eq_zero h0
  rw [Ogg.foldl_topBits _ (by simp)] at h1
  have h2 : Ogg.topBits ((d.drop k).take 32) = 0 := by simpa using Ogg.steps_eq_zero h1
  intro x hx
  obtain ⟨i, hi, rfl⟩ := List.getElem_of_mem hx
  cases hb : d[i]
  · rfl
  · exfalso
    have hki := hget i hi hb
    have := Ogg.topBits_get ((d.drop k).take 32) (31 - (i - k)) (by omega)
    rw [h2, show 31 - (31 - (i - k)) = i - k by omega] at this
    have h3 : ((d.drop k).take 32)[i - k]? = some true := by
      rw [List.getElem?_take, if_pos (by omega), List.getElem?_drop,
        show k + (i - k) = i by omega, List.getElem?_eq_getElem hi, hb]
    rw [List.getD_eq_getElem?_getD, h3] at this
    exact absurd this (by simp)

end Lofty.Id3v2
