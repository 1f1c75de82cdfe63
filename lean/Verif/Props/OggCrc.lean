import Verif.Lemmas.OggCrc
/-! # C08: the OGG checksum -/
namespace Lofty.Ogg
open Polynomial

/-- C08: the table-driven checksum is the bit-by-bit one, for every byte string. -/
theorem crc32_eq_spec (bs : Bytes) : crc32 bs = crcSpec (bitsOf bs) := crc32_from bs 0

/-- C08: the checksum is the remainder of `M(X) * X^32` by the generator polynomial
0x104C11DB7 over the two-element field. -/
theorem crc32_remainder (bs : Bytes) :
    (messagePoly (bitsOf bs) * X ^ 32) %ₘ generator = wordPoly (crc32 bs) := by
  have h := crc_poly_aux (bitsOf bs) 0 0 (by rw [wordPoly_zero]; simp)
  have h' : generator ∣ messagePoly (bitsOf bs) * X ^ 32 - wordPoly (crc32 bs) := by
    rw [crc32_eq_spec]
    have e : -wordPoly (crcSpec (bitsOf bs)) = wordPoly (crcSpec (bitsOf bs)) :=
      neg_eq_of_add_eq_zero_left (add_self_poly _)
    rw [sub_eq_add_neg, e]
    exact h
  rw [modByMonic_eq_of_dvd_sub generator_monic h',
    (modByMonic_eq_self_iff generator_monic).mpr]
  rw [generator_degree]
  exact wordPoly_degree _

/-- C08: the table lookup never leaves the table. -/
theorem crcStep_index (c : BitVec 32) (p : UInt8) :
    ((BitVec.ofNat 32 p.toNat) ^^^ (c >>> 24)).toNat < crcTable.length := by
  have h : crcTable.length = 256 := by decide +kernel
  rw [h]
  exact crcIndex_lt c p

/-- C08: linear over XOR of equally long inputs. -/
theorem crc32_xor (a b : Bytes) (h : a.length = b.length) :
    crc32 (xorBytes a b) = crc32 a ^^^ crc32 b := by
  rw [crc32_eq_spec, crc32_eq_spec, crc32_eq_spec, bitsOf_xor a b h]
  have := foldl_zipWith_xor (bitsOf a) (bitsOf b) (by rw [bitsOf_length, bitsOf_length, h]) 0 0
  simpa [crcSpec] using this

/-- C08: any change confined to 32 consecutive bits (at any bit offset `k`) changes
the checksum. -/
theorem crc32_detects_burst (a b : Bytes) (hl : a.length = b.length) (hne : a ≠ b) (k : Nat)
    (hk : ∀ i, (bitsOf a)[i]? ≠ (bitsOf b)[i]? → k ≤ i ∧ i < k + 32) :
    crc32 a ≠ crc32 b := by
  intro hc
  have hbl : (bitsOf a).length = (bitsOf b).length := by rw [bitsOf_length, bitsOf_length, hl]
  have h0 : crc32 a ^^^ crc32 b = 0 := by rw [hc]; simp
  rw [← crc32_xor a b hl, crc32_eq_spec, bitsOf_xor a b hl, crcSpec] at h0
  generalize hd : List.zipWith (· ^^ ·) (bitsOf a) (bitsOf b) = d at h0
  have hget : ∀ i (h : i < d.length), d[i] = true → k ≤ i ∧ i < k + 32 := by
    intro i h ht
    apply hk
    subst hd
    simp only [List.length_zipWith] at h
    rw [List.getElem_zipWith] at ht
    rw [List.getElem?_eq_getElem (by omega), List.getElem?_eq_getElem (by omega)]
    intro he
    injection he with he
    rw [he] at ht
    simp at ht
  have hsplit : d = d.take k ++ ((d.drop k).take 32 ++ d.drop (k + 32)) := by
    rw [← List.drop_drop, List.take_append_drop, List.take_append_drop]
  have hpre : ∀ x ∈ d.take k, x = false := by
    intro x hx
    obtain ⟨i, hi, rfl⟩ := List.getElem_of_mem hx
    simp only [List.length_take] at hi
    rw [List.getElem_take]
    cases hb : d[i]
    · rfl
    · have := hget i (by omega) hb
      omega
  have hpost : ∀ x ∈ d.drop (k + 32), x = false := by
    intro x hx
    obtain ⟨i, hi, rfl⟩ := List.getElem_of_mem hx
    simp only [List.length_drop] at hi
    rw [List.getElem_drop]
    cases hb : d[k + 32 + i]
    · rfl
    · have := hget _ (by omega) hb
      omega
  rw [hsplit, List.foldl_append, List.foldl_append, foldl_crcBit_false _ hpre, steps_zero,
    foldl_crcBit_false _ hpost] at h0
  have h1 := steps_eq_zero h0
  rw [foldl_topBits _ (by simp)] at h1
  have h2 : topBits ((d.drop k).take 32) = 0 := by simpa using steps_eq_zero h1
  have hall : ∀ x ∈ d, x = false := by
    intro x hx
    obtain ⟨i, hi, rfl⟩ := List.getElem_of_mem hx
    cases hb : d[i]
    · rfl
    · exfalso
      have hki := hget i hi hb
      have := topBits_get ((d.drop k).take 32) (31 - (i - k)) (by omega)
      rw [h2, show 31 - (31 - (i - k)) = i - k by omega] at this
      have h3 : ((d.drop k).take 32)[i - k]? = some true := by
        rw [List.getElem?_take, if_pos (by omega), List.getElem?_drop,
          show k + (i - k) = i by omega, List.getElem?_eq_getElem hi, hb]
      rw [List.getD_eq_getElem?_getD, h3] at this
      exact absurd this (by simp)
  apply hne
  apply bitsOf_inj
  apply List.ext_getElem hbl
  intro i h1 h2
  have : d[i]'(by subst hd; simp; omega) = false := hall _ (List.getElem_mem _)
  subst hd
  rw [List.getElem_zipWith] at this
  simpa using this

/-- The burst hypothesis is met by a change that straddles two bytes. -/
example : crc32 [0x4F, 0x67, 0x0F, 0x53] ≠ crc32 [0x4F, 0x67, 0xF0, 0x53] :=
  crc32_detects_burst _ _ rfl (by decide) 16 (by
    intro i h
    apply Classical.byContradiction
    intro hn
    apply h
    rcases Nat.lt_or_ge i 16 with h16 | h16
    · revert h16 i
      intro i _ _ h16
      have : ∀ i : Fin 16, (bitsOf [0x4F, 0x67, 0x0F, 0x53])[i.val]? = (bitsOf [0x4F, 0x67, 0xF0, 0x53])[i.val]? := by
        decide
      exact this ⟨i, h16⟩
    · rw [List.getElem?_eq_none (by rw [bitsOf_length]; simp; omega),
        List.getElem?_eq_none (by rw [bitsOf_length]; simp; omega)])

example : crc32 [0x4F, 0x67, 0x67, 0x53] = 0x5FB0A94F#32 := by decide +kernel

end Lofty.Ogg
