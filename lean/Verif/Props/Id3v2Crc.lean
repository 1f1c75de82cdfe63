import Verif.Lemmas.Id3v2Crc
import Verif.Lemmas.Bytes
/-!
# C80: the checksum of an ID3v2 tag
-/
namespace Lofty.Id3v2
open Lofty.Ogg (crcBit)

theorem group_toNat (c : BitVec 32) (k : Nat) : (UInt8.ofBitVec ((c >>> k).setWidth 8 &&& 0x7F#8)).toNat = c.toNat / 2 ^ k % 128 := by
  have h : ((c >>> k).setWidth 8 &&& 0x7F#8).toNat = c.toNat / 2 ^ k % 128 := by
    rw [BitVec.toNat_and, BitVec.toNat_setWidth, BitVec.toNat_ushiftRight, Nat.shiftRight_eq_div_pow]
    change (c.toNat / 2 ^ k % 2 ^ 8) &&& (2 ^ 7 - 1) = _
    rw [Nat.and_two_pow_sub_one_eq_mod]
    omega
  exact h

/-- **C80, the value.** The five bytes are groups of seven bits, and hold the CRC-32 of the content. -/
theorem crc_value (content : Bytes) :
    (calculateCrc content).length = 5 ∧ (∀ b ∈ calculateCrc content, b.toNat < 128) ∧ ofGroups (calculateCrc content) = (checksum content).toNat := by
  have hr := register content (BitVec.allOnes 32)
  have h1 : (BitVec.allOnes 32).reverse = 0xFFFFFFFF#32 := by decide +kernel
  rw [h1] at hr
  unfold calculateCrc
  rw [hr]
  change (((List.range 5).map fun i => UInt8.ofBitVec ((checksum content >>> ((4 - i) * 7)).setWidth 8 &&& 0x7F#8)).length = 5 ∧ _)
  refine ⟨by simp, ?_, ?_⟩
  · intro b hb
    obtain ⟨i, -, rfl⟩ := List.mem_map.mp hb
    rw [group_toNat]
    omega
  · change ofGroups ((List.range 5).map fun i => UInt8.ofBitVec ((checksum content >>> ((4 - i) * 7)).setWidth 8 &&& 0x7F#8)) = _
    generalize checksum content = c
    have hc := c.isLt
    simp only [ofGroups, List.range, List.range.loop, List.map, List.foldl, group_toNat]
    omega

/-- **C80, detection.** Contents of the same length that differ only within 32 consecutive bits have different checksums. -/
theorem crc_detects_burst (a b : Bytes) (hl : a.length = b.length) (hne : a ≠ b) (k : Nat)
    (hk : ∀ i, (lowBits a)[i]? ≠ (lowBits b)[i]? → k ≤ i ∧ i < k + 32) : checksum a ≠ checksum b := by
  intro hv
  have hbl : (lowBits a).length = (lowBits b).length := by rw [lowBits_length, lowBits_length, hl]
  have h1 : (lowBits a).foldl crcBit (BitVec.allOnes 32) = (lowBits b).foldl crcBit (BitVec.allOnes 32) := by
    have := congrArg (fun x : BitVec 32 => (~~~ x).reverse) hv
    simpa [checksum, BitVec.reverse_reverse_eq] using this
  rw [Ogg.foldl_crcBit_start, Ogg.foldl_crcBit_start (lowBits b), hbl] at h1
  have h2 : (lowBits a).foldl crcBit 0 = (lowBits b).foldl crcBit 0 := by
    have := congrArg (fun x => Ogg.steps (lowBits b).length (BitVec.allOnes 32) ^^^ x) h1
    simpa [← BitVec.xor_assoc] using this
  have h0 : (List.zipWith (· ^^ ·) (lowBits a) (lowBits b)).foldl crcBit 0 = 0 := by
    have := Ogg.foldl_zipWith_xor (lowBits a) (lowBits b) hbl 0 0
    rw [h2] at this
    simpa using this
  have hall := burst_none (k := k) (fun i hi ht => by
    apply hk
    simp only [List.length_zipWith] at hi
    rw [List.getElem_zipWith] at ht
    rw [List.getElem?_eq_getElem (by omega), List.getElem?_eq_getElem (by omega)]
    intro he
    injection he with he
    rw [he] at ht
    simp at ht) h0
  apply hne
  apply lowBits_inj
  apply List.ext_getElem hbl
  intro i h1 h2
  have := hall _ (List.getElem_mem (show i < (List.zipWith (· ^^ ·) (lowBits a) (lowBits b)).length by simp; omega))
  rw [List.getElem_zipWith] at this
  simpa using this

/-- What a tag with a checksum is made of. -/
theorem createTag_crc {fl : Flags} {v23 : Bool} {padding : Option Nat} {body t : Bytes} (hc : fl.crc = true)
    (h : createTag fl v23 padding body = .ok t) :
    ∃ head rest, head.length = 16 ∧ t = head ++ (5 :: calculateCrc (if fl.restrictions.isSome then body.drop 1 else body)) ++
      ((match fl.restrictions with | some r => [1, r.asByte] | none => []) ++ (body ++ rest)) ∧
      (fl.footer = false → rest = List.replicate (padding.getD 0) 0) := by
  unfold createTag at h
  obtain ⟨ext, hext, h⟩ := bind_ok h
  have he : ∃ six, six.length = 6 ∧ ext = six ++ (List.replicate 6 0 ++ (match fl.restrictions with | some r => [1, r.asByte] | none => [])) := by
    unfold extHeader at hext
    rw [hc] at hext
    cases hr : fl.restrictions with
    | none =>
      rw [hr] at hext
      have e : synch 12 = some 12 := by decide
      simp only [Bool.true_or, if_true, Option.isSome_none, Bool.false_eq_true, if_false, Nat.add_zero, Nat.reduceAdd, e] at hext
      injection hext with hext
      exact ⟨beBytes 4 12 ++ [1, 0x20 ||| 0], rfl, by rw [← hext]; simp only [List.append_assoc]⟩
    | some r =>
      rw [hr] at hext
      have e : synch 14 = some 14 := by decide
      simp only [Bool.true_or, if_true, Option.isSome_some, Nat.reduceAdd, e] at hext
      injection hext with hext
      exact ⟨beBytes 4 14 ++ [1, 0x20 ||| 0x10], rfl, by rw [← hext]; simp only [List.append_assoc]⟩
  obtain ⟨six, h6, rfl⟩ := he
  generalize hm : (match fl.restrictions with | some r => [1, r.asByte] | none => []) = more at h ⊢
  have hml : more.length = if fl.restrictions.isSome then 2 else 0 := by
    rw [← hm]; cases fl.restrictions <;> rfl
  simp only at h
  split at h
  · cases h
  · rename_i s hs
    rw [if_pos hc] at h
    generalize hhead : ascii "ID3" ++ [if v23 then 3 else 4, 0, if v23 then fl.v23Byte else fl.v24Byte] ++ beBytes 4 s = head at h
    have hl : head.length = 10 := by rw [← hhead]; simp [ascii]
    have e16 : (head ++ (six ++ (List.replicate 6 0 ++ more)) ++ body).take 16 = head ++ six := by
      rw [show head ++ (six ++ (List.replicate 6 0 ++ more)) ++ body = (head ++ six) ++ (List.replicate 6 0 ++ more ++ body) by
        simp only [List.append_assoc], List.take_left' (by rw [List.length_append, hl, h6])]
    have e22 : (head ++ (six ++ (List.replicate 6 0 ++ more)) ++ body).drop 22 = more ++ body := by
      rw [show head ++ (six ++ (List.replicate 6 0 ++ more)) ++ body = (head ++ six ++ List.replicate 6 0) ++ (more ++ body) by
        simp only [List.append_assoc], List.drop_left' (by simp only [List.length_append, hl, h6, List.length_replicate])]
    have e25 : (head ++ (six ++ (List.replicate 6 0 ++ more)) ++ body).drop (if fl.restrictions.isSome then 25 else 22) =
        if fl.restrictions.isSome then body.drop 1 else body := by
      cases hr : fl.restrictions with
      | none =>
        rw [hr] at hml
        have : more = [] := List.length_eq_zero_iff.mp hml
        simp only [Option.isSome_none, Bool.false_eq_true, if_false]
        rw [e22, this, List.nil_append]
      | some r =>
        rw [hr] at hml
        simp only [Option.isSome_some, if_true] at hml ⊢
        rw [show 25 = 22 + 3 from rfl, ← List.drop_drop, e22, show 3 = 2 + 1 from rfl, ← List.drop_drop, List.drop_left' hml]
    rw [e25] at h
    generalize hcr : (if fl.restrictions.isSome then body.drop 1 else body) = content at h ⊢
    have h5 := (crc_value content).1
    obtain ⟨tag, htag, h⟩ := bind_ok h
    have htag : tag = createTag.writeSlice (head ++ (six ++ (List.replicate 6 0 ++ more)) ++ body) 16 (5 :: calculateCrc content) := by
      generalize (if fl.restrictions.isSome = true then 25 else 22) = n at htag
      split at htag
      · exact ((Except.ok.injEq _ _).mp htag).symm
      · cases htag
    subst htag
    have ew : createTag.writeSlice (head ++ (six ++ (List.replicate 6 0 ++ more)) ++ body) 16 (5 :: calculateCrc content) =
        head ++ six ++ (5 :: calculateCrc content) ++ (more ++ body) := by
      unfold createTag.writeSlice
      rw [e16, List.length_cons, h5, e22]
    rw [ew] at h
    by_cases hf : fl.footer = true
    · rw [if_pos hf] at h
      obtain rfl := (Except.ok.injEq _ _).mp h
      exact ⟨head ++ six, _, by rw [List.length_append, hl, h6], by simp only [List.append_assoc]; rfl, by rw [hf]; simp⟩
    · rw [if_neg hf] at h
      obtain rfl := (Except.ok.injEq _ _).mp h
      exact ⟨head ++ six, _, by rw [List.length_append, hl, h6], by simp only [List.append_assoc]; rfl, fun _ => by rw [if_neg hf]⟩

/-- **C80, in tags.** A tag written with a checksum has, sixteen bytes from its start, the number of bytes of the checksum and the checksum of
its frames, right in front of them.  `_partial`: with restrictions the first byte of the frames is not part of it
(`restricted_first_byte`), padding is not part of it although it should be (`padding_not_checked`). -/
theorem tag_checksum_partial {fl : Flags} {v23 : Bool} {padding : Option Nat} {body t : Bytes} (hc : fl.crc = true)
    (hr : fl.restrictions = none) (h : createTag fl v23 padding body = .ok t) :
    ∃ five rest, (t.drop 16).take 6 = 5 :: five ∧ five.length = 5 ∧ ofGroups five = (checksum body).toNat ∧ t.drop 22 = body ++ rest := by
  obtain ⟨head, rest, hl, rfl, -⟩ := createTag_crc hc h
  rw [hr]
  obtain ⟨h5, -, hv⟩ := crc_value body
  refine ⟨calculateCrc body, rest, ?_, h5, hv, ?_⟩
  · rw [List.append_assoc, List.drop_left' hl]
    simp only [Option.isSome_none, Bool.false_eq_true, if_false]
    rw [List.take_left' (by rw [List.length_cons, h5])]
  · rw [List.drop_left' (by rw [List.length_append, List.length_cons, hl]; simp only [Option.isSome_none, Bool.false_eq_true, if_false]; omega)]
    rfl

/-- **C80, in tags.** So a change of the frames within 32 bits can be told from the checksum. -/
theorem tag_detects_burst {fl : Flags} {v23 : Bool} {padding padding' : Option Nat} {a b t u : Bytes} (hc : fl.crc = true)
    (hr : fl.restrictions = none) (ha : createTag fl v23 padding a = .ok t) (hb : createTag fl v23 padding' b = .ok u)
    (hl : a.length = b.length) (hne : a ≠ b) (k : Nat) (hk : ∀ i, (lowBits a)[i]? ≠ (lowBits b)[i]? → k ≤ i ∧ i < k + 32) :
    (t.drop 16).take 6 ≠ (u.drop 16).take 6 := by
  obtain ⟨f1, r1, e1, l1, v1, -⟩ := tag_checksum_partial hc hr ha
  obtain ⟨f2, r2, e2, l2, v2, -⟩ := tag_checksum_partial hc hr hb
  rw [e1, e2]
  intro h
  injection h with _ h
  refine crc_detects_burst a b hl hne k hk (BitVec.eq_of_toNat_eq ?_)
  rw [← v1, ← v2, h]

/-- **C80, with restrictions.** The checksum is that of the frames without their first byte. -/
theorem restricted_first_byte {fl : Flags} {v23 : Bool} {padding : Option Nat} {body t : Bytes} {r : Restrictions} (hc : fl.crc = true)
    (hr : fl.restrictions = some r) (h : createTag fl v23 padding body = .ok t) :
    ∃ five rest, (t.drop 16).take 6 = 5 :: five ∧ ofGroups five = (checksum (body.drop 1)).toNat ∧ t.drop 24 = body ++ rest := by
  obtain ⟨head, rest, hl, rfl, -⟩ := createTag_crc hc h
  rw [hr]
  obtain ⟨h5, -, hv⟩ := crc_value (body.drop 1)
  refine ⟨calculateCrc (body.drop 1), rest, ?_, hv, ?_⟩
  · rw [List.append_assoc, List.drop_left' hl]
    simp only [Option.isSome_some, if_true]
    rw [List.take_left' (by rw [List.length_cons, h5])]
  · simp only [Option.isSome_some, if_true]
    rw [← List.append_assoc _ [1, r.asByte] (body ++ rest), List.drop_left' (by simp only [List.length_append, List.length_cons, List.length_nil, hl, h5])]

/-- **C80, padding.** The checksum does not depend on the padding, which it should cover. -/
theorem padding_not_checked {fl : Flags} {v23 : Bool} {padding padding' : Option Nat} {body t u : Bytes} (hc : fl.crc = true)
    (h : createTag fl v23 padding body = .ok t) (h' : createTag fl v23 padding' body = .ok u) :
    (t.drop 16).take 6 = (u.drop 16).take 6 := by
  have key : ∀ {p x}, createTag fl v23 p body = .ok x → (x.drop 16).take 6 = 5 :: calculateCrc (if fl.restrictions.isSome then body.drop 1 else body) := by
    intro p x hx
    obtain ⟨head, rest, hl, rfl, -⟩ := createTag_crc hc hx
    rw [List.append_assoc, List.drop_left' hl, List.take_left' (by rw [List.length_cons, (crc_value _).1])]
  rw [key h, key h']

/-! ## Examples -/

/-- The usual test of CRC-32. -/
example : checksum (ascii "123456789") = 0xCBF43926#32 := by decide +kernel

/-- A tag with a checksum. -/
def checked (restricted : Bool) : Flags := ⟨false, false, false, true, if restricted then some (Restrictions.fromByte 0) else none⟩

/-- The frame of the test in id3/v2/write/mod.rs: the artist "Foo artist". -/
def fooArtist : Bytes := ascii "TPE1" ++ [0, 0, 0, 11, 0, 0, 3] ++ ascii "Foo artist"

/-- The same frame with one letter changed. -/
def fooArtisu : Bytes := ascii "TPE1" ++ [0, 0, 0, 11, 0, 0, 3] ++ ascii "Foo artisu"

theorem foo_tag : ∃ t, createTag (checked false) false (some 1024) fooArtist = .ok t ∧ (t.drop 16).take 6 = [5, 0x06, 0x35, 0x69, 0x7D, 0x14] := by
  have h : ((createTag (checked false) false (some 1024) fooArtist).toOption.map fun t => (t.drop 16).take 6) = some [5, 0x06, 0x35, 0x69, 0x7D, 0x14] := by
    decide +kernel
  cases ht : createTag (checked false) false (some 1024) fooArtist with
  | error e => rw [ht] at h; cases h
  | ok t => rw [ht] at h; exact ⟨t, rfl, Option.some.inj h⟩

/-- The checksum of the test is that of the frame. -/
example : ofGroups [0x06, 0x35, 0x69, 0x7D, 0x14] = (checksum fooArtist).toNat := by
  obtain ⟨t, h, e⟩ := foo_tag
  obtain ⟨five, rest, h1, h2, h3, -⟩ := tag_checksum_partial rfl rfl h
  rw [e] at h1
  injection h1 with _ h1
  rw [h1, h3]

/-- Changing a letter changes it. -/
example : ∃ t u, createTag (checked false) false (some 1024) fooArtist = .ok t ∧ createTag (checked false) false none fooArtisu = .ok u ∧
    (t.drop 16).take 6 ≠ (u.drop 16).take 6 := by
  obtain ⟨t, h, -⟩ := foo_tag
  have hu : (createTag (checked false) false none fooArtisu).toOption.isSome = true := by decide +kernel
  cases he : createTag (checked false) false none fooArtisu with
  | error e => rw [he] at hu; cases hu
  | ok u =>
    refine ⟨t, u, h, rfl, tag_detects_burst (fl := checked false) rfl rfl h he (by decide) (by decide) 160 ?_⟩
    have hall : ∀ i < 168, (lowBits fooArtist)[i]? ≠ (lowBits fooArtisu)[i]? → 160 ≤ i := by decide +kernel
    intro i hi
    by_cases hlt : i < 168
    · exact ⟨hall i hlt hi, by omega⟩
    · exfalso
      apply hi
      rw [List.getElem?_eq_none (by rw [lowBits_length]; simp [fooArtist, ascii]; omega),
        List.getElem?_eq_none (by rw [lowBits_length]; simp [fooArtisu, ascii]; omega)]

/-- C80 is false of the code with restrictions: frames that differ in their first byte have the same checksum. -/
theorem first_byte_not_checked : ∃ t u, createTag (checked true) false none fooArtist = .ok t ∧
    createTag (checked true) false none (ascii "XPE1" ++ fooArtist.drop 4) = .ok u ∧ t ≠ u ∧ (t.drop 16).take 6 = (u.drop 16).take 6 := by
  have key : ((createTag (checked true) false none fooArtist).toOption.map fun t => (t.drop 16).take 6) =
      ((createTag (checked true) false none (ascii "XPE1" ++ fooArtist.drop 4)).toOption.map fun t => (t.drop 16).take 6) ∧
      (createTag (checked true) false none fooArtist).toOption ≠ (createTag (checked true) false none (ascii "XPE1" ++ fooArtist.drop 4)).toOption ∧
      (createTag (checked true) false none fooArtist).toOption.isSome = true ∧
      (createTag (checked true) false none (ascii "XPE1" ++ fooArtist.drop 4)).toOption.isSome = true := by decide +kernel
  obtain ⟨k1, k2, k3, k4⟩ := key
  cases h1 : createTag (checked true) false none fooArtist with
  | error e => rw [h1] at k3; cases k3
  | ok t =>
    cases h2 : createTag (checked true) false none (ascii "XPE1" ++ fooArtist.drop 4) with
    | error e => rw [h2] at k4; cases k4
    | ok u =>
      rw [h1, h2] at k1 k2
      exact ⟨t, u, rfl, rfl, fun e => k2 (by rw [e]), Option.some.inj k1⟩

end Lofty.Id3v2
