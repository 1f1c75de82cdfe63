import Verif.Model.Text
import Verif.Lemmas.Bytes
/-! Helper lemmas about text encodings (C04 and all tags that hold text). -/
namespace Lofty

theorem toNat_charOfNat (n : Nat) (h : n.isValidChar) : (Char.ofNat n).toNat = n := by
  unfold Char.ofNat
  rw [dif_pos h]
  rfl

theorem fromUtf8_utf8 (t : Str) : fromUtf8 (utf8 t) = some t := by
  unfold fromUtf8 utf8
  have h : (t.flatMap String.utf8EncodeChar).toByteArray = t.utf8Encode := rfl
  rw [h, List.utf8Decode?_utf8Encode]
  simp

theorem toByteArray_inj {a b : Bytes} (h : a.toByteArray = b.toByteArray) : a = b := by
  have := congrArg (fun x : ByteArray => x.data.toList) h
  simpa [List.data_toByteArray] using this

theorem utf8_fromUtf8 {b : Bytes} {t : Str} (h : fromUtf8 b = some t) : utf8 t = b := by
  unfold fromUtf8 at h
  obtain ⟨a, ha, rfl⟩ := Option.map_eq_some_iff.mp h
  have hs : b.toByteArray.utf8Decode?.isSome = true := by rw [ha]; rfl
  have := ByteArray.utf8Encode_get_utf8Decode? (b := b.toByteArray) (h := hs)
  have hg : b.toByteArray.utf8Decode?.get hs = a := by simp [ha]
  rw [hg] at this
  exact toByteArray_inj this

theorem utf8_inj {a b : Str} (h : utf8 a = utf8 b) : a = b := by
  have := fromUtf8_utf8 a
  rw [h, fromUtf8_utf8] at this
  exact (Option.some.inj this).symm

@[simp] theorem utf8_nil : utf8 [] = [] := rfl
@[simp] theorem utf8_cons (c : Char) (t : Str) : utf8 (c :: t) = String.utf8EncodeChar c ++ utf8 t := rfl
@[simp] theorem utf8_append (a b : Str) : utf8 (a ++ b) = utf8 a ++ utf8 b := by
  simp [utf8]

theorem utf8EncodeChar_ascii (c : Char) (h : c.toNat ≤ 127) :
    String.utf8EncodeChar c = [UInt8.ofNat c.toNat] := by
  unfold String.utf8EncodeChar
  simp only
  rw [if_pos]
  · rfl
  · exact h

theorem utf8EncodeChar_high (c : Char) (h : 127 < c.toNat) :
    ∀ b ∈ String.utf8EncodeChar c, 128 ≤ b.toNat := by
  intro b hb
  have hv : c.val.toNat = c.toNat := rfl
  unfold String.utf8EncodeChar at hb
  simp only [hv] at hb
  rw [if_neg (by omega)] at hb
  split at hb
  · simp at hb
    rcases hb with rfl | rfl <;> simp <;> omega
  · split at hb
    · simp at hb
      rcases hb with rfl | rfl | rfl <;> simp <;> omega
    · simp at hb
      rcases hb with rfl | rfl | rfl | rfl <;> simp <;> omega

theorem utf8_eq_nil {t : Str} (h : utf8 t = []) : t = [] := by
  cases t with
  | nil => rfl
  | cons c t =>
    simp only [utf8_cons, List.append_eq_nil_iff] at h
    exact absurd h.1 String.utf8EncodeChar_ne_nil

/-- An ASCII byte occurs in the UTF-8 form exactly when the character occurs. -/
theorem mem_utf8_ascii (t : Str) (b : UInt8) (hb : b.toNat < 128) :
    b ∈ utf8 t ↔ Char.ofNat b.toNat ∈ t := by
  induction t with
  | nil => simp
  | cons c t ih =>
    rw [utf8_cons, List.mem_append, List.mem_cons, ih]
    have : b ∈ String.utf8EncodeChar c ↔ Char.ofNat b.toNat = c := by
      by_cases hc : c.toNat ≤ 127
      · rw [utf8EncodeChar_ascii c hc]
        simp only [List.mem_singleton]
        constructor
        · rintro rfl
          rw [UInt8.toNat_ofNat_of_lt' (by simp [UInt8.size]; omega)]
          simp
        · rintro rfl
          rw [toNat_charOfNat _ (Or.inl (by omega))]; simp
      · constructor
        · intro h
          have := utf8EncodeChar_high c (by omega) b h
          omega
        · rintro rfl
          exfalso
          apply hc
          rw [toNat_charOfNat _ (Or.inl (by omega))]
          omega
    rw [this]

theorem zero_mem_utf8 (t : Str) : (0 : UInt8) ∈ utf8 t ↔ '\x00' ∈ t :=
  mem_utf8_ascii t 0 (by decide)

/-! ASCII text. -/

theorem utf8_ascii (t : Str) (h : ∀ c ∈ t, c.toNat ≤ 127) :
    utf8 t = t.map fun c => UInt8.ofNat c.toNat := by
  induction t with
  | nil => rfl
  | cons c t ih =>
    rw [utf8_cons, utf8EncodeChar_ascii c (h c (by simp)), ih (fun x hx => h x (by simp [hx]))]
    rfl

namespace Text

theorem char_ofNat_toNat (c : Char) : Char.ofNat c.toNat = c := by simp

theorem latin1_char (c : Char) (h : c.toNat ≤ 255) : Char.ofNat (UInt8.ofNat c.toNat).toNat = c := by
  rw [UInt8.toNat_ofNat_of_lt' (by simp [UInt8.size]; omega)]
  simp

theorem trimEndNulls_eq (t : Str) (h : t.getLast? ≠ some '\x00') : trimEndNulls t = t := by
  unfold trimEndNulls
  rw [List.getLast?_eq_head?_reverse] at h
  cases hr : t.reverse with
  | nil => simp at hr; simp [hr]
  | cons c r =>
    rw [hr] at h
    simp at h
    rw [List.dropWhile_cons_of_neg (by simpa using h), ← hr, List.reverse_reverse]

theorem getLast?_of_no_nul (t : Str) (h : '\x00' ∉ t) : t.getLast? ≠ some '\x00' := by
  intro hl
  exact h (List.mem_of_getLast? hl)

theorem trimEndNulls_last (t : Str) : (trimEndNulls t).getLast? ≠ some '\x00' := by
  unfold trimEndNulls
  rw [List.getLast?_eq_head?_reverse, List.reverse_reverse]
  intro h
  have := List.head?_dropWhile_not (fun c => decide (c = '\x00')) t.reverse
  rw [h] at this
  simp at this

theorem latin1EncodeFrom_ok (lossy : Bool) (i : Nat) (t : Str) (h : ∀ c ∈ t, c.toNat ≤ 255) :
    latin1EncodeFrom lossy i t = .ok (t.map fun c => UInt8.ofNat c.toNat) := by
  induction t generalizing i with
  | nil => rfl
  | cons c t ih =>
    rw [latin1EncodeFrom, if_pos (h c (by simp)), ih _ (fun x hx => h x (by simp [hx]))]
    rfl

theorem latin1_map_map (t : Str) (h : ∀ c ∈ t, c.toNat ≤ 255) :
    (t.map fun c => UInt8.ofNat c.toNat).map (fun c => Char.ofNat c.toNat) = t := by
  rw [List.map_map]
  conv => rhs; rw [← List.map_id t]
  apply List.map_congr_left
  intro c hc
  exact latin1_char c (h c hc)

/-! UTF-16 -/

theorem fromUtf16_units (c : Char) (r : List Nat) :
    fromUtf16 (utf16Units c ++ r) = (fromUtf16 r).map (c :: ·) := by
  have hv : c.toNat < 0xD800 ∨ (0xDFFF < c.toNat ∧ c.toNat < 0x110000) := c.valid
  unfold utf16Units
  simp only
  split
  · rename_i h
    simp only [List.cons_append, List.nil_append]
    rw [fromUtf16.eq_def]
    simp only
    rw [if_pos (by omega)]
    simp
  · rename_i h
    simp only [List.cons_append, List.nil_append]
    have hq : (c.toNat - 0x10000) / 0x400 < 0x400 := by omega
    have hm : (c.toNat - 0x10000) % 0x400 < 0x400 := by omega
    rw [fromUtf16.eq_def]
    simp only
    rw [if_neg (by omega), if_neg (by omega), if_pos (by omega)]
    have : 0x10000 + (0xD800 + (c.toNat - 0x10000) / 0x400 - 0xD800) * 0x400
        + (0xDC00 + (c.toNat - 0x10000) % 0x400 - 0xDC00) = c.toNat := by omega
    rw [this]
    simp

theorem fromUtf16_flatMap (t : Str) : fromUtf16 (t.flatMap utf16Units) = some t := by
  induction t with
  | nil => rfl
  | cons c t ih => rw [List.flatMap_cons, fromUtf16_units, ih]; rfl

theorem utf16Units_lt (c : Char) : ∀ u ∈ utf16Units c, u < 65536 := by
  have hv : c.toNat < 0xD800 ∨ (0xDFFF < c.toNat ∧ c.toNat < 0x110000) := c.valid
  unfold utf16Units
  simp only
  split <;> simp <;> omega

theorem utf16Units_ne (c : Char) (v : Nat) (hv : c.toNat ≠ v) (h : v < 0xD800 ∨ 0xDFFF < v) :
    v ∉ utf16Units c := by
  have hc : c.toNat < 0xD800 ∨ (0xDFFF < c.toNat ∧ c.toNat < 0x110000) := c.valid
  unfold utf16Units
  simp only
  split
  · simp; omega
  · simp; omega

theorem leBytes_two (u : Nat) : leBytes 2 u = [UInt8.ofNat u, UInt8.ofNat (u / 256)] := rfl
theorem beBytes_two (u : Nat) : beBytes 2 u = [UInt8.ofNat (u / 256), UInt8.ofNat u] := rfl

theorem u16Bytes_cases (be : Bool) (u : Nat) (h : u < 65536) :
    ∃ b1 b2, u16Bytes be u = [b1, b2] ∧ u16Of be b1 b2 = u := by
  cases be
  · refine ⟨_, _, leBytes_two u, ?_⟩
    have := fromLE_leBytes_of_lt (k := 2) (n := u) (by omega)
    rw [leBytes_two] at this
    exact this
  · refine ⟨_, _, beBytes_two u, ?_⟩
    have := fromBE_beBytes_of_lt (k := 2) (n := u) (by omega)
    rw [beBytes_two] at this
    exact this

theorem u16Of_mark (be : Bool) (b1 b2 : UInt8)
    (h : (b1 = 0xFF ∧ b2 = 0xFE) ∨ (b1 = 0xFE ∧ b2 = 0xFF)) :
    u16Of be b1 b2 = 0xFEFF ∨ u16Of be b1 b2 = 0xFFFE := by
  rcases h with ⟨rfl, rfl⟩ | ⟨rfl, rfl⟩ <;> cases be <;> simp [u16Of, fromBE, fromLE]

theorem u16Of_zero (be : Bool) (b1 b2 : UInt8) (h : b1 = 0 ∧ b2 = 0) : u16Of be b1 b2 = 0 := by
  obtain ⟨rfl, rfl⟩ := h
  cases be <;> simp [u16Of, fromBE, fromLE]

theorem utf16Chunks_units (be : Bool) (us : List Nat) (h : ∀ u ∈ us, u < 65536)
    (hm : ∀ u ∈ us, u ≠ 0xFEFF ∧ u ≠ 0xFFFE) :
    utf16Chunks be (us.flatMap (u16Bytes be)) = us := by
  induction us with
  | nil => rfl
  | cons u us ih =>
    obtain ⟨b1, b2, hb, hu⟩ := u16Bytes_cases be u (h u (by simp))
    rw [List.flatMap_cons, hb]
    simp only [List.cons_append, List.nil_append]
    rw [utf16Chunks, if_neg, hu, ih (fun x hx => h x (by simp [hx])) (fun x hx => hm x (by simp [hx]))]
    intro hc
    have := u16Of_mark be b1 b2 hc
    rw [hu] at this
    have := hm u (by simp)
    omega

theorem readTerm2_units (be : Bool) (us : List Nat) (h : ∀ u ∈ us, u < 65536) (hz : ∀ u ∈ us, u ≠ 0)
    (rest : Bytes) :
    readTerm2 (us.flatMap (u16Bytes be) ++ 0 :: 0 :: rest) = (us.flatMap (u16Bytes be), 2, rest) := by
  induction us with
  | nil => simp [readTerm2]
  | cons u us ih =>
    obtain ⟨b1, b2, hb, hu⟩ := u16Bytes_cases be u (h u (by simp))
    rw [List.flatMap_cons, hb]
    simp only [List.cons_append, List.nil_append]
    rw [readTerm2, if_neg, ih (fun x hx => h x (by simp [hx])) (fun x hx => hz x (by simp [hx]))]
    intro hc
    have := u16Of_zero be b1 b2 hc
    rw [hu] at this
    exact hz u (by simp) this

theorem readTerm1_noZero (b : Bytes) (h : (0 : UInt8) ∉ b) (rest : Bytes) :
    readTerm1 (b ++ 0 :: rest) = (b, 1, rest) := by
  induction b with
  | nil => simp [readTerm1]
  | cons x b ih =>
    simp at h
    rw [List.cons_append, readTerm1, if_neg (by simpa [eq_comm] using h.1), ih h.2]

theorem flatMap_u16_length (be : Bool) (us : List Nat) : (us.flatMap (u16Bytes be)).length = 2 * us.length := by
  induction us with
  | nil => rfl
  | cons u us ih =>
    rw [List.flatMap_cons, List.length_append, ih]
    cases be <;> simp [u16Bytes] <;> omega

theorem bomBytes (be : Bool) : u16Bytes be 0xFEFF = if be then [0xFE, 0xFF] else [0xFF, 0xFE] := by
  cases be <;> decide

end Text
end Lofty
