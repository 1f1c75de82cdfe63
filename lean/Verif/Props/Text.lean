import Verif.Lemmas.Text
/-! # C04: text survives every encoding that can represent it -/
namespace Lofty.Text

/-- The texts an encoding can carry: Latin-1 has the code points up to 255; the UTF-16
decoder cannot tell the code points U+FEFF and U+FFFE from byte order marks. -/
def Representable : Encoding → Str → Prop
  | .latin1, t => ∀ c ∈ t, c.toNat ≤ 255
  | .utf8, _ => True
  | .utf16, t => ∀ c ∈ t, c.toNat ≠ 0xFEFF ∧ c.toNat ≠ 0xFFFE
  | .utf16be, t => ∀ c ∈ t, c.toNat ≠ 0xFEFF ∧ c.toNat ≠ 0xFFFE

theorem units_lt (t : Str) : ∀ u ∈ t.flatMap utf16Units, u < 65536 := by
  intro u hu
  obtain ⟨c, _, h⟩ := List.mem_flatMap.mp hu
  exact utf16Units_lt c u h

theorem units_not_mark (t : Str) (h : ∀ c ∈ t, c.toNat ≠ 0xFEFF ∧ c.toNat ≠ 0xFFFE) :
    ∀ u ∈ t.flatMap utf16Units, u ≠ 0xFEFF ∧ u ≠ 0xFFFE := by
  intro u hu
  obtain ⟨c, hc, hm⟩ := List.mem_flatMap.mp hu
  constructor
  · rintro rfl; exact utf16Units_ne c _ (h c hc).1 (by omega) hm
  · rintro rfl; exact utf16Units_ne c _ (h c hc).2 (by omega) hm

theorem toNat_ne_zero (c : Char) (h : c ≠ '\x00') : c.toNat ≠ 0 := by
  intro h0
  apply h
  rw [← char_ofNat_toNat c, h0]

theorem units_ne_zero (t : Str) (h : '\x00' ∉ t) : ∀ u ∈ t.flatMap utf16Units, u ≠ 0 := by
  intro u hu
  obtain ⟨c, hc, hm⟩ := List.mem_flatMap.mp hu
  rintro rfl
  have : c ≠ '\x00' := by rintro rfl; exact h hc
  exact utf16Units_ne c _ (toNat_ne_zero c this) (by omega) hm

theorem utf16DecodeBytes_units (be : Bool) (t : Str) (hl : t.getLast? ≠ some '\x00')
    (hm : ∀ c ∈ t, c.toNat ≠ 0xFEFF ∧ c.toNat ≠ 0xFFFE) :
    utf16DecodeBytes ((t.flatMap utf16Units).flatMap (u16Bytes be)) be = .ok t := by
  unfold utf16DecodeBytes
  split
  · rename_i h
    have h0 : (t.flatMap utf16Units).flatMap (u16Bytes be) = [] := by simpa using h
    have h1 := congrArg List.length h0
    rw [flatMap_u16_length] at h1
    cases t with
    | nil => rfl
    | cons c t =>
      exfalso
      simp only [List.flatMap_cons, List.length_append, List.length_nil] at h1
      have : 0 < (utf16Units c).length := by unfold utf16Units; simp only; split <;> simp
      omega
  · rw [utf16Chunks_units be _ (units_lt t) (units_not_mark t hm), utf16Decode, fromUtf16_flatMap]
    simp only
    rw [trimEndNulls_eq t hl]

theorem utf16DecodeBytes_bom (be : Bool) (t : Str) (hl : t.getLast? ≠ some '\x00')
    (hm : ∀ c ∈ t, c.toNat ≠ 0xFEFF ∧ c.toNat ≠ 0xFFFE) :
    utf16DecodeBytes (u16Bytes be 0xFEFF ++ (t.flatMap utf16Units).flatMap (u16Bytes be)) be = .ok t := by
  have h := utf16DecodeBytes_units be t hl hm
  unfold utf16DecodeBytes at h ⊢
  rw [bomBytes]
  have e : utf16Chunks be ((if be = true then [0xFE, 0xFF] else [0xFF, 0xFE])
      ++ (t.flatMap utf16Units).flatMap (u16Bytes be))
      = utf16Chunks be ((t.flatMap utf16Units).flatMap (u16Bytes be)) := by
    cases be <;> simp [utf16Chunks]
  have hne : ((if be = true then [(0xFE : UInt8), 0xFF] else [0xFF, 0xFE])
      ++ (t.flatMap utf16Units).flatMap (u16Bytes be)).isEmpty = false := by
    cases be <;> rfl
  rw [hne, e]
  simp only [Bool.false_eq_true, if_false]
  split at h
  · rename_i h0
    have h0 : (t.flatMap utf16Units).flatMap (u16Bytes be) = [] := by simpa using h0
    rw [h0]
    cases h
    rfl
  · exact h

/-- The raw bytes of an encoded text decode to the text. -/
theorem decodeRaw_encode (ne : Bool) (e : Encoding) (t : Str) (lossy : Bool) (hr : Representable e t)
    (hl : t.getLast? ≠ some '\x00') :
    ∃ b, encode ne e t false lossy = .ok b ∧ encode ne e t true lossy
        = .ok (b ++ if e = .latin1 ∨ e = .utf8 then [0] else [0, 0]) ∧
      decodeRaw e (0, 0) b
        = .ok (t, if e = .utf16 then (if ne then (0xFE, 0xFF) else (0xFF, 0xFE)) else (0, 0)) := by
  cases e with
  | latin1 =>
    refine ⟨t.map fun c => UInt8.ofNat c.toNat, ?_, ?_, ?_⟩
    · simp [encode, latin1Encode, latin1EncodeFrom_ok lossy 0 t hr]
    · simp [encode, latin1Encode, latin1EncodeFrom_ok lossy 0 t hr]
    · simp only [decodeRaw, latin1Decode, latin1_map_map t hr, trimEndNulls_eq t hl]
      rfl
  | utf8 =>
    refine ⟨utf8 t, by simp [encode], by simp [encode], ?_⟩
    simp [decodeRaw, utf8Decode, fromUtf8_utf8, trimEndNulls_eq t hl, Except.map]
  | utf16be =>
    refine ⟨(t.flatMap utf16Units).flatMap (u16Bytes true), ?_, ?_, ?_⟩
    · simp only [encode, utf16Encode]; simp
    · simp only [encode, utf16Encode]; simp
    · simp only [decodeRaw]
      rw [utf16DecodeBytes_units true t hl hr]
      rfl
  | utf16 =>
    refine ⟨u16Bytes ne 0xFEFF ++ (t.flatMap utf16Units).flatMap (u16Bytes ne), ?_, ?_, ?_⟩
    · simp only [encode, utf16Encode]; simp
    · simp only [encode, utf16Encode]; simp
    · have hlen : (u16Bytes ne 0xFEFF ++ (t.flatMap utf16Units).flatMap (u16Bytes ne)).length % 2 = 0 := by
        rw [List.length_append, flatMap_u16_length, bomBytes]
        cases ne <;> simp <;> omega
      have hd := utf16DecodeBytes_bom ne t hl hr
      revert hd hlen
      rw [bomBytes]
      cases ne
      · intro hlen hd
        simp only [Bool.false_eq_true, if_false, List.cons_append, List.nil_append] at hlen hd ⊢
        simp only [decodeRaw]
        rw [if_neg (by omega)]
        simp [hd, Except.map]
      · intro hlen hd
        simp only [if_true, List.cons_append, List.nil_append] at hlen hd ⊢
        simp only [decodeRaw]
        rw [if_neg (by omega)]
        simp [hd, Except.map]

/-- The byte order mark the decoder reports for an encoded text. -/
def mark (ne : Bool) (e : Encoding) : UInt8 × UInt8 :=
  if e = .utf16 then (if ne then (0xFE, 0xFF) else (0xFF, 0xFE)) else (0, 0)

/-- `decode_encode_terminated` with the byte order mark that is reported. -/
theorem decode_encode_terminated_mark (ne : Bool) (e : Encoding) (t : Str) (lossy : Bool) (rest : Bytes)
    (hr : Representable e t) (h0 : '\x00' ∉ t) :
    ∃ b r, encode ne e t true lossy = .ok b ∧ decodeText e true (0, 0) (b ++ rest) = .ok (r, rest) ∧
      r.content = t ∧ r.bytesRead = b.length ∧ r.bom = mark ne e := by
  obtain ⟨b, _, h2, h3⟩ := decodeRaw_encode ne e t lossy hr (getLast?_of_no_nul t h0)
  have hterm : readToTerminator e ((b ++ if e = .latin1 ∨ e = .utf8 then [0] else [0, 0]) ++ rest)
      = (b, (if e = .latin1 ∨ e = .utf8 then 1 else 2), rest) := by
    cases e with
    | latin1 =>
      have hb : b = t.map fun c => UInt8.ofNat c.toNat := by
        simpa [encode, latin1Encode, latin1EncodeFrom_ok lossy 0 t hr] using h2.symm
      simp only [readToTerminator]
      simp only [true_or, if_true, List.append_assoc, List.singleton_append]
      apply readTerm1_noZero
      rw [hb]
      intro hm
      obtain ⟨c, hc, hz⟩ := List.mem_map.mp hm
      have hc255 := hr c hc
      have := congrArg UInt8.toNat hz
      rw [UInt8.toNat_ofNat_of_lt' (by simp [UInt8.size]; omega)] at this
      exact toNat_ne_zero c (by rintro rfl; exact h0 hc) this
    | utf8 =>
      have hb : b = Lofty.utf8 t := by simpa [encode] using h2.symm
      simp only [readToTerminator]
      simp only [or_true, if_true, List.append_assoc, List.singleton_append]
      apply readTerm1_noZero
      rw [hb, zero_mem_utf8]
      exact h0
    | utf16be =>
      have hb : b = (t.flatMap utf16Units).flatMap (u16Bytes true) := by
        simpa [encode, utf16Encode] using h2.symm
      have := readTerm2_units true _ (units_lt t) (units_ne_zero t h0) rest
      simp only [readToTerminator]
      rw [hb]
      simpa using this
    | utf16 =>
      have hb : b = u16Bytes ne 0xFEFF ++ (t.flatMap utf16Units).flatMap (u16Bytes ne) := by
        have h2' := h2.symm
        simp only [encode, utf16Encode, if_true, reduceCtorEq, or_self, if_false,
          Except.ok.injEq] at h2'
        exact List.append_cancel_right h2'
      have := readTerm2_units ne (0xFEFF :: t.flatMap utf16Units)
        (by simp only [List.mem_cons]; rintro u (rfl | hu)
            · decide
            · exact units_lt t u hu)
        (by simp only [List.mem_cons]; rintro u (rfl | hu)
            · decide
            · exact units_ne_zero t h0 u hu) rest
      simp only [readToTerminator]
      rw [hb]
      simpa using this
  refine ⟨b ++ if e = .latin1 ∨ e = .utf8 then [0] else [0, 0], ?_⟩
  by_cases hb : b = []
  · refine ⟨⟨[], if e = .latin1 ∨ e = .utf8 then 1 else 2, (0, 0)⟩, h2, ?_, ?_, ?_, ?_⟩
    · rw [decodeText, if_pos rfl, hterm]
      simp only [hb, List.isEmpty_nil, if_true]
    · subst hb
      cases e with
      | latin1 => simp [decodeRaw, latin1Decode, trimEndNulls] at h3; exact h3.symm
      | utf8 =>
        have := fromUtf8_utf8 []
        simp at this
        simp [decodeRaw, utf8Decode, this, trimEndNulls, Except.map] at h3; exact h3.symm
      | utf16be => simp [decodeRaw, utf16DecodeBytes, Except.map] at h3; exact h3.symm
      | utf16 => simp [decodeRaw] at h3
    · rw [hb]; simp only [List.nil_append]; split <;> rfl
    · subst hb
      cases e with
      | utf16 => simp [decodeRaw] at h3
      | _ => rfl
  · refine ⟨⟨t, b.length + (if e = .latin1 ∨ e = .utf8 then 1 else 2),
      if e = .utf16 then (if ne then (0xFE, 0xFF) else (0xFF, 0xFE)) else (0, 0)⟩, h2, ?_, rfl, ?_, rfl⟩
    · rw [decodeText, if_pos rfl, hterm]
      simp only [List.isEmpty_iff, hb, if_false, h3, Except.map]
    · simp only [List.length_append]
      congr 1
      split <;> rfl

/-- C04: a representable NUL-free text, encoded with a terminator and followed by
arbitrary bytes, is decoded to itself; the decoder reports and consumes exactly the
encoded bytes.  `ne` is the byte order of the machine. -/
theorem decode_encode_terminated (ne : Bool) (e : Encoding) (t : Str) (lossy : Bool) (rest : Bytes)
    (hr : Representable e t) (h0 : '\x00' ∉ t) :
    ∃ b r, encode ne e t true lossy = .ok b ∧ decodeText e true (0, 0) (b ++ rest) = .ok (r, rest) ∧
      r.content = t ∧ r.bytesRead = b.length := by
  obtain ⟨b, r, h1, h2, h3, h4, _⟩ := decode_encode_terminated_mark ne e t lossy rest hr h0
  exact ⟨b, r, h1, h2, h3, h4⟩

example : Representable .utf16 (str "løft¥𝄞") ∧ '\x00' ∉ str "løft¥𝄞" := by
  constructor
  · show ∀ c ∈ str "løft¥𝄞", c.toNat ≠ 0xFEFF ∧ c.toNat ≠ 0xFFFE
    decide
  · decide

/-- C04: a representable text that does not end in NUL (it may contain NULs), encoded
without a terminator, is decoded to itself, consuming everything. -/
theorem decode_encode_unterminated (ne : Bool) (e : Encoding) (t : Str) (lossy : Bool)
    (hr : Representable e t) (hl : t.getLast? ≠ some '\x00') :
    ∃ b r, encode ne e t false lossy = .ok b ∧ decodeText e false (0, 0) b = .ok (r, []) ∧
      r.content = t ∧ r.bytesRead = b.length := by
  obtain ⟨b, h1, _, h3⟩ := decodeRaw_encode ne e t lossy hr hl
  refine ⟨b, ?_⟩
  by_cases hb : b = []
  · refine ⟨⟨[], 0, (0, 0)⟩, h1, ?_, ?_, by simp [hb]⟩
    · simp [decodeText, hb]
    · subst hb
      cases e with
      | latin1 => simp [decodeRaw, latin1Decode, trimEndNulls] at h3; exact h3.symm
      | utf8 =>
        have := fromUtf8_utf8 []
        simp at this
        simp [decodeRaw, utf8Decode, this, trimEndNulls, Except.map] at h3; exact h3.symm
      | utf16be => simp [decodeRaw, utf16DecodeBytes, Except.map] at h3; exact h3.symm
      | utf16 => simp [decodeRaw] at h3
  · exact ⟨⟨t, b.length, _⟩, h1, by simp [decodeText, hb, h3, Except.map]; rfl, rfl, rfl⟩

example : Representable .latin1 (str "a\x00é") ∧ (str "a\x00é").getLast? ≠ some '\x00' := by
  constructor
  · show ∀ c ∈ str "a\x00é", c.toNat ≤ 255
    decide
  · decide

/-- C04: encoding fails only for Latin-1 without substitution, and exactly when a
character is above 255. -/
theorem encode_fails_iff (ne : Bool) (e : Encoding) (t : Str) (term lossy : Bool) :
    (∃ err, encode ne e t term lossy = .error err) ↔ e = .latin1 ∧ lossy = false ∧ ∃ c ∈ t, 255 < c.toNat := by
  cases e with
  | utf8 => simp [encode]
  | utf16 => simp [encode]
  | utf16be => simp [encode]
  | latin1 =>
    have h : ∀ i, (∃ k, latin1EncodeFrom lossy i t = .error k) ↔ lossy = false ∧ ∃ c ∈ t, 255 < c.toNat := by
      induction t with
      | nil => simp [latin1EncodeFrom]
      | cons c t ih =>
        intro i
        rw [latin1EncodeFrom]
        have hm : ∀ (x : Except Nat Bytes) (f : Bytes → Bytes), (∃ k, x.map f = .error k) ↔ ∃ k, x = .error k := by
          intro x f; cases x <;> simp [Except.map]
        split
        · rename_i hc
          rw [hm, ih]
          simp only [List.mem_cons, exists_eq_or_imp]
          constructor
          · rintro ⟨a, b⟩; exact ⟨a, Or.inr b⟩
          · rintro ⟨a, b⟩; exact ⟨a, b.resolve_left (by omega)⟩
        · rename_i hc
          split
          · rename_i hl
            rw [hm, ih]
            simp [hl]
          · rename_i hl
            simp only [Except.error.injEq, exists_eq', true_iff]
            exact ⟨by simpa using hl, c, by simp, by omega⟩
    simp only [encode, latin1Encode, true_and]
    rw [← h 0]
    cases latin1EncodeFrom lossy 0 t <;> simp

/-- C04: with substitution, Latin-1 text comes back with every character above 255
replaced by a question mark and every other character unchanged. -/
theorem decode_encode_lossy (ne : Bool) (t : Str) (hl : t.getLast? ≠ some '\x00') :
    ∃ b r, encode ne .latin1 t false true = .ok b ∧ decodeText .latin1 false (0, 0) b = .ok (r, []) ∧
      r.content = t.map (fun c => if c.toNat ≤ 255 then c else '?') := by
  have h1 : ∀ i, latin1EncodeFrom true i t
      = latin1EncodeFrom true i (t.map (fun c => if c.toNat ≤ 255 then c else '?')) := by
    induction t with
    | nil => simp
    | cons c t ih =>
      intro i
      have ih' := ih (by
        intro h; apply hl; rw [List.getLast?_cons, h]; rfl) (i + 1)
      simp only [List.map_cons]
      rw [latin1EncodeFrom, latin1EncodeFrom, ih']
      split
      · rename_i h; simp [h]
      · simp
  have hr : Representable .latin1 (t.map (fun c => if c.toNat ≤ 255 then c else '?')) := by
    intro c hc
    obtain ⟨d, _, rfl⟩ := List.mem_map.mp hc
    split
    · assumption
    · decide
  have hl' : (t.map (fun c => if c.toNat ≤ 255 then c else '?')).getLast? ≠ some '\x00' := by
    rw [List.getLast?_map]
    intro h
    obtain ⟨c, hc, he⟩ := Option.map_eq_some_iff.mp h
    split at he
    · exact hl (he ▸ hc)
    · cases he
  obtain ⟨b, r, e1, e2, e3, _⟩ := decode_encode_unterminated ne .latin1 _ true hr hl'
  refine ⟨b, r, ?_, e2, e3⟩
  rw [← e1]
  simp only [encode, latin1Encode, h1 0]

/-- C04: what a terminated read does to arbitrary data, for the one-byte encodings: it
stops at the first zero byte, or at the end of the data. -/
theorem readToTerminator_one (e : Encoding) (he : e = .latin1 ∨ e = .utf8) (d : Bytes) :
    ∃ raw tl rest, readToTerminator e d = (raw, tl, rest) ∧ (0 : UInt8) ∉ raw ∧
      d = raw ++ List.replicate tl 0 ++ rest ∧ (tl = 1 ∨ (tl = 0 ∧ rest = [])) := by
  have : readToTerminator e d = readTerm1 d := by rcases he with rfl | rfl <;> rfl
  rw [this]
  clear this he
  induction d with
  | nil => exact ⟨[], 0, [], rfl, by simp, rfl, Or.inr ⟨rfl, rfl⟩⟩
  | cons b d ih =>
    rw [readTerm1]
    split
    · rename_i h
      subst h
      exact ⟨[], 1, d, rfl, by simp, rfl, Or.inl rfl⟩
    · rename_i h
      obtain ⟨raw, tl, rest, h1, h2, h3, h4⟩ := ih
      rw [h1]
      refine ⟨b :: raw, tl, rest, rfl, ?_, by rw [h3]; simp, h4⟩
      simp only [List.mem_cons, not_or]
      exact ⟨fun h' => h h'.symm, h2⟩

/-- C04: the same for the two-byte encodings: it stops at the first aligned pair of
zero bytes, or at the end of the data (where an odd last byte is dropped). -/
theorem readToTerminator_two (e : Encoding) (he : e = .utf16 ∨ e = .utf16be) (d : Bytes) :
    ∃ raw tl rest, readToTerminator e d = (raw, tl, rest) ∧ raw.length % 2 = 0 ∧
      (∀ i, 2 * i + 1 < raw.length → ¬ (raw[2 * i]? = some 0 ∧ raw[2 * i + 1]? = some 0)) ∧
      ((tl = 2 ∧ d = raw ++ [0, 0] ++ rest) ∨ (tl = 0 ∧ rest = [] ∧ ∃ odd, d = raw ++ odd ∧ odd.length ≤ 1)) := by
  have : readToTerminator e d = readTerm2 d := by rcases he with rfl | rfl <;> rfl
  rw [this]
  clear this he
  fun_induction readTerm2 d with
  | case1 b1 b2 d h =>
    obtain ⟨rfl, rfl⟩ := h
    exact ⟨[], 2, d, rfl, rfl, by simp, Or.inl ⟨rfl, rfl⟩⟩
  | case2 b1 b2 d h t n r heq ih =>
    obtain ⟨raw, tl, rest, h1, h2, h3, h4⟩ := ih
    rw [heq] at h1
    cases h1
    refine ⟨b1 :: b2 :: t, n, r, rfl, by simp; omega, ?_, ?_⟩
    · intro i hi
      cases i with
      | zero => simpa using h
      | succ i =>
        have := h3 i (by simp at hi; omega)
        have e1 : 2 * (i + 1) = 2 * i + 1 + 1 := by omega
        rw [e1]
        simpa using this
    · rcases h4 with ⟨h5, h6⟩ | ⟨h5, h6, odd, h7, h8⟩
      · exact Or.inl ⟨h5, by rw [h6]; simp⟩
      · exact Or.inr ⟨h5, h6, odd, by rw [h7]; simp, h8⟩
  | case3 d h =>
    refine ⟨[], 0, [], rfl, rfl, by simp, Or.inr ⟨rfl, rfl, d, rfl, ?_⟩⟩
    cases d with
    | nil => simp
    | cons a d =>
      cases d with
      | nil => simp
      | cons b d => exact absurd rfl (h a b d)

/-- C04: decoded text never ends in NUL. -/
theorem decoded_no_trailing_nul (e : Encoding) (term : Bool) (bom : UInt8 × UInt8) (d rest : Bytes)
    (r : Decoded) (h : decodeText e term bom d = .ok (r, rest)) : r.content.getLast? ≠ some '\x00' := by
  have h16 : ∀ b be t, utf16DecodeBytes b be = .ok t → t.getLast? ≠ some '\x00' := by
    intro b be t h
    unfold utf16DecodeBytes at h
    split at h
    · cases h; simp
    · unfold utf16Decode at h
      split at h
      · cases h; exact trimEndNulls_last _
      · cases h
  have hmap : ∀ {α : Type} (x : Except Err Str) (y : α) t z, x.map (fun s => (s, y)) = .ok (t, z) → x = .ok t := by
    intro α x y t z h
    cases x with
    | error e => cases h
    | ok a => cases h; rfl
  have hraw : ∀ raw t b, decodeRaw e bom raw = .ok (t, b) → t.getLast? ≠ some '\x00' := by
    intro raw t b h
    cases e with
    | latin1 => cases h; exact trimEndNulls_last _
    | utf8 =>
      simp only [decodeRaw] at h
      have h := hmap _ _ _ _ h
      unfold utf8Decode at h
      split at h
      · cases h; exact trimEndNulls_last _
      · cases h
    | utf16be =>
      simp only [decodeRaw] at h
      exact h16 _ _ _ (hmap _ _ _ _ h)
    | utf16 =>
      simp only [decodeRaw] at h
      split at h
      · split at h
        · cases h
        · generalize (if bom = (0, 0) then _ else bom) = bm at h
          split at h
          · exact h16 _ _ _ (hmap _ _ _ _ h)
          · split at h
            · exact h16 _ _ _ (hmap _ _ _ _ h)
            · cases h
      · cases h
  have hfin : ∀ raw n rest', (decodeRaw e bom raw).map (fun x => ((⟨x.1, n, x.2⟩ : Decoded), rest')) = .ok (r, rest) →
      r.content.getLast? ≠ some '\x00' := by
    intro raw n rest' h
    cases hd : decodeRaw e bom raw with
    | error x => rw [hd] at h; cases h
    | ok x =>
      rw [hd] at h
      cases h
      exact hraw raw x.1 x.2 hd
  unfold decodeText at h
  split at h
  · simp only at h
    split at h
    · cases h; simp
    · exact hfin _ _ _ h
  · split at h
    · cases h; simp
    · exact hfin _ _ _ h

/-- C04 for the reader used after a first string with a byte order mark: it accepts the
terminated text with a mark of either order, or without a mark in the given order. -/
theorem maybeBom_encode (be be' bom : Bool) (t : Str) (rest : Bytes) (h0 : '\x00' ∉ t)
    (hm : ∀ c ∈ t, c.toNat ≠ 0xFEFF ∧ c.toNat ≠ 0xFFFE) (hb : bom = true ∨ be' = be) :
    utf16DecodeTerminatedMaybeBom be' (utf16Encode t be bom true ++ rest)
      = .ok ((t, (utf16Encode t be bom true).length), rest) := by
  have hl := getLast?_of_no_nul t h0
  unfold utf16DecodeTerminatedMaybeBom utf16Encode
  cases bom with
  | true =>
    have hr := readTerm2_units be (0xFEFF :: t.flatMap utf16Units)
        (by simp only [List.mem_cons]; rintro u (rfl | hu)
            · decide
            · exact units_lt t u hu)
        (by simp only [List.mem_cons]; rintro u (rfl | hu)
            · decide
            · exact units_ne_zero t h0 u hu) rest
    have hd := utf16DecodeBytes_units be t hl hm
    simp only [readToTerminator, if_true, List.append_assoc, List.cons_append, List.nil_append]
    rw [List.flatMap_cons, bomBytes] at hr
    rw [bomBytes]
    cases be
    · simp only [Bool.false_eq_true, if_false, List.cons_append, List.nil_append] at hr hd ⊢
      rw [hr]
      simp [hd, Except.map]
    · simp only [if_true, List.cons_append, List.nil_append] at hr hd ⊢
      rw [hr]
      simp [hd, Except.map]
  | false =>
    have hb' : be' = be := by simpa using hb
    subst hb'
    have hr := readTerm2_units be' (t.flatMap utf16Units) (units_lt t) (units_ne_zero t h0) rest
    have hd := utf16DecodeBytes_units be' t hl hm
    simp only [readToTerminator, Bool.false_eq_true, if_false, if_true, List.nil_append, List.append_assoc,
      List.cons_append]
    rw [hr]
    simp only
    split
    · rename_i b1 b2 raw' he
      -- the first unit is not a byte order mark
      have hne : ¬ ((b1 = 0xFF ∧ b2 = 0xFE) ∨ (b1 = 0xFE ∧ b2 = 0xFF)) := by
        intro hc
        have hmk := u16Of_mark be' b1 b2 hc
        cases hu : t.flatMap utf16Units with
        | nil => rw [hu] at he; cases he
        | cons u us =>
          obtain ⟨c1, c2, h1, h2⟩ := u16Bytes_cases be' u (units_lt t u (by rw [hu]; simp))
          rw [hu, List.flatMap_cons, h1] at he
          simp only [List.cons_append, List.cons.injEq] at he
          obtain ⟨rfl, rfl, _⟩ := he
          have := units_not_mark t hm u (by rw [hu]; simp)
          rw [h2] at hmk
          omega
      rw [if_neg (fun h => hne (Or.inl h)), if_neg (fun h => hne (Or.inr h)), hd]
      simp [Except.map]
    · rw [hd]
      simp [Except.map]

example : utf16DecodeTerminatedMaybeBom false (utf16Encode (str "hé") true true true ++ [7])
    = .ok ((str "hé", 8), [7]) := by decide

/-- The restriction to texts without U+FEFF is needed: the UTF-16 decoder drops this
character wherever it occurs. -/
theorem utf16_drops_feff :
    (encode false .utf16 ['a', '﻿', 'b'] false false).bind
        (fun b => (decodeText .utf16 false (0, 0) b).map fun r => r.1.content) = .ok ['a', 'b'] := by
  decide

/-- The index in a Latin-1 encoding error is documented to be a byte index into the
text; it is the character index.  For "é→" the valid prefix is 2 bytes long, 1 is reported. -/
theorem latin1_error_index :
    latin1Encode ['é', '→'] false = .error 1 ∧ (utf8 ['é']).length = 2 := by decide

end Lofty.Text
