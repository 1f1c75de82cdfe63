import Verif.Model.Id3v2Items
import Verif.Props.Text
/-!
# Texts inside ID3v2 frames
-/
namespace Lofty.Text

/-- Decoding again with the byte order mark found changes nothing. -/
theorem decodeRaw_again {e : Encoding} {bom bom' : UInt8 × UInt8} {raw : Bytes} {t : Str}
    (h : decodeRaw e bom raw = .ok (t, bom')) : decodeRaw e bom' raw = .ok (t, bom') := by
  cases e with
  | latin1 => exact h
  | utf16be => exact h
  | utf8 => exact h
  | utf16 =>
    match raw with
    | [] => simp [decodeRaw] at h
    | [_] => simp [decodeRaw] at h
    | b1 :: b2 :: r =>
      simp only [decodeRaw] at h ⊢
      split at h
      · simp at h
      · rename_i hl
        rw [if_neg hl]
        generalize (if bom = (0, 0) then (b1, b2) else bom) = bm at h
        split at h
        · rename_i hb
          have h' := h
          rw [hb] at h'
          unfold Except.map at h'
          split at h'
          · simp at h'
          · rename_i v hv
            simp only [Except.ok.injEq, Prod.mk.injEq] at h'
            obtain ⟨h1, h2⟩ := h'
            subst h1 h2
            simp [hv, Except.map]
        · split at h
          · rename_i hb
            have h' := h
            rw [hb] at h'
            unfold Except.map at h'
            split at h'
            · simp at h'
            · rename_i v hv
              simp only [Except.ok.injEq, Prod.mk.injEq] at h'
              obtain ⟨h1, h2⟩ := h'
              subst h1 h2
              simp [hv, Except.map]
          · simp at h

theorem decodeText_again {e : Encoding} {bom : UInt8 × UInt8} {d rest : Bytes} {r : Decoded}
    (h : decodeText e true bom d = .ok (r, rest)) : decodeText e true r.bom d = .ok (r, rest) := by
  rw [decodeText, if_pos rfl] at h ⊢
  generalize readToTerminator e d = x at h ⊢
  obtain ⟨raw, tl, rs⟩ := x
  simp only at h ⊢
  split at h
  · rename_i he; rw [if_pos he]; exact h
  · rename_i he
    rw [if_neg he]
    unfold Except.map at h
    split at h
    · simp at h
    · rename_i v hv
      simp only [Except.ok.injEq, Prod.mk.injEq] at h
      obtain ⟨h1, h2⟩ := h
      subst h1 h2
      obtain ⟨t, bm⟩ := v
      simp only [decodeRaw_again hv, Except.map]

theorem readTerm2_units_end (be : Bool) (us : List Nat) (h : ∀ u ∈ us, u < 65536) (hz : ∀ u ∈ us, u ≠ 0) :
    readTerm2 (us.flatMap (u16Bytes be)) = (us.flatMap (u16Bytes be), 0, []) := by
  induction us with
  | nil => simp [readTerm2]
  | cons u us ih =>
    obtain ⟨b1, b2, hb, hu⟩ := u16Bytes_cases be u (h u (by simp))
    rw [List.flatMap_cons, hb]
    simp only [List.cons_append, List.nil_append]
    rw [readTerm2, if_neg, ih (fun x hx => h x (by simp [hx])) (fun x hx => hz x (by simp [hx]))]
    intro hc
    have := u16Of_zero be b1 b2 hc
    rw [hu] at this
    exact hz u (by simp) this

theorem readTerm1_end (b : Bytes) (h : (0 : UInt8) ∉ b) : readTerm1 b = (b, 0, []) := by
  induction b with
  | nil => simp [readTerm1]
  | cons x b ih =>
    simp at h
    rw [readTerm1, if_neg (by simpa [eq_comm] using h.1), ih h.2]

/-- A NUL-free UTF-16 text with a mark and without a terminator, at the end of the data. -/
theorem maybeBom_end (be be' : Bool) (t : Str) (h0 : '\x00' ∉ t) (hm : ∀ c ∈ t, c.toNat ≠ 0xFEFF ∧ c.toNat ≠ 0xFFFE) :
    utf16DecodeTerminatedMaybeBom be' (utf16Encode t be true false)
      = .ok ((t, (utf16Encode t be true false).length), []) := by
  have hl := getLast?_of_no_nul t h0
  unfold utf16DecodeTerminatedMaybeBom utf16Encode
  have hr := readTerm2_units_end be (0xFEFF :: t.flatMap utf16Units)
      (by simp only [List.mem_cons]; rintro u (rfl | hu)
          · decide
          · exact units_lt t u hu)
      (by simp only [List.mem_cons]; rintro u (rfl | hu)
          · decide
          · exact units_ne_zero t h0 u hu)
  have hd := utf16DecodeBytes_units be t hl hm
  simp only [readToTerminator, if_true, Bool.false_eq_true, if_false, List.append_nil]
  rw [List.flatMap_cons, bomBytes] at hr
  rw [bomBytes]
  cases be
  · simp only [Bool.false_eq_true, if_false, List.cons_append, List.nil_append] at hr hd ⊢
    rw [hr]
    simp [hd, Except.map]
  · simp only [if_true, List.cons_append, List.nil_append] at hr hd ⊢
    rw [hr]
    simp [hd, Except.map]

theorem encode_latin1 (ne : Bool) (t : Str) (term lossy : Bool) (hr : Representable .latin1 t) :
    encode ne .latin1 t term lossy = .ok ((t.map fun c => UInt8.ofNat c.toNat) ++ if term then [0] else []) := by
  simp [encode, latin1Encode, latin1EncodeFrom_ok lossy 0 t hr]

theorem latin1_noZero (t : Str) (hr : Representable .latin1 t) (h0 : '\x00' ∉ t) :
    (0 : UInt8) ∉ t.map fun c => UInt8.ofNat c.toNat := by
  intro hm
  obtain ⟨c, hc, hz⟩ := List.mem_map.mp hm
  have hc255 := hr c hc
  have := congrArg UInt8.toNat hz
  rw [UInt8.toNat_ofNat_of_lt' (by simp [UInt8.size]; omega)] at this
  exact toNat_ne_zero c (by rintro rfl; exact h0 hc) this

end Lofty.Text

namespace Lofty.Id3v2
open Lofty.Text

/-- The version of the tag written. -/
def WriteOpts.version (o : WriteOpts) : Version := if o.v23 then .v3 else .v4

theorem verifyEncoding_toByte (e : Encoding) {v : Version} (hv : v ≠ .v2) : verifyEncoding e.toByte v = .ok e := by
  rw [verifyEncoding, if_neg (fun h => hv h.1)]
  cases e <;> rfl

theorem WriteOpts.version_ne (o : WriteOpts) : o.version ≠ .v2 := by
  unfold WriteOpts.version; split <;> decide

theorem ofByte_toByte (e : Encoding) : Encoding.ofByte e.toByte = .ok e := by cases e <;> rfl

theorem text_term (o : WriteOpts) {e : Encoding} {t : Str} (hr : Representable e t) (h0 : '\x00' ∉ t) :
    ∃ b, o.text e t true = .ok b ∧ b ≠ [] ∧ ∀ rest, ∃ d, termText e (b ++ rest) = .ok (d, rest) ∧ d.content = t ∧
      d.bytesRead = b.length ∧ d.bom = mark o.ne e := by
  obtain ⟨b, _, h1, _⟩ := decode_encode_terminated_mark o.ne e t o.lossy [] hr h0
  obtain ⟨c, _, h2, _⟩ := decodeRaw_encode o.ne e t o.lossy hr (getLast?_of_no_nul t h0)
  refine ⟨b, h1, ?_, fun rest => ?_⟩
  · rw [h1] at h2
    simp only [Except.ok.injEq] at h2
    rw [h2]
    split <;> simp
  · obtain ⟨b', d, h1', h2, h3, h4, h5⟩ := decode_encode_terminated_mark o.ne e t o.lossy rest hr h0
    rw [h1] at h1'
    simp only [Except.ok.injEq] at h1'
    subst h1'
    exact ⟨d, h2, h3, h4, h5⟩

theorem text_rest (o : WriteOpts) {e : Encoding} {t : Str} (hr : Representable e t) (hl : t.getLast? ≠ some '\x00') :
    ∃ b, o.text e t false = .ok b ∧ ∃ d, restText e b = .ok (d, []) ∧ d.content = t := by
  obtain ⟨b, d, h1, h2, h3, _⟩ := decode_encode_unterminated o.ne e t o.lossy hr hl
  exact ⟨b, h1, d, h2, h3⟩

theorem textOrNone_eq {d : Decoded} {x : Option Str} (h : d.content = x.getD []) (hx : x ≠ some []) : textOrNone d = x := by
  unfold textOrNone
  cases x with
  | none => simp at h; simp [h]
  | some t =>
    simp only [Option.getD_some] at h
    rw [h, if_neg]
    intro hc
    exact hx (by rw [List.isEmpty_iff.mp hc])

end Lofty.Id3v2
