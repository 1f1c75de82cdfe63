import Verif.Lemmas.Id3v2Items
import Verif.Lemmas.Bytes
import Verif.Props.Picture
import Verif.Props.Timestamp
/-!
# Contents of ID3v2 frames are read back

A text that is followed by something else must not contain a NUL (`Inside`); the last text of a frame must
not end in one (`Final`).  Writing an ID3v2.3 tag changes UTF-8 and UTF-16BE to UTF-16; `o.enc` is the
encoding that is written.
-/
namespace Lofty.Id3v2
open Lofty.Text

/-- A text that can be written with a terminator. -/
def Inside (e : Encoding) (t : Str) : Prop := Representable e t ∧ '\x00' ∉ t

/-- A text that can be written up to the end of the frame. -/
def Final (e : Encoding) (t : Str) : Prop := Representable e t ∧ t.getLast? ≠ some '\x00'

theorem Inside.final {e : Encoding} {t : Str} (h : Inside e t) : Final e t := ⟨h.1, getLast?_of_no_nul t h.2⟩

/-! ## Text frames -/

/-- **Text frames** are read back. -/
theorem text_rt (o : WriteOpts) (f : TextF) (h : Final (o.enc f.enc) f.value) :
    ∃ b, f.asBytes o = .ok b ∧ TextF.parse f.id o.version b = .ok (some ⟨f.id, o.enc f.enc, f.value⟩, []) := by
  obtain ⟨b, h1, d, h2, h3⟩ := text_rest o h.1 h.2
  refine ⟨(o.enc f.enc).toByte :: b, ?_, ?_⟩
  · rw [TextF.asBytes, h1]; rfl
  · rw [TextF.parse, verifyEncoding_toByte _ o.version_ne]
    simp only [ok_bind, h2, h3]

theorem userTextUtf16_rt (o : WriteOpts) (t : Str) (h : Final .utf16 t) {b : Bytes} (hb : o.text .utf16 t false = .ok b) (bom : UInt8 × UInt8) :
    userTextUtf16 bom b = .ok t := by
  have hd := utf16DecodeBytes_bom o.ne t h.2 h.1
  have e : b = u16Bytes o.ne 0xFEFF ++ (t.flatMap utf16Units).flatMap (u16Bytes o.ne) := by
    simpa [WriteOpts.text, encode, utf16Encode] using hb.symm
  rw [← e] at hd
  rw [bomBytes] at e
  unfold userTextUtf16
  cases hne : o.ne
  · rw [hne] at e hd
    simp only [Bool.false_eq_true, if_false, List.cons_append, List.nil_append] at e
    simp only [e, List.isEmpty_cons, userTextBom]
    rw [e] at hd
    simp [hd]
  · rw [hne] at e hd
    simp only [if_true, List.cons_append, List.nil_append] at e
    simp only [e, List.isEmpty_cons, userTextBom]
    rw [e] at hd
    simp [hd]

/-- **User text frames** (`TXXX`) are read back. -/
theorem userText_rt (o : WriteOpts) (f : UserF) (hd : Inside (o.enc f.enc) f.desc) (hc : Final (o.enc f.enc) f.content) :
    ∃ b, f.asBytes o = .ok b ∧ UserF.parseText o.version b = .ok (some ⟨o.enc f.enc, f.desc, f.content⟩, []) := by
  obtain ⟨b1, h1, _, h2⟩ := text_term o hd.1 hd.2
  obtain ⟨b2, h3, d2, h4, h5⟩ := text_rest o hc.1 hc.2
  obtain ⟨d1, g1, g2, _, g3⟩ := h2 b2
  refine ⟨(o.enc f.enc).toByte :: b1 ++ b2, ?_, ?_⟩
  · rw [UserF.asBytes, h1]; simp only [ok_bind, h3]
  · rw [List.cons_append, UserF.parseText, verifyEncoding_toByte _ o.version_ne]
    simp only [ok_bind, g1]
    have : userTextContent (o.enc f.enc) d1.bom b2 = .ok f.content := by
      unfold userTextContent
      split
      · rename_i he
        rw [he] at hc h3
        exact userTextUtf16_rt o _ hc h3 _
      · rw [h4]; simp [Except.map, h5]
    rw [this]
    simp only [ok_bind, g2]

/-! ## URLs -/

/-- **URL frames** (`W***`) are read back if the URL is not empty. -/
theorem url_rt (o : WriteOpts) (f : UrlF) (h : Inside .latin1 f.url) (hne : f.url ≠ []) :
    ∃ b, f.asBytes o = .ok b ∧ UrlF.parse f.id b = .ok (some f, []) := by
  refine ⟨f.url.map fun c => UInt8.ofNat c.toNat, ?_, ?_⟩
  · rw [UrlF.asBytes, WriteOpts.text, encode_latin1 _ _ _ _ h.1]; simp
  · have h0 := latin1_noZero _ h.1 h.2
    have : termText .latin1 (f.url.map fun c => UInt8.ofNat c.toNat) = .ok (⟨f.url, f.url.length, (0, 0)⟩, []) := by
      rw [termText, decodeText, if_pos rfl]
      simp only [readToTerminator, readTerm1_end _ h0]
      rw [if_neg (by simp [hne])]
      simp only [decodeRaw, latin1Decode, latin1_map_map _ h.1, trimEndNulls_eq _ h.final.2, Except.map, List.length_map, Nat.add_zero]
    rw [UrlF.parse, this]
    simp only [ok_bind]
    rw [if_neg (by simpa using hne)]

/-- An empty URL is written as an empty frame, which is not read back. -/
theorem url_empty (o : WriteOpts) (id : FrameId) :
    (UrlF.mk id []).asBytes o = .ok [] ∧ UrlF.parse id [] = .ok (none, []) := ⟨rfl, rfl⟩

/-- A URL with a NUL inside is cut there when read, and the rest stays unread. -/
theorem url_nul_cut : ∀ lossy ne, (UrlF.mk (.valid (str "WCOM")) ['a', '\x00', 'b']).asBytes ⟨false, lossy, ne⟩ = .ok [97, 0, 98]
    ∧ UrlF.parse (.valid (str "WCOM")) [97, 0, 98] = .ok (some ⟨.valid (str "WCOM"), ['a']⟩, [98]) := by decide

/-- **User URL frames** (`WXXX`) are read back when the content is written in Latin-1, or is ASCII written in UTF-8:
the writer encodes the URL like the description, but the reader takes it as Latin-1.
Missing: the other encodings (`userUrl_utf16_wrong`). -/
theorem userUrl_rt_partial (o : WriteOpts) (f : UserF) (hd : Inside (o.enc f.enc) f.desc) (hc : Final .latin1 f.content)
    (he : o.enc f.enc = .latin1 ∨ (o.enc f.enc = .utf8 ∧ ∀ c ∈ f.content, c.toNat ≤ 127)) :
    ∃ b, f.asBytes o = .ok b ∧ UserF.parseUrl o.version b = .ok (some ⟨o.enc f.enc, f.desc, f.content⟩, []) := by
  obtain ⟨b1, h1, _, h2⟩ := text_term o hd.1 hd.2
  obtain ⟨b2, h3, d2, h4, h5⟩ := text_rest o hc.1 hc.2
  obtain ⟨d1, g1, g2, _, g3⟩ := h2 b2
  have h3' : o.text (o.enc f.enc) f.content false = .ok b2 := by
    rcases he with he | ⟨he, ha⟩
    · rw [he]; exact h3
    · rw [he]
      rw [WriteOpts.text, encode_latin1 _ _ _ _ hc.1] at h3
      rw [WriteOpts.text, encode, utf8_ascii _ ha]
      exact h3
  refine ⟨(o.enc f.enc).toByte :: b1 ++ b2, ?_, ?_⟩
  · rw [UserF.asBytes, h1]; simp only [ok_bind, h3']
  · rw [List.cons_append, UserF.parseUrl, verifyEncoding_toByte _ o.version_ne]
    simp only [ok_bind, g1, h4, g2, h5]

/-- A user URL frame in UTF-16 is not read back. -/
theorem userUrl_utf16_wrong :
    ((UserF.mk .utf16 (str "d") (str "u")).asBytes ⟨false, false, false⟩).bind (UserF.parseUrl .v4)
      = .ok (some ⟨.utf16, str "d", str "ÿþu"⟩, []) := by decide

/-! ## Comments and lyrics -/

/-- An ASCII letter, `A` to `Z` or `a` to `z`. -/
def Letter (b : UInt8) : Prop := (65 ≤ b.toNat ∧ b.toNat < 91) ∨ (97 ≤ b.toNat ∧ b.toNat < 123)

/-- A language: three ASCII letters. -/
def Alphabetic (l : UInt8 × UInt8 × UInt8) : Prop := Letter l.1 ∧ Letter l.2.1 ∧ Letter l.2.2

theorem isAlphaB_iff (b : UInt8) : isAlphaB b = true ↔ Letter b := by
  simp only [isAlphaB, Letter, Bool.or_eq_true, Bool.and_eq_true, decide_eq_true_eq]
  omega

theorem alphabetic_iff (l : UInt8 × UInt8 × UInt8) :
    (isAlphaB l.1 && isAlphaB l.2.1 && isAlphaB l.2.2) = true ↔ Alphabetic l := by
  rw [Bool.and_eq_true, Bool.and_eq_true, isAlphaB_iff, isAlphaB_iff, isAlphaB_iff, Alphabetic, and_assoc]

theorem langContent_rt (o : WriteOpts) {e : Encoding} {t : Str} {b : Bytes} (hc : Final e t) (h16 : e = .utf16 → '\x00' ∉ t)
    (hb : o.text e t false = .ok b) : langContent e (mark o.ne e) b = .ok (t, []) := by
  unfold langContent
  by_cases he : e = .utf16
  · subst he
    have eb : b = utf16Encode t o.ne true false := by simpa [WriteOpts.text, encode] using hb.symm
    rw [eb]
    cases hne : o.ne
    · rw [if_pos ⟨rfl, by simp [mark]⟩, maybeBom_end false false t (h16 rfl) hc.1]; rfl
    · rw [if_neg (by simp [mark]), if_pos ⟨rfl, by simp [mark]⟩, maybeBom_end true true t (h16 rfl) hc.1]; rfl
  · rw [if_neg (fun h => he h.1), if_neg (fun h => he h.1)]
    obtain ⟨b', h1, d, h2, h3⟩ := text_rest o hc.1 hc.2
    rw [hb] at h1
    simp only [Except.ok.injEq] at h1
    subst h1
    rw [h2]; simp [Except.map, h3]

/-- **Comments and unsynchronised lyrics** (`COMM`, `USLT`) are read back. -/
theorem lang_rt (o : WriteOpts) (f : LangF) (hl : Alphabetic f.lang) (hd : Inside (o.enc f.enc) f.desc)
    (hc : Final (o.enc f.enc) f.content) (h16 : o.enc f.enc = .utf16 → '\x00' ∉ f.content) :
    ∃ b, f.asBytes o = .ok b ∧ LangF.parse o.version b = .ok (some ⟨o.enc f.enc, f.lang, f.desc, f.content⟩, []) := by
  obtain ⟨b1, h1, _, h2⟩ := text_term o hd.1 hd.2
  obtain ⟨b2, h3, _⟩ := text_rest o hc.1 hc.2
  obtain ⟨d1, g1, g2, _, g3⟩ := h2 b2
  refine ⟨(o.enc f.enc).toByte :: f.lang.1 :: f.lang.2.1 :: f.lang.2.2 :: b1 ++ b2, ?_, ?_⟩
  · rw [LangF.asBytes, if_neg (by rw [(alphabetic_iff _).mpr hl]; simp), h1]; simp only [ok_bind, h3]
  · simp only [List.cons_append]
    rw [LangF.parse, verifyEncoding_toByte _ o.version_ne]
    simp only [ok_bind, g1, g3, langContent_rt o hc h16 h3, g2]

/-- A language that is not alphabetic is refused. -/
theorem lang_refused (o : WriteOpts) (f : LangF) (hl : ¬ Alphabetic f.lang) : f.asBytes o = .error .encode := by
  rw [LangF.asBytes, if_pos (by rw [← Bool.not_eq_true, alphabetic_iff]; exact hl)]

/-- A NUL inside a UTF-16 comment cuts it when read, and the rest stays unread; in the other encodings it is kept. -/
theorem comment_utf16_nul_cut :
    ((LangF.mk .utf16 (101, 110, 103) [] ['a', '\x00', 'b']).asBytes ⟨false, false, false⟩).bind (LangF.parse .v4)
      = .ok (some ⟨.utf16, (101, 110, 103), [], ['a']⟩, [98, 0]) := by decide

/-! ## Key-value lists -/

theorem kvLoop_rt (o : WriteOpts) (e : Encoding) (l : List (Str × Str)) (h : ∀ p ∈ l, Inside e p.1 ∧ Inside e p.2) :
    ∃ b, kvBytes o e l = .ok b ∧ ∀ n, b.length < n → kvLoop e (mark o.ne e) n b = .ok (l, []) := by
  induction l with
  | nil =>
    refine ⟨[], rfl, fun n hn => ?_⟩
    cases n with
    | zero => simp at hn
    | succ n =>
      have : ∀ bom, decodeText e true bom [] = .ok (⟨[], 0, (0, 0)⟩, []) := by intro bom; cases e <;> rfl
      rw [kvLoop, this]
      simp only [ok_bind, this]
      rw [if_pos (by simp)]
  | cons p l ih =>
    obtain ⟨k, v⟩ := p
    have hk := (h (k, v) (by simp)).1
    have hv := (h (k, v) (by simp)).2
    obtain ⟨b1, h1, n1, h2⟩ := text_term o hk.1 hk.2
    obtain ⟨b2, h3, n2, h4⟩ := text_term o hv.1 hv.2
    obtain ⟨b3, h5, h6⟩ := ih (fun p hp => h p (by simp [hp]))
    refine ⟨b1 ++ b2 ++ b3, ?_, fun n hn => ?_⟩
    · rw [kvBytes, h1]; simp only [ok_bind, h3, h5]
    · have l1 : 0 < b1.length := List.length_pos_iff.mpr n1
      have l2 : 0 < b2.length := List.length_pos_iff.mpr n2
      simp only [List.length_append] at hn
      cases n with
      | zero => omega
      | succ n =>
        obtain ⟨d1, g1, g2, g3, g4⟩ := h2 (b2 ++ b3)
        obtain ⟨d2, k1, k2, k3, k4⟩ := h4 b3
        have a1 := decodeText_again g1
        have a2 := decodeText_again k1
        rw [g4] at a1; rw [k4] at a2
        rw [kvLoop, List.append_assoc, a1]
        simp only [ok_bind, a2]
        rw [if_neg (by omega), h6 _ (by omega)]
        simp only [ok_bind, g2, k2]

theorem kvPairs_rt (o : WriteOpts) (e : Encoding) (l : List (Str × Str)) (h : ∀ p ∈ l, Inside e p.1 ∧ Inside e p.2) (hne : l ≠ []) :
    ∃ b, kvBytes o e l = .ok b ∧ kvPairs e b = .ok (some l, []) := by
  cases l with
  | nil => exact absurd rfl hne
  | cons p l =>
    obtain ⟨k, v⟩ := p
    have hk := (h (k, v) (by simp)).1
    have hv := (h (k, v) (by simp)).2
    obtain ⟨b1, h1, n1, h2⟩ := text_term o hk.1 hk.2
    obtain ⟨b2, h3, n2, h4⟩ := text_term o hv.1 hv.2
    obtain ⟨b3, h5, h6⟩ := kvLoop_rt o e l (fun p hp => h p (by simp [hp]))
    have l1 : 0 < b1.length := List.length_pos_iff.mpr n1
    obtain ⟨d1, g1, g2, g3, g4⟩ := h2 (b2 ++ b3)
    obtain ⟨d2, k1, k2, k3, k4⟩ := h4 b3
    have a2 := decodeText_again k1
    rw [k4] at a2
    have hb : (if e = .utf16 then d1.bom else (0, 0)) = mark o.ne e := by
      rw [g4]; unfold mark; split <;> rfl
    refine ⟨b1 ++ b2 ++ b3, ?_, ?_⟩
    · rw [kvBytes, h1]; simp only [ok_bind, h3, h5]
    · rw [kvPairs, List.append_assoc, g1]
      simp only [ok_bind]
      rw [if_neg (by omega), hb, a2]
      simp only [ok_bind]
      rw [h6 _ (by omega)]
      simp only [ok_bind, g2, k2]

/-- **Key-value frames** (`TIPL`, `TMCL`) are read back if there is at least one pair. -/
theorem keyValue_rt (o : WriteOpts) (f : KvF) (h : ∀ p ∈ f.pairs, Inside (o.enc f.enc) p.1 ∧ Inside (o.enc f.enc) p.2) (hne : f.pairs ≠ []) :
    ∃ b, f.asBytes o = .ok b ∧ KvF.parse f.id o.version b = .ok (some ⟨f.id, o.enc f.enc, f.pairs⟩, []) := by
  obtain ⟨b, h1, h2⟩ := kvPairs_rt o _ _ h hne
  refine ⟨(o.enc f.enc).toByte :: b, ?_, ?_⟩
  · rw [KvF.asBytes, h1]; rfl
  · rw [KvF.parse, verifyEncoding_toByte _ o.version_ne]
    simp only [ok_bind, h2, Option.map]

/-! ## Pictures -/

/-- **Attached pictures** (`APIC`) are read back: the MIME type must be ASCII and not another spelling of a
known type, the description not empty if present, an undefined picture type above 20, and the frame must not
exceed 4 GiB. -/
theorem picture_rt (o : WriteOpts) (f : PicF)
    (hd : Inside (o.enc f.enc) (f.pic.desc.getD [])) (hdn : f.pic.desc ≠ some [])
    (hm : ∀ m, f.pic.mime = some m → (∀ c ∈ m.asStr, c.toNat ≤ 127) ∧ '\x00' ∉ m.asStr ∧ m.asStr ≠ [] ∧ Picture.Mime.fromStr m.asStr = m)
    (ht : ∀ b, f.pic.ty = .undefined b → 20 < b.toNat) {b : Bytes} (hb : f.asBytes o = .ok b) :
    PicF.parse o.version b = .ok (⟨o.enc f.enc, f.pic⟩, []) := by
  obtain ⟨enc, ty, mime, desc, data⟩ := f
  simp only at hd hdn hm ht ⊢
  obtain ⟨b1, h1, _, h2⟩ := text_term o hd.1 hd.2
  obtain ⟨d1, g1, g2, _⟩ := h2 data
  rw [PicF.asBytes] at hb
  simp only [h1, ok_bind] at hb
  split at hb
  · simp at hb
  · simp only [Except.ok.injEq] at hb
    subst hb
    have hmime : ∀ rest, picMime o.version (utf8 ((mime.map Picture.Mime.asStr).getD []) ++ 0 :: rest) = .ok (mime, rest) := by
      intro rest
      rw [picMime, if_neg o.version_ne]
      cases mime with
      | none => rfl
      | some m =>
        obtain ⟨m1, m2, m3, m4⟩ := hm m rfl
        have hr : Representable .latin1 m.asStr := fun c hc => by have := m1 c hc; omega
        obtain ⟨c1, e1, _, e2⟩ := text_term o hr m2
        rw [WriteOpts.text, encode_latin1 _ _ _ _ hr] at e1
        simp only [if_true, Except.ok.injEq] at e1
        obtain ⟨d, e3, e4, _⟩ := e2 rest
        rw [← e1, ← utf8_ascii _ m1, List.append_assoc] at e3
        simp only [Option.map_some, Option.getD_some]
        rw [show utf8 m.asStr ++ 0 :: rest = utf8 m.asStr ++ ([0] ++ rest) from rfl, e3]
        simp only [ok_bind, textOrNone_eq (x := some m.asStr) e4 (by simpa using m3), Option.map_some, m4]
    rw [PicF.parse, readU8_cons]
    simp only [ok_bind, ofByte_toByte, List.append_assoc, List.cons_append, List.nil_append]
    rw [hmime]
    simp only [ok_bind, readU8_cons, g1, textOrNone_eq g2 hdn, Picture.fromU8_asU8 ty ht]

/-- **Pictures of ID3v2.2** (`PIC`): the format is `PNG` or `JPG`, anything else is an error. -/
theorem picture_v2 (e ty : UInt8) (enc : Encoding) (he : Encoding.ofByte e = .ok enc) (x y z : UInt8) (r : Bytes) :
    (∀ f r', PicF.parse .v2 (e :: x :: y :: z :: ty :: r) = .ok (f, r') →
      f.enc = enc ∧ f.pic.ty = Picture.PicType.fromU8 ty ∧
        (([x, y, z] = [80, 78, 71] ∧ f.pic.mime = some .png) ∨ ([x, y, z] = [74, 80, 71] ∧ f.pic.mime = some .jpeg)))
    ∧ ([x, y, z] ≠ [80, 78, 71] → [x, y, z] ≠ [74, 80, 71] → PicF.parse .v2 (e :: x :: y :: z :: ty :: r) = .error .parse) := by
  have hn : ∀ t : Bytes, readN 3 (x :: y :: z :: t) = .ok ([x, y, z], t) := fun t => readN_append (n := 3) [x, y, z] t rfl
  have hp : ascii "PNG" = [80, 78, 71] := by decide
  have hj : ascii "JPG" = [74, 80, 71] := by decide
  constructor
  · intro f r' h
    rw [PicF.parse, readU8_cons] at h
    simp only [ok_bind, he, picMime, if_true, hn, hp, hj] at h
    split at h
    · rename_i h1
      simp only [ok_bind, readU8_cons] at h
      obtain ⟨d, _, h3⟩ := bind_ok h
      simp only [Except.ok.injEq, Prod.mk.injEq] at h3
      rw [← h3.1]
      exact ⟨rfl, rfl, .inl ⟨h1, rfl⟩⟩
    · split at h
      · rename_i h1
        simp only [ok_bind, readU8_cons] at h
        obtain ⟨d, _, h3⟩ := bind_ok h
        simp only [Except.ok.injEq, Prod.mk.injEq] at h3
        rw [← h3.1]
        exact ⟨rfl, rfl, .inr ⟨h1, rfl⟩⟩
      · cases h
  · intro h1 h2
    rw [PicF.parse, readU8_cons]
    simp only [ok_bind, he, picMime, if_true, hn, hp, hj]
    rw [if_neg h1, if_neg h2]; rfl

/-- A JPEG of ID3v2.2. -/
example : PicF.parse .v2 [0, 74, 80, 71, 3, 0, 1, 2] = .ok (⟨.latin1, ⟨.coverFront, some .jpeg, none, [1, 2]⟩⟩, []) := by decide

/-- A picture is written unless the frame would exceed 4 GiB (or the description cannot be encoded). -/
theorem picture_written (o : WriteOpts) (f : PicF) {d : Bytes} (hd : o.text (o.enc f.enc) (f.pic.desc.getD []) true = .ok d) :
    (∃ b, f.asBytes o = .ok b) ↔
      (utf8 ((f.pic.mime.map Picture.Mime.asStr).getD [])).length + d.length + f.pic.data.length + 3 < 2 ^ 32 := by
  rw [PicF.asBytes]
  simp only [hd, ok_bind]
  generalize utf8 ((f.pic.mime.map Picture.Mime.asStr).getD []) = m
  split
  · rename_i h
    simp only [List.length_cons, List.length_append] at h
    simp only [reduceCtorEq, exists_false, false_iff]; omega
  · rename_i h
    simp only [List.length_cons, List.length_append] at h
    exact ⟨fun _ => by omega, fun _ => ⟨_, rfl⟩⟩

/-! ## Popularimeter -/

theorem replicate_drop_zero (b : Bytes) (i : Nat) (hi : i ≤ b.length) (h : ∀ x ∈ b.take i, x = 0) :
    List.replicate i 0 ++ b.drop i = b := by
  have : b.take i = List.replicate i 0 := by
    apply List.eq_replicate_iff.mpr
    exact ⟨by simp [hi], h⟩
  rw [← this, List.take_append_drop]

theorem counter_rt {n : Nat} (h : n < 2 ^ 64) :
    (counterBytes n).length ≤ 8 ∧ fromBE (List.replicate (8 - (counterBytes n).length) 0 ++ counterBytes n) = n := by
  unfold counterBytes
  split
  · rename_i h4
    refine ⟨by simp, ?_⟩
    have e : beBytes 8 n = List.replicate 4 0 ++ beBytes 4 n := by
      have h8 := replicate_drop_zero (beBytes 8 n) 4 (by simp) (by
        intro x hx
        simp only [beBytes, leBytes, List.reverse_cons, List.reverse_nil, List.nil_append, List.cons_append, List.take_succ_cons, List.take_zero] at hx
        simp only [List.mem_cons, List.not_mem_nil, or_false] at hx
        have z : ∀ k, k = 0 → UInt8.ofNat k = 0 := by rintro k rfl; rfl
        rcases hx with rfl | rfl | rfl | rfl <;> exact z _ (by omega))
      rw [← h8]; rfl
    have : (8 - (beBytes 4 n).length) = 4 := by simp
    rw [this, ← e]
    exact fromBE_beBytes_of_lt (by omega)
  · simp only
    have key : ∀ i, i ≤ 8 → (∀ x ∈ (beBytes 8 n).take i, x = 0) →
        ((beBytes 8 n).drop i).length ≤ 8 ∧ fromBE (List.replicate (8 - ((beBytes 8 n).drop i).length) 0 ++ (beBytes 8 n).drop i) = n := by
      intro i hi hz
      refine ⟨by simp, ?_⟩
      have : 8 - ((beBytes 8 n).drop i).length = i := by simp; omega
      rw [this, replicate_drop_zero _ _ (by simpa using hi) hz]
      exact fromBE_beBytes_of_lt (by omega)
    cases hf : (beBytes 8 n).findIdx? (fun x => decide (x ≠ 0)) with
    | none =>
      apply key 4 (by omega)
      intro x hx
      have := List.findIdx?_eq_none_iff.mp hf x (List.mem_of_mem_take hx)
      simpa using this
    | some i =>
      rw [List.findIdx?_eq_some_iff_getElem] at hf
      obtain ⟨hi, _, hz⟩ := hf
      simp only [Option.getD_some]
      apply key i (by simp at hi; omega)
      intro x hx
      obtain ⟨j, hj, rfl⟩ := List.mem_iff_getElem.mp hx
      simp only [List.length_take] at hj
      have := hz j (by omega)
      simpa using this

/-- **Popularimeters** (`POPM`) are read back, with every counter up to `u64::MAX`. -/
theorem popularimeter_rt (o : WriteOpts) (f : PopF) (he : Inside .latin1 f.email) (hc : f.counter < 2 ^ 64) :
    ∃ b, f.asBytes o = .ok b ∧ PopF.parse b = .ok (f, []) := by
  obtain ⟨b1, h1, _, h2⟩ := text_term o he.1 he.2
  obtain ⟨d, g1, g2, _⟩ := h2 (f.rating :: counterBytes f.counter)
  refine ⟨b1 ++ f.rating :: counterBytes f.counter, ?_, ?_⟩
  · rw [PopF.asBytes, h1]; rfl
  · obtain ⟨k1, k2⟩ := counter_rt hc
    rw [PopF.parse, g1]
    simp only [ok_bind, readU8_cons]
    rw [if_neg (by omega), k2, g2]

/-- A counter of more than eight bytes is capped. -/
theorem popularimeter_capped (e : Str) (rating : UInt8) (c : Bytes) (he : Inside .latin1 e) (hc : 8 < c.length) :
    ∃ b, encode false .latin1 e true false = .ok b ∧ PopF.parse (b ++ rating :: c) = .ok (⟨e, rating, 2 ^ 64 - 1⟩, []) := by
  obtain ⟨b1, h1, _, h2⟩ := text_term ⟨false, false, false⟩ he.1 he.2
  obtain ⟨d, g1, g2, _⟩ := h2 (rating :: c)
  refine ⟨b1, h1, ?_⟩
  rw [PopF.parse, g1]
  simp only [ok_bind, readU8_cons]
  rw [if_pos hc, g2]

/-! ## Owner and data -/

/-- **Private frames** (`PRIV`) are read back. -/
theorem private_rt (o : WriteOpts) (f : OwnedF) (h : Inside .latin1 f.owner) :
    ∃ b, f.asBytes o = .ok b ∧ OwnedF.parsePriv b = .ok (some f, []) := by
  obtain ⟨b1, h1, _, h2⟩ := text_term o h.1 h.2
  obtain ⟨d, g1, g2, _⟩ := h2 f.data
  refine ⟨b1 ++ f.data, ?_, ?_⟩
  · rw [OwnedF.asBytes, h1]; rfl
  · rw [OwnedF.parsePriv, g1]
    simp only [g2]

/-- **Unique file identifiers** (`UFID`) are read back; an empty owner only in the mode
`BestAttempt`. -/
theorem ufid_rt (o : WriteOpts) (mode : Mode) (f : OwnedF) (h : Inside .latin1 f.owner) :
    ∃ b, f.asBytes o = .ok b ∧ OwnedF.parseUfid mode b
      = if f.owner = [] ∧ mode ≠ .bestAttempt then .error .parse else .ok (some f, []) := by
  obtain ⟨b1, h1, _, h2⟩ := text_term o h.1 h.2
  obtain ⟨d, g1, g2, _⟩ := h2 f.data
  refine ⟨b1 ++ f.data, ?_, ?_⟩
  · rw [OwnedF.asBytes, h1]; rfl
  · rw [OwnedF.parseUfid, g1]
    simp only [ok_bind, g2, List.isEmpty_iff]

/-! ## Timestamps -/

theorem mem_pad {w n : Nat} {c : Char} (h : c ∈ Timestamp.pad w n) : 45 ≤ c.toNat ∧ c.toNat ≤ 127 := by
  rcases List.mem_append.mp h with h | h
  · rw [List.eq_of_mem_replicate h]; decide
  · have := toDec_digits n c h
    omega

theorem mem_fmtField {sep : Char} {x : Option Nat} {r : Str} {c : Char} (hs : 45 ≤ sep.toNat ∧ sep.toNat ≤ 127)
    (hr : ∀ c ∈ r, 45 ≤ c.toNat ∧ c.toNat ≤ 127) (h : c ∈ Timestamp.fmtField sep x r) : 45 ≤ c.toNat ∧ c.toNat ≤ 127 := by
  cases x with
  | none => cases h
  | some n =>
    rcases List.mem_cons.mp h with h | h
    · rw [h]; exact hs
    · rcases List.mem_append.mp h with h | h
      · exact mem_pad h
      · exact hr c h

theorem mem_fmt {t : Timestamp} {c : Char} (h : c ∈ t.fmt) : 45 ≤ c.toNat ∧ c.toNat ≤ 127 := by
  rcases List.mem_append.mp h with h | h
  · exact mem_pad h
  · have d1 : 45 ≤ '-'.toNat ∧ '-'.toNat ≤ 127 := by decide
    have d2 : 45 ≤ 'T'.toNat ∧ 'T'.toNat ≤ 127 := by decide
    have d3 : 45 ≤ ':'.toNat ∧ ':'.toNat ≤ 127 := by decide
    exact mem_fmtField d1 (fun _ => mem_fmtField d1 (fun _ => mem_fmtField d2 (fun _ => mem_fmtField d3
      (fun _ => mem_fmtField d3 (by simp))))) h

theorem representable_ascii {e : Encoding} {t : Str} (h : ∀ c ∈ t, c.toNat ≤ 127) : Representable e t := by
  cases e with
  | utf8 => trivial
  | latin1 => intro c hc; have := h c hc; omega
  | utf16 => intro c hc; have := h c hc; omega
  | utf16be => intro c hc; have := h c hc; omega

/-- **Timestamp frames** (`TDRC` and others) with a timestamp in range are read back in every mode. -/
theorem timestamp_rt (o : WriteOpts) (mode : Mode) (f : TimeF) (h : Timestamp.InRange f.time) :
    ∃ b, f.asBytes o = .ok b ∧ TimeF.parse f.id mode b = .ok (some ⟨f.id, o.enc f.enc, f.time⟩, []) := by
  have hr : Representable (o.enc f.enc) f.time.fmt := representable_ascii fun c hc => (mem_fmt hc).2
  have hl : f.time.fmt.getLast? ≠ some '\x00' := by
    apply getLast?_of_no_nul
    intro hm
    exact absurd (mem_fmt hm).1 (by decide)
  obtain ⟨b, h1, d, h2, h3⟩ := text_rest o hr hl
  refine ⟨(o.enc f.enc).toByte :: b, ?_, ?_⟩
  · rw [TimeF.asBytes, if_neg (by rw [(Timestamp.verify_iff _).mpr h]; simp), h1]; rfl
  · rw [TimeF.parse, ofByte_toByte]
    simp only [ok_bind, h2, h3]
    rw [timeContent, Timestamp.parse_fmt h]
    rfl

/-- A timestamp out of range is refused. -/
theorem timestamp_refused (o : WriteOpts) (f : TimeF) (h : ¬ Timestamp.InRange f.time) : f.asBytes o = .error .encode := by
  rw [TimeF.asBytes, if_pos]
  rw [← Bool.not_eq_true]
  exact fun hv => h ((Timestamp.verify_iff _).mp hv)

/-- A timestamp frame whose text is no timestamp is an error of the whole frame, except in the mode `Relaxed`, where the
frame is skipped. -/
theorem timestamp_invalid (o : WriteOpts) (id : FrameId) (mode : Mode) (e : Encoding) (t : Str) (err : Err)
    (ht : Final e t) (he : Timestamp.parse mode (utf8 t) = .error err) :
    ∃ b, o.text e t false = .ok b ∧
      TimeF.parse id mode (e.toByte :: b) = if mode = .relaxed then .ok (none, []) else .error err := by
  obtain ⟨b, h1, d, h2, h3⟩ := text_rest o ht.1 ht.2
  refine ⟨b, h1, ?_⟩
  rw [TimeF.parse, ofByte_toByte]
  simp only [h2, ok_bind, h3, timeContent, he]
  split <;> rfl

/-- Such a text. -/
example : ∀ mode, ∃ e, Timestamp.parse mode (utf8 (str "2019-xx")) = .error e := by
  intro mode
  cases mode <;> first | exact ⟨.parse, by decide⟩ | exact ⟨.badText, by decide⟩

/-! ## Ownership -/

/-- **Ownership frames** (`OWNE`) with a date of eight bytes are read back. -/
theorem ownership_rt (o : WriteOpts) (f : OwneF) (hp : Inside .latin1 f.price) (hd : (utf8 f.date).length = 8)
    (hdl : f.date.getLast? ≠ some '\x00') (hs : Final (o.enc f.enc) f.seller) :
    ∃ b, f.asBytes o = .ok b ∧ OwneF.parse b = .ok (some ⟨o.enc f.enc, f.price, f.date, f.seller⟩, []) := by
  obtain ⟨b1, h1, _, h2⟩ := text_term o hp.1 hp.2
  obtain ⟨b2, h3, d2, h4, h5⟩ := text_rest o hs.1 hs.2
  obtain ⟨d1, g1, g2, _⟩ := h2 (utf8 f.date ++ b2)
  refine ⟨(o.enc f.enc).toByte :: b1 ++ (utf8 f.date).take 8 ++ b2, ?_, ?_⟩
  · rw [OwneF.asBytes, h1]
    simp only [ok_bind]
    rw [if_neg (by omega), h3]; rfl
  · rw [List.take_of_length_le (by omega)]
    simp only [List.cons_append, List.append_assoc]
    rw [OwneF.parse, ofByte_toByte]
    simp only [ok_bind]
    rw [g1]
    simp only [ok_bind]
    rw [readN_append _ _ hd]
    have : Text.utf8Decode (utf8 f.date) = .ok f.date := by
      simp [Text.utf8Decode, fromUtf8_utf8, trimEndNulls_eq _ hdl]
    simp only [ok_bind, this, h4, g2, h5]

/-! ## Event timing codes -/

theorem le_trans' (a b c : Event) (h1 : decide (a.time ≤ b.time) = true) (h2 : decide (b.time ≤ c.time) = true) :
    decide (a.time ≤ c.time) = true := by
  simp only [decide_eq_true_eq] at *; omega

theorem le_total' (a b : Event) : (decide (a.time ≤ b.time) || decide (b.time ≤ a.time)) = true := by
  simp only [Bool.or_eq_true, decide_eq_true_eq]; omega

/-- What sorting does: a permutation in non-decreasing order of time in which events of equal time keep
their order. -/
structure StableSorted (l s : List Event) : Prop where
  perm : s.Perm l
  sorted : s.Pairwise fun a b => a.time ≤ b.time
  stable : ∀ t, s.filter (fun e => e.time == t) = l.filter (fun e => e.time == t)

theorem sortEvents_stable (l : List Event) : StableSorted l (sortEvents l) := by
  have hp : (sortEvents l).Perm l := List.mergeSort_perm l _
  have hs : (sortEvents l).Pairwise fun a b => a.time ≤ b.time := by
    have := List.pairwise_mergeSort le_trans' le_total' l
    exact this.imp fun h => by simpa using h
  refine ⟨hp, hs, fun t => ?_⟩
  have hy : (l.filter (fun e => e.time == t)).Pairwise fun a b => decide (a.time ≤ b.time) = true := by
    rw [List.pairwise_iff_forall_sublist]
    intro a b hab
    have ha := (List.mem_filter.mp (hab.subset (by simp : a ∈ [a, b]))).2
    have hb := (List.mem_filter.mp (hab.subset (by simp : b ∈ [a, b]))).2
    simp only [beq_iff_eq] at ha hb
    simp only [decide_eq_true_eq]; omega
  have hsub := (List.sublist_mergeSort le_trans' le_total' hy List.filter_sublist).filter (fun e => e.time == t)
  rw [List.filter_filter] at hsub
  simp only [Bool.and_self] at hsub
  have hlen := (hp.filter (fun e => e.time == t)).length_eq
  exact (hsub.eq_of_length hlen.symm).symm

/-- **Event timing codes are written in order of time**, events of equal time in their original order. -/
theorem etco_written (f : EtcoF) : ∃ s, StableSorted f.events s ∧
    f.asBytes = f.format :: s.flatMap fun e => e.ty :: beBytes 4 e.time :=
  ⟨_, sortEvents_stable _, rfl⟩

theorem etcoEvents_rt (l : List Event) (h : ∀ e ∈ l, eventType e.ty = e.ty ∧ e.time < 2 ^ 32) :
    etcoEvents (l.flatMap fun e => e.ty :: beBytes 4 e.time) = .ok l := by
  induction l with
  | nil => rfl
  | cons e l ih =>
    have hb := fromBE_beBytes_of_lt (k := 4) (n := e.time) (h e (by simp)).2
    simp only [List.flatMap_cons]
    obtain ⟨a, b, c, d, he⟩ : ∃ a b c d, beBytes 4 e.time = [a, b, c, d] := ⟨_, _, _, _, rfl⟩
    rw [he] at hb ⊢
    simp only [List.cons_append, List.nil_append]
    rw [etcoEvents, ih (fun e he => h e (by simp [he]))]
    simp only [ok_bind, hb, (h e (by simp)).1]

/-- The event types ID3v2.4 defines: 0x00 to 0x16, 0xE0 to 0xEF, 0xFD and 0xFE; 0xFF stands for
"reserved". -/
def KnownEvent (b : UInt8) : Prop := b.toNat < 0x17 ∨ (0xE0 ≤ b.toNat ∧ b.toNat < 0xF0) ∨ 0xFD ≤ b.toNat

theorem eventType_iff (b : UInt8) : eventType b = b ↔ KnownEvent b := by
  have hb := b.toNat_lt
  have h1 : b = 0xFD ↔ b.toNat = 0xFD := ⟨fun h => by rw [h]; rfl, fun h => UInt8.toNat_inj.mp h⟩
  have h2 : b = 0xFE ↔ b.toNat = 0xFE := ⟨fun h => by rw [h]; rfl, fun h => UInt8.toNat_inj.mp h⟩
  have h3 : (0xFF : UInt8) = b ↔ b.toNat = 0xFF := ⟨fun h => by rw [← h]; rfl, fun h => (UInt8.toNat_inj.mp h).symm⟩
  unfold eventType KnownEvent
  split
  · rename_i h
    simp only [eventDefined, Bool.or_eq_true, Bool.and_eq_true, decide_eq_true_eq, beq_iff_eq, h1, h2] at h
    refine ⟨fun _ => ?_, fun _ => rfl⟩
    omega
  · rename_i h
    simp only [eventDefined, Bool.or_eq_true, Bool.and_eq_true, decide_eq_true_eq, beq_iff_eq, h1, h2] at h
    rw [h3]
    omega

/-- **Event timing codes** (`ETCO`) are read back, sorted. -/
theorem etco_rt (f : EtcoF) (hf : f.format = 1 ∨ f.format = 2)
    (h : ∀ e ∈ f.events, KnownEvent e.ty ∧ e.time < 2 ^ 32) :
    ∃ s, StableSorted f.events s ∧ EtcoF.parse f.asBytes = .ok (some ⟨f.format, s⟩, []) := by
  refine ⟨_, sortEvents_stable _, ?_⟩
  rw [EtcoF.asBytes, EtcoF.parse, timeFormat, if_pos hf]
  have hmem : ∀ e ∈ sortEvents f.events, eventType e.ty = e.ty ∧ e.time < 2 ^ 32 := by
    intro e he
    have := h e ((sortEvents_stable f.events).perm.mem_iff.mp he)
    exact ⟨(eventType_iff _).mpr this.1, this.2⟩
  simp only [ok_bind, etcoEvents_rt _ hmem]
  have : sortEvents (sortEvents f.events) = sortEvents f.events := by
    apply List.mergeSort_of_pairwise
    exact (sortEvents_stable f.events).sorted.imp fun h => by simpa using h
  rw [this]

/-- Unused event types become "reserved" with code 0xFF when read: the original code is lost. -/
theorem etco_reserved_lost : EtcoF.parse [2, 0x17, 0, 0, 0, 1] = .ok (some ⟨2, [⟨0xFF, 1⟩]⟩, []) := by
  have : etcoEvents [0x17, 0, 0, 0, 1] = .ok [⟨0xFF, 1⟩] := by decide
  rw [EtcoF.parse, this]
  simp [timeFormat, sortEvents]

/-! ## Relative volume adjustment -/

/-- A channel as a reader produces it: a defined channel type and exactly as many peak bytes as the bits
need. -/
def Channel.Wf (c : Channel) : Prop :=
  c.ty.toNat ≤ 8 ∧ ((c.peak = none ∧ c.bits = 0) ∨ (c.bits ≠ 0 ∧ ∃ p, c.peak = some p ∧ p.length = peakLen c.bits))

theorem insertChannel_new {l : List Channel} {c : Channel} (h : c.ty ∉ l.map (·.ty)) : insertChannel l c = l ++ [c] := by
  rw [insertChannel, if_neg]
  intro ha
  obtain ⟨d, hd, he⟩ := List.any_eq_true.mp ha
  exact h (List.mem_map.mpr ⟨d, hd, by simpa using he⟩)

theorem rvaLoop_rt (mode : Mode) (l : List Channel) (hw : ∀ c ∈ l, c.Wf) : ∃ b, channelsBytes l = .ok b ∧
    ∀ n acc, b.length < n → ((acc ++ l).map (·.ty)).Nodup → rvaLoop mode n b acc = .ok (acc ++ l) := by
  induction l with
  | nil =>
    refine ⟨[], rfl, fun n acc hn _ => ?_⟩
    cases n with
    | zero => simp at hn
    | succ n => rw [rvaLoop]; simp
  | cons c l ih =>
    obtain ⟨b, h1, h2⟩ := ih (fun c hc => hw c (by simp [hc]))
    obtain ⟨ht, hp⟩ := hw c (by simp)
    have key : ∃ pk, channelBytes c = .ok (c.ty :: beBytes 2 c.adjust.toNat ++ c.bits :: pk) ∧
        ∀ r, readPeak c.bits (pk ++ r) = .ok (c.peak, r) := by
      rcases hp with ⟨h3, h4⟩ | ⟨h3, p, h4, h5⟩
      · refine ⟨[], ?_, fun r => ?_⟩
        · rw [channelBytes, h3, h4]
        · rw [readPeak, if_pos h4, h3]; rfl
      · refine ⟨p, ?_, fun r => ?_⟩
        · rw [channelBytes, h4]
          simp only
          rw [writtenBits, if_neg (by omega)]
          simp only [ok_bind]
          rw [List.take_of_length_le]
          have := c.bits.toNat_lt
          rw [h5, peakLen]; omega
        · rw [readPeak, if_neg h3, readN_append _ _ h5, h4]; rfl
    obtain ⟨pk, k1, k2⟩ := key
    refine ⟨c.ty :: beBytes 2 c.adjust.toNat ++ c.bits :: pk ++ b, ?_, fun n acc hn hd => ?_⟩
    · rw [channelsBytes, k1]; simp only [ok_bind, h1]
    · cases n with
      | zero => omega
      | succ n =>
        simp only [List.cons_append, List.append_assoc, List.length_cons, List.length_append] at hn ⊢
        rw [rvaLoop, channelType, if_pos ht]
        simp only [ok_bind]
        rw [readBE_append _ (by have := c.adjust.toNat_lt; omega)]
        simp only [ok_bind, readU8_cons, k2]
        have hnew : c.ty ∉ acc.map (·.ty) := by
          rw [List.map_append, List.map_cons] at hd
          intro hm
          exact (List.nodup_append.mp hd).2.2 _ hm _ (by simp) rfl
        have e : (⟨c.ty, UInt16.ofNat c.adjust.toNat, c.bits, c.peak⟩ : Channel) = c := by simp
        rw [e, insertChannel_new hnew, h2 _ _ (by omega) (by simpa using hd)]
        simp

/-- **Relative volume adjustments** (`RVA2`) are read back, in every mode; the channels are a map, so each channel type
occurs once. -/
theorem rva_rt (o : WriteOpts) (mode : Mode) (f : RvaF) (hi : Inside .latin1 f.ident) (hw : ∀ c ∈ f.channels, c.Wf)
    (hd : (f.channels.map (·.ty)).Nodup) :
    ∃ b, f.asBytes o = .ok b ∧ RvaF.parse mode b = .ok (some f, []) := by
  obtain ⟨b1, h1, _, h2⟩ := text_term o hi.1 hi.2
  obtain ⟨b2, h3, h4⟩ := rvaLoop_rt mode f.channels hw
  obtain ⟨d, g1, g2, _⟩ := h2 b2
  refine ⟨b1 ++ b2, ?_, ?_⟩
  · rw [RvaF.asBytes, h1]; simp only [ok_bind, h3]
  · rw [RvaF.parse, g1]
    simp only [ok_bind]
    rw [h4 _ [] (by omega) (by simpa using hd)]
    simp only [ok_bind, List.nil_append, g2]

/-- A peak with more bytes than its bits need is written with a wrong number of bits (the leading ones of its
bytes are counted), so that it is read as more channels. -/
theorem rva_long_peak_wrong :
    ((RvaF.mk [] [⟨1, 0, 8, some [1, 2]⟩]).asBytes ⟨false, false, false⟩) = .ok [0, 1, 0, 0, 0, 1, 2]
    ∧ RvaF.parse .strict [0, 1, 0, 0, 0, 1, 2] = .error .eof := by decide

/-- A peak of 32 bytes 0xFF with fewer declared bits makes the writer overflow. -/
theorem rva_peak_overflow (o : WriteOpts) (b : UInt8) (hb : b.toNat ≤ 248) :
    (RvaF.mk [] [⟨1, 0, b, some (List.replicate 32 0xFF)⟩]).asBytes o = .error .panic := by
  have h1 : o.text .latin1 [] true = .ok [0] := rfl
  have h2 : writtenBits b (List.replicate 32 0xFF) = .error .panic := by
    rw [writtenBits, if_pos (by rw [peakLen]; simp; omega)]
    decide
  rw [RvaF.asBytes, h1]
  simp only [ok_bind, channelsBytes, channelBytes, h2]
  rfl

/-! ## Objects, audio texts, synchronised texts -/

/-- **General objects** (`GEOB`) are read back if the MIME type is ASCII and no text that is present is empty. -/
theorem object_rt (o : WriteOpts) (f : GeobF) (hm : (∀ c ∈ f.mime.getD [], c.toNat ≤ 127) ∧ '\x00' ∉ f.mime.getD []) (hmn : f.mime ≠ some [])
    (hn : Inside (o.enc f.enc) (f.file.getD [])) (hnn : f.file ≠ some [])
    (hd : Inside (o.enc f.enc) (f.desc.getD [])) (hdn : f.desc ≠ some []) :
    ∃ b, f.asBytes o = .ok b ∧ GeobF.parse b = .ok ⟨o.enc f.enc, f.mime, f.file, f.desc, f.data⟩ := by
  have hr : Representable .latin1 (f.mime.getD []) := fun c hc => by have := hm.1 c hc; omega
  obtain ⟨b0, e0, n0, e1⟩ := text_term o hr hm.2
  rw [WriteOpts.text, encode_latin1 _ _ _ _ hr] at e0
  simp only [if_true, Except.ok.injEq] at e0
  rw [← utf8_ascii _ hm.1] at e0
  obtain ⟨b1, h1, n1, h2⟩ := text_term o hn.1 hn.2
  obtain ⟨b2, h3, n2, h4⟩ := text_term o hd.1 hd.2
  obtain ⟨d0, p0, q0, _⟩ := e1 (b1 ++ (b2 ++ f.data))
  obtain ⟨d1, p1, q1, _⟩ := h2 (b2 ++ f.data)
  obtain ⟨d2, p2, q2, _⟩ := h4 f.data
  have l0 : 0 < b0.length := List.length_pos_iff.mpr n0
  have l1 : 0 < b1.length := List.length_pos_iff.mpr n1
  have l2 : 0 < b2.length := List.length_pos_iff.mpr n2
  have eb : (o.enc f.enc).toByte :: utf8 (f.mime.getD []) ++ 0 :: b1 ++ b2 ++ f.data
      = (o.enc f.enc).toByte :: (b0 ++ (b1 ++ (b2 ++ f.data))) := by
    rw [← e0]; simp
  refine ⟨(o.enc f.enc).toByte :: utf8 (f.mime.getD []) ++ 0 :: b1 ++ b2 ++ f.data, ?_, ?_⟩
  · rw [GeobF.asBytes, h1]; simp only [ok_bind, h3]
  · rw [eb, GeobF.parse, if_neg (by simp only [List.length_cons, List.length_append]; omega), readU8_cons]
    simp only [ok_bind, ofByte_toByte]
    rw [p0]
    simp only [ok_bind, p1, p2, textOrNone_eq q0 hmn, textOrNone_eq q1 hnn, textOrNone_eq q2 hdn]

/-- A MIME type outside ASCII is written as UTF-8 and read as Latin-1. -/
theorem object_mime_wrong :
    ((GeobF.mk .utf8 (some (str "é")) none none []).asBytes ⟨false, false, false⟩).bind GeobF.parse
      = .ok ⟨.utf8, some (str "Ã©"), none, none, []⟩ := by decide

/-- **Audio texts** (`ATXT`) are read back. -/
theorem audioText_rt (o : WriteOpts) (f : AtxtF) (hm : Inside .latin1 f.mime) (ht : Inside (o.enc f.enc) f.text) :
    ∃ b, f.asBytes o = .ok b ∧ AtxtF.parse b = .ok ⟨o.enc f.enc, f.mime, f.scrambling, f.text, f.audio⟩ := by
  obtain ⟨b0, e0, n0, e1⟩ := text_term o hm.1 hm.2
  obtain ⟨b1, h1, n1, h2⟩ := text_term o ht.1 ht.2
  obtain ⟨d0, p0, q0, _⟩ := e1 ((if f.scrambling then 1 else 0) :: (b1 ++ f.audio))
  obtain ⟨d1, p1, q1, _⟩ := h2 f.audio
  have l0 : 0 < b0.length := List.length_pos_iff.mpr n0
  have l1 : 0 < b1.length := List.length_pos_iff.mpr n1
  refine ⟨(o.enc f.enc).toByte :: b0 ++ (if f.scrambling then 1 else 0) :: b1 ++ f.audio, ?_, ?_⟩
  · rw [AtxtF.asBytes, e0]; simp only [ok_bind, h1]
  · simp only [List.cons_append, List.append_assoc]
    rw [AtxtF.parse, if_neg (by simp only [List.length_cons, List.length_append]; omega), readU8_cons]
    simp only [ok_bind, ofByte_toByte]
    rw [p0]
    simp only [ok_bind, readU8_cons]
    rw [p1]
    simp only [ok_bind, q0, q1]
    cases f.scrambling <;> rfl

theorem syltText_rt (o : WriteOpts) {e : Encoding} {t : Str} (h : Inside e t) : ∃ b, o.text e t true = .ok b ∧ b ≠ [] ∧
    ∀ rest, syltText e (mark o.ne e) (b ++ rest) = .ok ((t, b.length), rest) := by
  obtain ⟨b, h1, h2, h3⟩ := text_term o h.1 h.2
  refine ⟨b, h1, h2, fun rest => ?_⟩
  unfold syltText
  by_cases he : e = .utf16
  · subst he
    have eb : b = utf16Encode t o.ne true true := by simpa [WriteOpts.text, encode] using h1.symm
    rw [eb]
    cases hne : o.ne
    · rw [if_pos ⟨rfl, by simp [mark]⟩, maybeBom_encode false false true t rest h.2 h.1 (.inl rfl)]
    · rw [if_neg (by simp [mark]), if_pos ⟨rfl, by simp [mark]⟩, maybeBom_encode true true true t rest h.2 h.1 (.inl rfl)]
  · rw [if_neg (fun h => he h.1), if_neg (fun h => he h.1)]
    obtain ⟨d, g1, g2, g3, _⟩ := h3 rest
    rw [g1]; simp [Except.map, g2, g3]

theorem syltLoop_rt (o : WriteOpts) (e : Encoding) (l : List (Nat × Str)) (h : ∀ p ∈ l, p.1 < 2 ^ 32 ∧ Inside e p.2) :
    ∃ b, syltBytes o e l = .ok b ∧ ∀ n, b.length < n → syltLoop e (mark o.ne e) n b.length b = .ok l := by
  induction l with
  | nil =>
    refine ⟨[], rfl, fun n hn => ?_⟩
    cases n with
    | zero => simp at hn
    | succ n => rw [syltLoop, if_pos (by simp)]
  | cons p l ih =>
    obtain ⟨time, t⟩ := p
    obtain ⟨ht, hi⟩ := h (time, t) (by simp)
    simp only at ht hi
    obtain ⟨b1, h1, n1, h2⟩ := syltText_rt o hi
    obtain ⟨b2, h3, h4⟩ := ih (fun p hp => h p (by simp [hp]))
    have l1 : 0 < b1.length := List.length_pos_iff.mpr n1
    refine ⟨b1 ++ beBytes 4 time ++ b2, ?_, fun n hn => ?_⟩
    · rw [syltBytes, h1]; simp only [ok_bind, h3]
    · simp only [List.length_append, beBytes_length] at hn ⊢
      cases n with
      | zero => omega
      | succ n =>
        rw [syltLoop, if_neg (by omega), List.append_assoc, h2]
        simp only [ok_bind]
        rw [readBE_append _ (by omega)]
        simp only [ok_bind]
        have : ((b1.length + 4 + b2.length : Nat) : Int) - (b1.length : Int) - 4 = (b2.length : Int) := by omega
        rw [this, h4 n (by omega)]
        simp only [ok_bind]

/-- **Synchronised texts** (`SYLT`) are read back if the encoding is not changed for ID3v2.3. -/
theorem syncText_rt (o : WriteOpts) (f : SyltF) (he : o.enc f.enc = f.enc) (hl : Alphabetic f.lang) (hf : f.format = 1 ∨ f.format = 2)
    (hk : f.kind.toNat ≤ 8) (hd : Inside f.enc (f.desc.getD [])) (hdn : f.desc ≠ some [])
    (hc : ∀ p ∈ f.content, p.1 < 2 ^ 32 ∧ Inside f.enc p.2) {b : Bytes} (hb : f.asBytes o = .ok b) : SyltF.parse b = .ok f := by
  obtain ⟨enc, ⟨l1, l2, l3⟩, format, kind, desc, content⟩ := f
  have hl := (alphabetic_iff _).mpr hl
  simp only at he hl hf hk hd hdn hc
  obtain ⟨b1, h1, n1, h2⟩ := text_term o hd.1 hd.2
  obtain ⟨b2, h3, h4⟩ := syltLoop_rt o enc content hc
  obtain ⟨d, g1, g2, _, g3⟩ := h2 b2
  have ln : 0 < b1.length := List.length_pos_iff.mpr n1
  rw [SyltF.asBytes, if_neg (by rw [hl]; simp)] at hb
  simp only [he, h1, h3, ok_bind] at hb
  split at hb
  · simp at hb
  · simp only [Except.ok.injEq] at hb
    subst hb
    simp only [List.cons_append]
    rw [SyltF.parse, if_neg (by simp only [List.length_cons, List.length_append]; omega)]
    simp only [ofByte_toByte, ok_bind]
    rw [if_neg (by rw [hl]; simp), timeFormat, if_pos hf]
    simp only [ok_bind]
    rw [if_neg (by omega), g1]
    simp only [ok_bind, g3]
    rw [h4 _ (by omega)]
    simp only [ok_bind, textOrNone_eq g2 hdn]

/-- Under ID3v2.3 a UTF-8 synchronised text is written as UTF-16 behind the encoding byte of UTF-8, and cannot be
read. -/
theorem syncText_v23_wrong :
    ((SyltF.mk .utf8 (101, 110, 103) 2 1 none [(5, str "a")]).asBytes ⟨true, false, false⟩).bind SyltF.parse = .error .badText := by
  decide

/-! ## Scrambling -/

theorem scrambleFrom_twice (d : Bytes) : ∀ i, scrambleFrom i (scrambleFrom i d) = d := by
  induction d with
  | nil => intro i; rfl
  | cons b d ih =>
    intro i
    simp only [scrambleFrom, ih, UInt8.xor_assoc, UInt8.xor_self, UInt8.xor_zero]

/-- **Scrambling twice gives the original data.** -/
theorem scramble_involution (d : Bytes) : scramble (scramble d) = d := scrambleFrom_twice d 0

theorem scrambleFrom_length (d : Bytes) : ∀ i, (scrambleFrom i d).length = d.length := by
  induction d with
  | nil => intro i; rfl
  | cons b d ih => intro i; simp [scrambleFrom, ih]

theorem scramble_length (d : Bytes) : (scramble d).length = d.length := scrambleFrom_length d 0

theorem scrambleFrom_getElem (d : Bytes) : ∀ i j, i < 127 → (h : j < d.length) →
    (scrambleFrom i d)[j]? = some (d[j] ^^^ scrambleTable.getD ((i + j) % 127) 0) := by
  induction d with
  | nil => intro i j _ h; simp at h
  | cons b d ih =>
    intro i j hi h
    cases j with
    | zero => simp [scrambleFrom, Nat.mod_eq_of_lt hi]
    | succ j =>
      simp only [scrambleFrom, List.getElem?_cons_succ]
      rw [ih _ j (by split <;> omega) (by simpa using h)]
      have : ((if i = 126 then 0 else i + 1) + j) % 127 = (i + (j + 1)) % 127 := by split <;> omega
      rw [this]; rfl

/-- The data is combined with the table, which repeats every 127 bytes. -/
theorem scramble_getElem (d : Bytes) (j : Nat) (h : j < d.length) :
    (scramble d)[j]? = some (d[j] ^^^ scrambleTable.getD (j % 127) 0) := by
  have := scrambleFrom_getElem d 0 j (by omega) h
  rw [Nat.zero_add] at this
  exact this

/-- One step of the shift register: which bits of the old byte each bit of the new byte combines. -/
theorem scrambleNext_bits : ∀ b : Fin 256, ∀ i : Fin 8, (scrambleNext (UInt8.ofNat b.val)).toNat.testBit i.val
    = if 2 ≤ i.val then (b.val.testBit (i.val - 1) ^^ b.val.testBit (i.val - 2))
      else (b.val.testBit (i.val + 6) ^^ b.val.testBit (i.val + 4)) := by decide +kernel

/-- The table is the whole cycle of the shift register of the specification, beginning with 0xFE. -/
theorem scrambleTable_cycle : scrambleTable.length = 127 ∧ scrambleTable.getD 0 0 = 0xFE ∧
    ∀ i : Fin 127, scrambleTable.getD ((i.val + 1) % 127) 0 = scrambleNext (scrambleTable.getD i.val 0) := by
  refine ⟨by decide +kernel, by decide +kernel, by decide +kernel⟩

/-! ## Concrete cases of the hypotheses -/

section Examples
/-- ID3v2.4 on a little endian machine. -/
def o4 : WriteOpts := ⟨false, false, false⟩
/-- ID3v2.3 on a big endian machine. -/
def o3 : WriteOpts := ⟨true, true, true⟩

theorem inside_iff (e : Encoding) (t : Str) : Inside e t ↔ (match e with
    | .latin1 => ∀ c ∈ t, c.toNat ≤ 255
    | .utf8 => True
    | _ => ∀ c ∈ t, c.toNat ≠ 0xFEFF ∧ c.toNat ≠ 0xFFFE) ∧ '\x00' ∉ t := by cases e <;> rfl

theorem final_iff (e : Encoding) (t : Str) : Final e t ↔ (match e with
    | .latin1 => ∀ c ∈ t, c.toNat ≤ 255
    | .utf8 => True
    | _ => ∀ c ∈ t, c.toNat ≠ 0xFEFF ∧ c.toNat ≠ 0xFFFE) ∧ t.getLast? ≠ some '\x00' := by cases e <;> rfl

instance (b : UInt8) : Decidable (Letter b) := by unfold Letter; infer_instance
instance (b : UInt8) : Decidable (KnownEvent b) := by unfold KnownEvent; infer_instance
instance (l : UInt8 × UInt8 × UInt8) : Decidable (Alphabetic l) := by unfold Alphabetic; infer_instance
instance (e : Encoding) (t : Str) : Decidable (Inside e t) := by
  rw [inside_iff]; cases e <;> infer_instance
instance (e : Encoding) (t : Str) : Decidable (Final e t) := by
  rw [final_iff]; cases e <;> infer_instance

example : ∃ b, (TextF.mk (.valid (str "TPE1")) .utf8 (str "Björk\x00→")).asBytes o3 = .ok b ∧
    TextF.parse (.valid (str "TPE1")) .v3 b = .ok (some ⟨.valid (str "TPE1"), .utf16, str "Björk\x00→"⟩, []) :=
  text_rt o3 ⟨.valid (str "TPE1"), .utf8, str "Björk\x00→"⟩ (by decide)
example : ∃ b, (UserF.mk .utf16be (str "日") (str "x\x00y")).asBytes o4 = .ok b ∧
    UserF.parseText .v4 b = .ok (some ⟨.utf16be, str "日", str "x\x00y"⟩, []) :=
  userText_rt o4 ⟨.utf16be, str "日", str "x\x00y"⟩ (by decide) (by decide)
example : ∃ b, (UrlF.mk (.valid (str "WCOM")) (str "http://é")).asBytes o4 = .ok b ∧
    UrlF.parse (.valid (str "WCOM")) b = .ok (some ⟨.valid (str "WCOM"), str "http://é"⟩, []) :=
  url_rt o4 ⟨.valid (str "WCOM"), str "http://é"⟩ (by decide) (by decide)
example : ∃ b, (UserF.mk .utf8 (str "日") (str "http://x")).asBytes o4 = .ok b ∧
    UserF.parseUrl .v4 b = .ok (some ⟨.utf8, str "日", str "http://x"⟩, []) :=
  userUrl_rt_partial o4 ⟨.utf8, str "日", str "http://x"⟩ (by decide) (by decide) (.inr ⟨rfl, by decide⟩)
example : ∃ b, (LangF.mk .utf8 (101, 110, 103) [] (str "nice")).asBytes o3 = .ok b ∧
    LangF.parse .v3 b = .ok (some ⟨.utf16, (101, 110, 103), [], str "nice"⟩, []) :=
  lang_rt o3 ⟨.utf8, (101, 110, 103), [], str "nice"⟩ (by decide) (by decide) (by decide) (by decide)
example : (LangF.mk .utf8 (101, 110, 0) [] (str "nice")).asBytes o4 = .error .encode := lang_refused o4 _ (by decide)
example : ∃ b, (KvF.mk (.valid (str "TIPL")) .utf16 [(str "producer", str "A"), (str "", str "é")]).asBytes o4 = .ok b ∧
    KvF.parse (.valid (str "TIPL")) .v4 b = .ok (some ⟨.valid (str "TIPL"), .utf16, [(str "producer", str "A"), (str "", str "é")]⟩, []) :=
  keyValue_rt o4 ⟨.valid (str "TIPL"), .utf16, [(str "producer", str "A"), (str "", str "é")]⟩ (by decide) (by decide)
example : (PicF.mk .utf16 ⟨.coverFront, some .png, some (str "dé"), [1, 0, 2]⟩).asBytes o4
    = .ok [1, 105, 109, 97, 103, 101, 47, 112, 110, 103, 0, 3, 0xFF, 0xFE, 100, 0, 0xE9, 0, 0, 0, 1, 0, 2] := by decide
example : PicF.parse .v4 [1, 105, 109, 97, 103, 101, 47, 112, 110, 103, 0, 3, 0xFF, 0xFE, 100, 0, 0xE9, 0, 0, 0, 1, 0, 2]
    = .ok (⟨.utf16, ⟨.coverFront, some .png, some (str "dé"), [1, 0, 2]⟩⟩, []) :=
  picture_rt o4 ⟨.utf16, ⟨.coverFront, some .png, some (str "dé"), [1, 0, 2]⟩⟩ (by decide) (by decide)
    (by intro m hm; cases hm; decide) (by intro b hb; cases hb) (by decide)
example : ∃ b, (PopF.mk (str "a@b") 196 (2 ^ 40 + 5)).asBytes o4 = .ok b ∧ PopF.parse b = .ok (⟨str "a@b", 196, 2 ^ 40 + 5⟩, []) :=
  popularimeter_rt o4 _ (by decide) (by decide)
example : counterBytes (2 ^ 40 + 5) = [1, 0, 0, 0, 0, 5] := by decide
example : ∃ b, (OwnedF.mk (str "me") [0, 1, 0]).asBytes o4 = .ok b ∧ OwnedF.parsePriv b = .ok (some ⟨str "me", [0, 1, 0]⟩, []) :=
  private_rt o4 _ (by decide)
example : ∃ b, (OwnedF.mk (str "me") [0, 1, 0]).asBytes o4 = .ok b ∧ OwnedF.parseUfid .strict b = .ok (some ⟨str "me", [0, 1, 0]⟩, []) := by
  have := ufid_rt o4 .strict ⟨str "me", [0, 1, 0]⟩ (by decide)
  rwa [if_neg (by decide)] at this
example : Timestamp.InRange ⟨2024, some 2, some 29, none, none, none⟩ := (Timestamp.verify_iff _).mp (by decide)
example : ∃ b, (OwneF.mk .utf8 (str "$1") (str "20240101") (str "shop")).asBytes o4 = .ok b ∧
    OwneF.parse b = .ok (some ⟨.utf8, str "$1", str "20240101", str "shop"⟩, []) :=
  ownership_rt o4 ⟨.utf8, str "$1", str "20240101", str "shop"⟩ (by decide) (by decide) (by decide) (by decide)
example : ∃ s, StableSorted [⟨3, 9⟩, ⟨0, 2⟩, ⟨0xE1, 9⟩] s ∧
    EtcoF.parse (EtcoF.mk 2 [⟨3, 9⟩, ⟨0, 2⟩, ⟨0xE1, 9⟩]).asBytes = .ok (some ⟨2, s⟩, []) :=
  etco_rt ⟨2, [⟨3, 9⟩, ⟨0, 2⟩, ⟨0xE1, 9⟩]⟩ (by decide) (by decide)
example : StableSorted [⟨3, 9⟩, ⟨0, 2⟩, ⟨0xE1, 9⟩] [⟨0, 2⟩, ⟨3, 9⟩, ⟨0xE1, 9⟩] := by
  have := sortEvents_stable [⟨3, 9⟩, ⟨0, 2⟩, ⟨0xE1, 9⟩]
  have e : sortEvents [⟨3, 9⟩, ⟨0, 2⟩, ⟨0xE1, 9⟩] = [⟨0, 2⟩, ⟨3, 9⟩, ⟨0xE1, 9⟩] := by simp [sortEvents, List.mergeSort, List.MergeSort.Internal.splitInTwo]
  rwa [e] at this
example : ∃ b, (RvaF.mk (str "x") [⟨1, 0xFF00, 12, some [1, 2]⟩, ⟨8, 5, 0, none⟩]).asBytes o4 = .ok b ∧
    RvaF.parse .strict b = .ok (some ⟨str "x", [⟨1, 0xFF00, 12, some [1, 2]⟩, ⟨8, 5, 0, none⟩]⟩, []) :=
  rva_rt o4 .strict ⟨str "x", [⟨1, 0xFF00, 12, some [1, 2]⟩, ⟨8, 5, 0, none⟩]⟩ (by decide)
    (by intro c hc
        simp only [List.mem_cons, List.not_mem_nil, or_false] at hc
        rcases hc with rfl | rfl
        · exact ⟨by decide, .inr ⟨by decide, _, rfl, by decide⟩⟩
        · exact ⟨by decide, .inl ⟨rfl, rfl⟩⟩) (by decide)
example : ∃ b, (GeobF.mk .utf16 (some (str "text/plain")) (some (str "é.txt")) none [0, 0]).asBytes o4 = .ok b ∧
    GeobF.parse b = .ok ⟨.utf16, some (str "text/plain"), some (str "é.txt"), none, [0, 0]⟩ :=
  object_rt o4 ⟨.utf16, some (str "text/plain"), some (str "é.txt"), none, [0, 0]⟩ (by decide) (by decide) (by decide) (by decide) (by decide) (by decide)
example : ∃ b, (AtxtF.mk .utf8 (str "audio/mpeg") true (str "é") [1, 2]).asBytes o4 = .ok b ∧
    AtxtF.parse b = .ok ⟨.utf8, str "audio/mpeg", true, str "é", [1, 2]⟩ :=
  audioText_rt o4 ⟨.utf8, str "audio/mpeg", true, str "é", [1, 2]⟩ (by decide) (by decide)
example : SyltF.parse [1, 101, 110, 103, 2, 1, 0xFF, 0xFE, 0, 0, 0xFF, 0xFE, 97, 0, 0, 0, 0, 0, 0, 5]
    = .ok ⟨.utf16, (101, 110, 103), 2, 1, none, [(5, str "a")]⟩ :=
  syncText_rt o4 ⟨.utf16, (101, 110, 103), 2, 1, none, [(5, str "a")]⟩ rfl (by decide) (by decide) (by decide) (by decide) (by decide) (by decide) (by decide)
example : scramble [0, 0, 0xFF] = [0xFE, 0x04, 0xE7] := by decide +kernel
end Examples

end Lofty.Id3v2
