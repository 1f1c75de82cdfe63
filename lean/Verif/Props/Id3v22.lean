import Verif.Props.Id3v2Tag
import Verif.Spec.Id3v22
/-!
# Tags of ID3v2.2 (C94)

The frames of an ID3v2.2 tag are read under the ids of ID3v2.4 that mean the same.
-/
namespace Lofty.Id3v2
open Lofty.Text (Encoding)
open Lofty.Id3v22

/-! ## The ids -/

/-- **Ids**: every id of ID3v2.2 becomes the id of ID3v2.4 with the same meaning, except for the original artist (`TOA`) and the lyricist (`TXT`). -/
theorem ids_v22_partial {p : String × String} (h : p ∈ names) (h1 : p.1 ≠ "TOA") (h2 : p.1 ≠ "TXT") :
    upgradeV2 p.1.toList = some p.2.toList := by
  have : ∀ p ∈ names, p.1 ≠ "TOA" → p.1 ≠ "TXT" → upgradeV2 p.1.toList = some p.2.toList := by decide +kernel
  exact this p h h1 h2

/-- **Nothing else** is renamed. -/
theorem ids_only {s t : Str} (h : upgradeV2 s = some t) : ∃ p ∈ names, p.1.toList = s := by
  unfold upgradeV2 lookupKey at h
  obtain ⟨p, hp, rfl⟩ := Option.map_eq_some_iff.mp h
  have h1 : p.1.toList = s := by simpa using List.find?_some hp
  have h2 : ∀ p ∈ v2Keys, ∃ q ∈ names, q.1 = p.1 := by decide +kernel
  obtain ⟨q, hq, e⟩ := h2 p (List.mem_of_find?_eq_some hp)
  exact ⟨q, hq, by rw [e, h1]⟩

/-- Two ids are never read as one, except for the two ids of the year and the wrong ones. -/
theorem ids_distinct {p q : String × String} (hp : p ∈ names) (hq : q ∈ names) (h : p.2 = q.2) : p = q ∨ p.2 = "TDRC" := by
  have : ∀ p ∈ names, ∀ q ∈ names, p.2 = q.2 → p = q ∨ p.2 = "TDRC" := by decide +kernel
  exact this p hp q hq h

/-- **The original artist** is read as the original album, **the lyricist** as the original lyricist. -/
theorem artist_wrong : upgradeV2 (str "TOA") = some (str "TOAL") ∧ upgradeV2 (str "TXT") = some (str "TOLY") := by decide +kernel

/-- The frames that ended with ID3v2.2 keep their id. -/
theorem ended_kept {s : String} (h : s ∈ ended) : idV2 (ascii s) = .ok (.outdated s.toList) := by
  have : ∀ s ∈ ended, idV2 (ascii s) = .ok (.outdated s.toList) := by decide +kernel
  exact this s h

/-! ## The bodies -/

/-- The options of the contents: texts are LATIN-1 or UTF-16 in either byte order, as in ID3v2.3. -/
def oldOpts (ne : Bool) : WriteOpts := ⟨true, false, ne⟩

/-- The body of a frame of ID3v2.2: that of ID3v2.3, with the format of a picture in three letters. -/
inductive Body (po : ParseOpts) : Content → Bytes → Prop
  | plain (ne : Bool) (c : Content) (b : Bytes) (hp : ∀ f, c ≠ .picture f) (ho : ContentOk (oldOpts ne) po c) (he : c.reencode (oldOpts ne) = c)
      (hb : c.asBytes (oldOpts ne) = .ok b) : Body po c b
  | picture (ne : Bool) (enc : Encoding) (he : enc = .latin1 ∨ enc = .utf16) (png : Bool) (ty : Picture.PicType) (ht : ∀ b, ty = .undefined b → 20 < b.toNat)
      (desc : Str) (hd : Text.Representable enc desc ∧ '\x00' ∉ desc) (d : Bytes) (hb : (oldOpts ne).text enc desc true = .ok d) (data : Bytes)
      (hr : po.readCover = true) :
      Body po (.picture ⟨enc, ⟨ty, some (if png then .png else .jpeg), if desc = [] then none else some desc, data⟩⟩)
        (enc.toByte :: ascii (if png then "PNG" else "JPG") ++ ty.asU8 :: d ++ data)

theorem verify_same {e : Encoding} (h : e = .latin1 ∨ e = .utf16) : verifyEncoding e.toByte .v2 = verifyEncoding e.toByte .v3 := by
  rcases h with rfl | rfl <;> rfl

theorem old_enc (ne : Bool) (e : Encoding) : (oldOpts ne).enc e = .latin1 ∨ (oldOpts ne).enc e = .utf16 := by cases e <;> simp [oldOpts, WriteOpts.enc, Encoding.toId3v23]

theorem text_same (id : FrameId) {e : Encoding} (h : e = .latin1 ∨ e = .utf16) (r : Bytes) : TextF.parse id .v2 (e.toByte :: r) = TextF.parse id .v3 (e.toByte :: r) := by
  simp only [TextF.parse, verify_same h]

theorem lang_same {e : Encoding} (h : e = .latin1 ∨ e = .utf16) (r : Bytes) : LangF.parse .v2 (e.toByte :: r) = LangF.parse .v3 (e.toByte :: r) := by
  simp only [LangF.parse, verify_same h]

theorem userText_same {e : Encoding} (h : e = .latin1 ∨ e = .utf16) (r : Bytes) : UserF.parseText .v2 (e.toByte :: r) = UserF.parseText .v3 (e.toByte :: r) := by
  simp only [UserF.parseText, verify_same h]

theorem userUrl_same {e : Encoding} (h : e = .latin1 ∨ e = .utf16) (r : Bytes) : UserF.parseUrl .v2 (e.toByte :: r) = UserF.parseUrl .v3 (e.toByte :: r) := by
  simp only [UserF.parseUrl, verify_same h]

theorem kv_same (id : FrameId) {e : Encoding} (h : e = .latin1 ∨ e = .utf16) (r : Bytes) : KvF.parse id .v2 (e.toByte :: r) = KvF.parse id .v3 (e.toByte :: r) := by
  simp only [KvF.parse, verify_same h]

theorem leaf_same (ne : Bool) (po : ParseOpts) (c : Content) (b : Bytes) (hp : ∀ f, c ≠ .picture f) (h : ContentOk (oldOpts ne) po c) (hb : c.asBytes (oldOpts ne) = .ok b) :
    parseLeaf po .v2 c.id b = parseLeaf po .v3 c.id b := by
  cases c with
  | comment f =>
    simp only [Content.asBytes, LangF.asBytes] at hb
    split at hb
    · cases hb
    · obtain ⟨_, _, h2⟩ := bind_ok hb
      obtain ⟨_, _, h3⟩ := bind_ok h2
      cases h3
      show wrap .comment (LangF.parse .v2 _) = wrap .comment (LangF.parse .v3 _)
      exact congrArg _ (lang_same (old_enc ne f.enc) _)
  | lyrics f =>
    simp only [Content.asBytes, LangF.asBytes] at hb
    split at hb
    · cases hb
    · obtain ⟨_, _, h2⟩ := bind_ok hb
      obtain ⟨_, _, h3⟩ := bind_ok h2
      cases h3
      show wrap .lyrics (LangF.parse .v2 _) = wrap .lyrics (LangF.parse .v3 _)
      exact congrArg _ (lang_same (old_enc ne f.enc) _)
  | text f =>
    simp only [Content.asBytes, TextF.asBytes] at hb
    obtain ⟨_, _, h2⟩ := bind_ok hb
    cases h2
    rw [Content.id, parseLeaf_text _ _ _ _ h.1, parseLeaf_text _ _ _ _ h.1, text_same _ (old_enc ne f.enc)]
  | userText f =>
    simp only [Content.asBytes, UserF.asBytes] at hb
    obtain ⟨_, _, h2⟩ := bind_ok hb
    obtain ⟨_, _, h3⟩ := bind_ok h2
    cases h3
    show wrap .userText (UserF.parseText .v2 _) = wrap .userText (UserF.parseText .v3 _)
    exact congrArg _ (userText_same (old_enc ne f.enc) _)
  | userUrl f =>
    simp only [Content.asBytes, UserF.asBytes] at hb
    obtain ⟨_, _, h2⟩ := bind_ok hb
    obtain ⟨_, _, h3⟩ := bind_ok h2
    cases h3
    show wrap .userUrl (UserF.parseUrl .v2 _) = wrap .userUrl (UserF.parseUrl .v3 _)
    exact congrArg _ (userUrl_same (old_enc ne f.enc) _)
  | url f => rw [Content.id, parseLeaf_url _ _ _ _ h.1 h.2.1, parseLeaf_url _ _ _ _ h.1 h.2.1]
  | picture f => exact (hp f rfl).elim
  | keyValue f =>
    simp only [Content.asBytes, KvF.asBytes] at hb
    obtain ⟨_, _, h2⟩ := bind_ok hb
    cases h2
    have : ∀ v b, parseLeaf po v f.id b = wrap .keyValue (KvF.parse f.id v b) := by
      intro v b
      unfold parseLeaf
      rcases h.1 with h1 | h1 <;> rw [h1] <;> rfl
    rw [Content.id, this, this, kv_same _ (old_enc ne f.enc)]
  | time f =>
    have h1 := h.1
    have : ∀ v b, parseLeaf po v f.id b = wrap .time (TimeF.parse f.id po.mode b) := by
      intro v b
      simp only [List.mem_cons, List.not_mem_nil, or_false] at h1
      unfold parseLeaf
      rcases h1 with h1 | h1 | h1 | h1 | h1 <;> rw [h1] <;> rfl
    rw [Content.id, this, this]
  | binary id d => rw [Content.id, parseLeaf_binary _ _ _ _ h.1 h.2.1 h.2.2.1, parseLeaf_binary _ _ _ _ h.1 h.2.1 h.2.2.1]
  | owner f => exact h.elim
  | etco f => exact h.elim
  | pop f => rfl
  | rva f => rfl
  | ufid f => rfl
  | priv f => rfl

/-- **Bodies** are read as what they say, to their end. -/
theorem body_v22 {po : ParseOpts} {c : Content} {b : Bytes} (h : Body po c b) :
    parseLeaf po .v2 c.id b = .ok (some c, []) ∧ b ≠ [] ∧ (po.readCover = true ∨ c.id.asStr ≠ str "APIC") ∧
      c.id.asStr ≠ str "CHAP" ∧ c.id.asStr ≠ str "CTOC" := by
  cases h with
  | plain ne _ _ hp ho he hb =>
    refine ⟨?_, content_nonempty _ _ _ ho hb, cover_of_ok ho, notChapter_of_ok ho⟩
    rw [leaf_same ne po c b hp ho hb]
    have := content_rt (oldOpts ne) po c ho hb
    rwa [he] at this
  | picture ne enc he png ty ht desc hd d hb data hr =>
    refine ⟨?_, by simp, .inl hr, by simp only [Content.id, FrameId.asStr]; decide, by simp only [Content.id, FrameId.asStr]; decide⟩
    show wrap1 .picture (PicF.parse .v2 _) = _
    obtain ⟨b1, h1, _, h2⟩ := text_term (oldOpts ne) hd.1 hd.2
    rw [hb] at h1; cases h1
    obtain ⟨d1, g1, g2, _⟩ := h2 data
    have hn : ∀ t : Bytes, picMime .v2 (ascii (if png then "PNG" else "JPG") ++ t) = .ok (some (if png then .png else .jpeg), t) := by
      intro t; cases png <;> rfl
    have ht' : textOrNone d1 = if desc = [] then none else some desc := by
      unfold textOrNone
      rw [g2]
      cases desc <;> rfl
    rw [List.append_assoc, List.cons_append, PicF.parse, readU8_cons]
    simp only [ok_bind, ofByte_toByte, hn, List.cons_append, readU8_cons, g1, Picture.fromU8_asU8 ty ht, ht']
    rfl

/-! ## Frames and tags -/

theorem list3 (n : Nat) : ∃ a b c, beBytes 3 n = [a, b, c] := ⟨_, _, _, rfl⟩

/-- Three bytes that are the id. -/
def headIs (s : String) (t : FrameId) : Bool :=
  match ascii s with
  | [a, b, c] => a != 0 && decide (idV2 [a, b, c] = .ok t)
  | _ => false

theorem header_v22 {s : String} {t : FrameId} (h : headIs s t = true)
    (body rest : Bytes) (hl : body.length < 2 ^ 24) :
    parseHeaderV2 (frameBytes s body ++ rest) = .frame t {} body.length (body ++ rest) ∧ (ascii s).length = 3 := by
  unfold headIs at h
  split at h
  · rename_i a b c e
    simp only [Bool.and_eq_true, bne_iff_ne, ne_eq, decide_eq_true_eq] at h
    obtain ⟨h0, h1⟩ := h
    obtain ⟨x, y, z, e3⟩ := list3 body.length
    refine ⟨?_, by rw [e]; rfl⟩
    have : fromBE [0, x, y, z] = body.length := by
      have h2 : fromBE [x, y, z] = body.length := by rw [← e3]; exact fromBE_beBytes_of_lt (by omega)
      rw [← h2]; rfl
    rw [frameBytes, e, e3]
    show (if a = 0 then _ else FrameHeader.ofId (idV2 [a, b, c]) {} (fromBE [0, x, y, z]) (body ++ rest)) = _
    rw [if_neg h0, h1, this]; rfl
  · cases h

theorem head_v22 {p : String × String} (hp : p ∈ names) (h1 : p.1 ≠ "TOA") (h2 : p.1 ≠ "TXT") :
    headIs p.1 (.valid p.2.toList) = true := by
  have : ∀ p ∈ names, p.1 ≠ "TOA" → p.1 ≠ "TXT" → headIs p.1 (.valid p.2.toList) = true := by decide +kernel
  exact this p hp h1 h2

/-- A frame of an ID3v2.2 tag, by its id, what it says and its body. -/
structure Old where
  name : String
  content : Content
  body : Bytes

/-- The bytes of the frames. -/
def oldBytes (l : List Old) : Bytes := l.flatMap fun f => frameBytes f.name f.body

/-- A frame whose id has the meaning of the content's id in ID3v2.4, and whose body is that of the content. -/
def Old.Ok (po : ParseOpts) (f : Old) : Prop :=
  (∃ t, (f.name, t) ∈ names ∧ f.content.id = .valid t.toList) ∧ f.name ≠ "TOA" ∧ f.name ≠ "TXT" ∧ Body po f.content f.body ∧ f.body.length < 2 ^ 24

/-- **A frame** of ID3v2.2 is read as a frame of ID3v2.4 with the same meaning, and exactly its bytes are consumed. -/
theorem frame_v22_partial (rc : Bytes → Except Err (List Frame × Bytes)) (po : ParseOpts) (u : Bool) {f : Old} (h : f.Ok po) (rest : Bytes) :
    readFrame rc po .v2 u (frameBytes f.name f.body ++ rest) = .ok (.next (.leaf {} f.content) rest) := by
  obtain ⟨⟨t, hn, hi⟩, h1, h2, hb, hl⟩ := h
  obtain ⟨g1, g2, g3, g4, g5⟩ := body_v22 hb
  have h0 : f.body.length ≠ 0 := by simpa using g2
  obtain ⟨hh, _⟩ := header_v22 (head_v22 hn h1 h2) f.body rest hl
  unfold readFrame
  rw [show parseFrameHeader .v2 po.implicit (frameBytes f.name f.body ++ rest) = _ from hh]
  simp only
  unfold readKnown
  rw [hi] at g3 g4 g5
  rw [if_neg (by rintro ⟨a, b⟩; rcases g3 with g | g; rw [a] at g; cases g; exact g (congrArg FrameId.asStr b))]
  have hv : (u && (Version.v2 == Version.v4)) = false := by rw [show (Version.v2 == Version.v4) = false from rfl, Bool.and_false]
  simp only [hv, Bool.false_eq_true, if_false]
  rw [if_neg h0]
  show readBody rc po .v2 (.valid t.toList) {} f.body.length (f.body ++ rest) = _
  unfold readBody
  rw [if_neg h0]
  rw [hi] at g1
  simp only [Bool.false_eq_true, if_false, handleCompression, ok_bind, Option.isSome_none, List.take_left' rfl, List.drop_left' rfl]
  rw [parseFrame, parseContent, if_neg g4, if_neg g5, g1]
  rfl

theorem loop_v22 (rc : Bytes → Except Err (List Frame × Bytes)) (po : ParseOpts) (u : Bool) (pad : Nat) (l : List Old) (h : ∀ f ∈ l, f.Ok po) :
    ∀ (acc : List Frame) (n : Nat), (oldBytes l).length < n →
      ∃ r, readLoop rc po .v2 u n (oldBytes l ++ List.replicate pad 0) acc = .ok ((l.map fun f => Frame.leaf {} f.content).foldl addFrame acc, r) := by
  induction l with
  | nil =>
    intro acc n hn
    obtain ⟨n, rfl⟩ : ∃ k, n = k + 1 := ⟨n - 1, by omega⟩
    have : parseHeaderV2 (List.replicate pad 0) = .none := by
      unfold parseHeaderV2
      split
      · rename_i a b c d e f g he
        cases pad with
        | zero => cases he
        | succ k => rw [List.replicate_succ] at he; rw [if_pos (List.cons.inj he).1.symm]
      · rfl
    refine ⟨(List.replicate pad 0).drop 6, ?_⟩
    rw [readLoop, readFrame]
    rw [show parseFrameHeader .v2 po.implicit (oldBytes [] ++ List.replicate pad 0) = _ from this]
    rfl
  | cons f l ih =>
    intro acc n hn
    have hb : oldBytes (f :: l) = frameBytes f.name f.body ++ oldBytes l := rfl
    obtain ⟨n, rfl⟩ : ∃ k, n = k + 1 := ⟨n - 1, by omega⟩
    have hf := h f (by simp)
    have hl : 0 < (frameBytes f.name f.body).length := by simp [frameBytes]
    rw [hb, List.length_append] at hn
    obtain ⟨r, hr⟩ := ih (fun g hg => h g (by simp [hg])) (addFrame acc (.leaf {} f.content)) n (by omega)
    refine ⟨r, ?_⟩
    rw [readLoop, hb, List.append_assoc, frame_v22_partial rc po u hf]
    exact hr

/-- **Tags**: the frames of an ID3v2.2 tag, with any padding, are read in their order (`addFrame`: of frames that may not stand beside each other the
later one remains, C26).

Missing, because the program does not do it: the original artist and the lyricist are renamed to something else (`artist_wrong`), the day and the time of
the recording are not joined with the year and are lost on the next save (`date_cut`), and so are the other frames of `ended`
(`old_not_written`). -/
theorem tag_v22_partial (po : ParseOpts) (l : List Old) (h : ∀ f ∈ l, f.Ok po) (pad : Nat) (d : Nat) :
    parseTag po .v2 false (d + 1) (oldBytes l ++ List.replicate pad 0) = .ok ((l.map fun f => Frame.leaf {} f.content).foldl addFrame []) := by
  obtain ⟨r, hr⟩ := loop_v22 (readAll po .v2 d false) po false pad l h [] ((oldBytes l ++ List.replicate pad 0).length + 1) (by simp; omega)
  rw [parseTag]
  simp only [Bool.false_and, Bool.false_eq_true, if_false, readAll, hr, ok_bind]
  rw [show (Version.v2 == Version.v3) = false from rfl, Bool.and_false]
  simp

/-- The same with unsynchronisation (a zero byte behind every `FF` that needs one): the bytes that were changed are changed back first. -/
theorem tag_v22_unsync_partial (po : ParseOpts) (l : List Old) (h : ∀ f ∈ l, f.Ok po) (pad : Nat) (d : Nat) (needs : Bytes → Bool)
    (h0 : ∀ r, needs (0 :: r) = true) :
    parseTag po .v2 true (d + 1) (Synchsafe.unsyncWith needs (oldBytes l ++ List.replicate pad 0)) =
      .ok ((l.map fun f => Frame.leaf {} f.content).foldl addFrame []) := by
  obtain ⟨r, hr⟩ := loop_v22 (readAll po .v2 d false) po true pad l h [] ((oldBytes l ++ List.replicate pad 0).length + 1) (by simp; omega)
  have hv : (true && (Version.v2 != Version.v4)) = true := rfl
  rw [parseTag]
  simp only [hv, if_true, Synchsafe.desync_unsyncWith needs _ h0, readAll, hr, ok_bind]
  rw [show (Version.v2 == Version.v3) = false from rfl, Bool.and_false]
  simp

/-- **Different frames** are all there. -/
theorem tag_v22_distinct_partial (po : ParseOpts) (l : List Old) (h : ∀ f ∈ l, f.Ok po)
    (hs : (l.map fun f => Frame.leaf {} f.content).Pairwise (fun a b => ¬ Same a b)) (ho : OncePerTag (l.map fun f => Frame.leaf {} f.content))
    (pad : Nat) (d : Nat) :
    parseTag po .v2 false (d + 1) (oldBytes l ++ List.replicate pad 0) = .ok (l.map fun f => Frame.leaf {} f.content) := by
  rw [tag_v22_partial po l h pad d]
  have : ∀ (fs acc : List Frame), (acc ++ fs).Pairwise (fun a b => ¬ Same a b) → OncePerTag (acc ++ fs) → fs.foldl addFrame acc = acc ++ fs := by
    intro fs
    induction fs with
    | nil => intro acc _ _; simp
    | cons f fs ih =>
      intro acc h1 h2
      rw [List.foldl_cons, addFrame_new h1 h2, ih _ (by simpa using h1) (by simpa using h2)]
      simp
  rw [this _ [] (by simpa using hs) (by simpa using ho)]
  rfl

/-! ## What is not written again -/

/-- **Frames that keep an old id** are in the list but are not written. -/
theorem old_not_written (o : WriteOpts) (fs : List Frame) : createItems o fs = createItems o (fs.filter fun f => f.id.isValid) := by
  have : ∀ (fs : List Frame) (root : Bool) (p : Option TextF), itemsFrom o root p fs = itemsFrom o root p (fs.filter fun f => f.id.isValid) := by
    intro fs
    induction fs with
    | nil => intro root p; rfl
    | cons f fs ih =>
      intro root p
      cases hv : f.id.isValid with
      | false =>
        rw [List.filter_cons_of_neg (by simp [hv]), itemsFrom]
        simp only [prepare, hv, if_true]
        exact ih root p
      | true =>
        rw [List.filter_cons_of_pos (p := fun f : Frame => f.id.isValid) hv, itemsFrom, itemsFrom]
        cases prepare o f with
        | skip => exact ih root p
        | refuse => rfl
        | people e l => exact ih root _
        | replace l => simp only [ih root p]
        | write => simp only [ih root p, ih (root || f.isRoot) p]
  exact this fs false none

/-- A text frame of ID3v2.2 in LATIN-1. -/
def oldText (id v : String) : Bytes := frameBytes id (0 :: ascii v)

/-- A text frame of ID3v2.3 in LATIN-1. -/
def text23 (id v : String) : Bytes := ascii id ++ beBytes 4 (v.length + 1) ++ [0, 0] ++ 0 :: ascii v

/-- **Disagreement**: the 12th of March 2001 in an ID3v2.3 tag is that day, in an ID3v2.2 tag it is the year; the frame with the day keeps its old id and is
not written again. -/
theorem date_cut :
    parseTag (opts .strict) .v3 false 1 (text23 "TYER" "2001" ++ text23 "TDAT" "1203") =
      .ok [.leaf {} (.time ⟨.valid (str "TDRC"), .latin1, ⟨2001, some 3, some 12, none, none, none⟩⟩)] ∧
    parseTag (opts .strict) .v2 false 1 (oldText "TYE" "2001" ++ oldText "TDA" "1203") =
      .ok [.leaf {} (.time ⟨.valid (str "TDRC"), .latin1, ⟨2001, none, none, none, none, none⟩⟩),
           .leaf {} (.text ⟨.outdated (str "TDA"), .latin1, str "1203"⟩)] ∧
    rewrite .strict [.leaf {} (.time ⟨.valid (str "TDRC"), .latin1, ⟨2001, none, none, none, none, none⟩⟩),
           .leaf {} (.text ⟨.outdated (str "TDA"), .latin1, str "1203"⟩)] =
      .ok [.leaf {} (.time ⟨.valid (str "TDRC"), .latin1, ⟨2001, none, none, none, none, none⟩⟩)] := by decide +kernel

/-- **Disagreement**: the original artist and the original album are one text frame, the later of the two. -/
theorem artist_lost :
    parseTag (opts .strict) .v2 false 1 (oldText "TOA" "Artist" ++ oldText "TOT" "Album") =
      .ok [.leaf {} (.text ⟨.valid (str "TOAL"), .latin1, str "Album"⟩)] := by decide +kernel

/-! ## A tag -/

/-- A title, an artist in UTF-16, a year, a comment, people, a cover and a play counter. -/
def sampleOld : List Old :=
  [ ⟨"TT2", .text ⟨.valid (str "TIT2"), .latin1, str "Title"⟩, 0 :: ascii "Title"⟩,
    ⟨"TP1", .text ⟨.valid (str "TPE1"), .utf16, str "é"⟩, [1, 0xFF, 0xFE, 0xE9, 0]⟩,
    ⟨"TYE", .time ⟨.valid (str "TDRC"), .latin1, ⟨2001, none, none, none, none, none⟩⟩, 0 :: ascii "2001"⟩,
    ⟨"COM", .comment ⟨.latin1, (101, 110, 103), [], str "nice"⟩, 0 :: ascii "eng" ++ 0 :: ascii "nice"⟩,
    ⟨"PIC", .picture ⟨.latin1, ⟨.coverFront, some .png, none, [1, 2]⟩⟩, 0 :: ascii "PNG" ++ [3, 0, 1, 2]⟩,
    ⟨"CNT", .binary (.valid (str "PCNT")) [0, 0, 0, 7], [0, 0, 0, 7]⟩ ]

theorem sampleOld_ok : ∀ f ∈ sampleOld, f.Ok (opts .strict) := by
  intro f hf
  simp only [sampleOld, List.mem_cons, List.not_mem_nil, or_false] at hf
  rcases hf with rfl | rfl | rfl | rfl | rfl | rfl
  · exact ⟨⟨"TIT2", by decide, rfl⟩, by decide, by decide, .plain false _ _ (fun _ => by simp) ⟨.inl ⟨rfl, by decide⟩, by decide⟩ rfl (by decide), by decide⟩
  · exact ⟨⟨"TPE1", by decide, rfl⟩, by decide, by decide, .plain false _ _ (fun _ => by simp) ⟨.inl ⟨rfl, by decide⟩, by decide⟩ rfl (by decide), by decide⟩
  · exact ⟨⟨"TDRC", by decide, rfl⟩, by decide, by decide, .plain false _ _ (fun _ => by simp) ⟨by decide, (Timestamp.verify_iff _).mp (by decide)⟩ rfl (by decide), by decide⟩
  · exact ⟨⟨"COMM", by decide, rfl⟩, by decide, by decide, .plain false _ _ (fun _ => by simp) ⟨by decide, by decide, by decide, by decide⟩ rfl (by decide), by decide⟩
  · exact ⟨⟨"APIC", by decide, rfl⟩, by decide, by decide,
      .picture false .latin1 (.inl rfl) true .coverFront (fun _ h => by cases h) [] ⟨fun _ h => (by cases h), by decide⟩ [0] (by decide) [1, 2] rfl, by decide⟩
  · exact ⟨⟨"PCNT", by decide, rfl⟩, by decide, by decide, .plain false _ _ (fun _ => by simp) ⟨by decide, by decide, by decide, by decide⟩ rfl (by decide), by decide⟩

example (pad d : Nat) : parseTag (opts .strict) .v2 false (d + 1) (oldBytes sampleOld ++ List.replicate pad 0) =
    .ok (sampleOld.map fun f => .leaf {} f.content) :=
  tag_v22_distinct_partial _ _ sampleOld_ok (by decide +kernel) (once_of_nodup (by decide)) pad d

-- a frame that is not written beside one that is
example : ([.leaf {} (.binary (.outdated (str "EQU")) [1]), tit2 "t"] : List Frame).filter (fun f => f.id.isValid) = [tit2 "t"] := by decide

end Lofty.Id3v2
