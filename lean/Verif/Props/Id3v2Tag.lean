import Verif.Lemmas.Id3v2Tag
/-!
# The frames of an ID3v2 tag are read back (C28)

`ContentOk` and `FrameOk` say which frames can be written and read: the id belongs to the kind of frame, the texts
can be written in their encoding, and so on.  `reencode` is what becomes of a frame: only ID3v2.3 changes anything, it has no
UTF-8 and no UTF-16BE.
-/
namespace Lofty.Id3v2
open Lofty.Text (Encoding)

/-- The ids that are not simple text or URL frames, or not binary. -/
def takenIds : List Str :=
  [str "APIC", str "TXXX", str "WXXX", str "COMM", str "USLT", str "TIPL", str "TMCL", str "UFID", str "RVA2", str "OWNE",
   str "ETCO", str "PRIV", str "TDEN", str "TDOR", str "TDRC", str "TDRL", str "TDTG", str "GRP1", str "MVNM", str "MVIN",
   str "POPM", str "CHAP", str "CTOC"]

/-- The frame id of a text frame. -/
def TextId (s : Str) : Prop :=
  (s.head? = some 'T' ∧ s ∉ takenIds) ∨ s = str "GRP1" ∨ s = str "MVNM" ∨ s = str "MVIN"

/-- A content that can be written and read with these options. -/
def ContentOk (o : WriteOpts) (po : ParseOpts) : Content → Prop
  | .comment f | .lyrics f => Alphabetic f.lang ∧ Inside (o.enc f.enc) f.desc ∧ Final (o.enc f.enc) f.content ∧
      (o.enc f.enc = .utf16 → '\x00' ∉ f.content)
  | .text f => TextId f.id.asStr ∧ Final (o.enc f.enc) f.value
  | .userText f => Inside (o.enc f.enc) f.desc ∧ Final (o.enc f.enc) f.content
  | .url f => f.id.asStr.head? = some 'W' ∧ f.id.asStr ∉ takenIds ∧ Inside .latin1 f.url ∧ f.url ≠ []
  | .userUrl f => Inside (o.enc f.enc) f.desc ∧ Final .latin1 f.content ∧
      (o.enc f.enc = .latin1 ∨ (o.enc f.enc = .utf8 ∧ ∀ c ∈ f.content, c.toNat ≤ 127))
  | .picture f => po.readCover = true ∧ Inside (o.enc f.enc) (f.pic.desc.getD []) ∧ f.pic.desc ≠ some [] ∧
      (∀ m, f.pic.mime = some m → (∀ c ∈ m.asStr, c.toNat ≤ 127) ∧ '\x00' ∉ m.asStr ∧ m.asStr ≠ [] ∧ Picture.Mime.fromStr m.asStr = m) ∧
      (∀ b, f.pic.ty = .undefined b → 20 < b.toNat)
  | .pop f => Inside .latin1 f.email ∧ f.counter < 2 ^ 64
  | .keyValue f => (f.id.asStr = str "TIPL" ∨ f.id.asStr = str "TMCL") ∧ f.pairs ≠ [] ∧
      ∀ p ∈ f.pairs, Inside (o.enc f.enc) p.1 ∧ Inside (o.enc f.enc) p.2
  | .rva f => Inside .latin1 f.ident ∧ (∀ c ∈ f.channels, c.Wf) ∧ (f.channels.map (·.ty)).Nodup
  | .ufid f => Inside .latin1 f.owner ∧ (f.owner ≠ [] ∨ po.mode = .bestAttempt)
  | .owner _ | .etco _ => False
  | .priv f => Inside .latin1 f.owner
  | .time f => f.id.asStr ∈ [str "TDEN", str "TDOR", str "TDRC", str "TDRL", str "TDTG"] ∧ Timestamp.InRange f.time
  | .binary id d => id.asStr ∉ takenIds ∧ id.asStr.head? ≠ some 'T' ∧ id.asStr.head? ≠ some 'W' ∧ d ≠ []

/-- The content as it is read back. -/
def Content.reencode (o : WriteOpts) : Content → Content
  | .comment f => .comment { f with enc := o.enc f.enc }
  | .lyrics f => .lyrics { f with enc := o.enc f.enc }
  | .text f => .text { f with enc := o.enc f.enc }
  | .userText f => .userText { f with enc := o.enc f.enc }
  | .userUrl f => .userUrl { f with enc := o.enc f.enc }
  | .picture f => .picture { f with enc := o.enc f.enc }
  | .keyValue f => .keyValue { f with enc := o.enc f.enc }
  | .time f => .time { f with enc := o.enc f.enc }
  | .url f => .url f
  | .pop f => .pop f
  | .rva f => .rva f
  | .ufid f => .ufid f
  | .owner f => .owner f
  | .etco f => .etco f
  | .priv f => .priv f
  | .binary id d => .binary id d

theorem reencode_id (o : WriteOpts) (c : Content) : (c.reencode o).id = c.id := by cases c <;> rfl

theorem not_mem_ne {s t : Str} {l : List Str} (h : s ∉ l) (ht : t ∈ l) : s ≠ t := fun he => h (he ▸ ht)

theorem parseLeaf_text (po : ParseOpts) (v : Version) (id : FrameId) (r : Bytes) (h : TextId id.asStr) :
    parseLeaf po v id r = wrap .text (TextF.parse id v r) := by
  rcases h with ⟨h1, h2⟩ | h | h | h
  · have ne : ∀ t ∈ takenIds, id.asStr ≠ t := fun t ht => not_mem_ne h2 ht
    have n1 : id.asStr ∉ timeIds := fun h => h2 (by
      revert h; generalize id.asStr = s; unfold timeIds takenIds; simp; intro h; rcases h with h | h | h | h | h <;> simp [h])
    unfold parseLeaf
    simp only
    rw [if_neg (ne _ (by decide)), if_neg (ne _ (by decide)), if_neg (ne _ (by decide)), if_neg (ne _ (by decide)),
      if_neg (ne _ (by decide)), if_neg (by rintro (h | h); exact ne _ (by decide) h; exact ne _ (by decide) h),
      if_neg (ne _ (by decide)), if_neg (ne _ (by decide)), if_neg (ne _ (by decide)), if_neg (ne _ (by decide)),
      if_neg (ne _ (by decide)), if_neg n1,
      if_pos (by simp [startsWith, h1])]
  all_goals
    unfold parseLeaf
    rw [h]
    rfl

theorem parseLeaf_url (po : ParseOpts) (v : Version) (id : FrameId) (r : Bytes) (h1 : id.asStr.head? = some 'W') (h2 : id.asStr ∉ takenIds) :
    parseLeaf po v id r = wrap .url (UrlF.parse id r) := by
  have ne : ∀ t ∈ takenIds, id.asStr ≠ t := fun t ht => not_mem_ne h2 ht
  have n1 : id.asStr ∉ timeIds := fun h => h2 (by
    revert h; generalize id.asStr = s; unfold timeIds takenIds; simp; intro h; rcases h with h | h | h | h | h <;> simp [h])
  have n2 : id.asStr ∉ appleIds := fun h => h2 (by
    revert h; generalize id.asStr = s; unfold appleIds takenIds; simp; intro h; rcases h with h | h | h <;> simp [h])
  unfold parseLeaf
  simp only
  rw [if_neg (ne _ (by decide)), if_neg (ne _ (by decide)), if_neg (ne _ (by decide)), if_neg (ne _ (by decide)),
    if_neg (ne _ (by decide)), if_neg (by rintro (h | h); exact ne _ (by decide) h; exact ne _ (by decide) h),
    if_neg (ne _ (by decide)), if_neg (ne _ (by decide)), if_neg (ne _ (by decide)), if_neg (ne _ (by decide)),
    if_neg (ne _ (by decide)), if_neg n1, if_neg (by simp [startsWith, h1]), if_neg n2, if_pos (by simp [startsWith, h1])]

theorem parseLeaf_binary (po : ParseOpts) (v : Version) (id : FrameId) (r : Bytes) (h2 : id.asStr ∉ takenIds)
    (h1 : id.asStr.head? ≠ some 'T') (h3 : id.asStr.head? ≠ some 'W') :
    parseLeaf po v id r = .ok (some (.binary id r), []) := by
  have ne : ∀ t ∈ takenIds, id.asStr ≠ t := fun t ht => not_mem_ne h2 ht
  have n1 : id.asStr ∉ timeIds := fun h => h2 (by
    revert h; generalize id.asStr = s; unfold timeIds takenIds; simp; intro h; rcases h with h | h | h | h | h <;> simp [h])
  have n2 : id.asStr ∉ appleIds := fun h => h2 (by
    revert h; generalize id.asStr = s; unfold appleIds takenIds; simp; intro h; rcases h with h | h | h <;> simp [h])
  unfold parseLeaf
  simp only
  rw [if_neg (ne _ (by decide)), if_neg (ne _ (by decide)), if_neg (ne _ (by decide)), if_neg (ne _ (by decide)),
    if_neg (ne _ (by decide)), if_neg (by rintro (h | h); exact ne _ (by decide) h; exact ne _ (by decide) h),
    if_neg (ne _ (by decide)), if_neg (ne _ (by decide)), if_neg (ne _ (by decide)), if_neg (ne _ (by decide)),
    if_neg (ne _ (by decide)), if_neg n1, if_neg (by simpa [startsWith] using h1), if_neg n2,
    if_neg (by simpa [startsWith] using h3), if_neg (ne _ (by decide))]

/-- **Contents** are read back under their id. -/
theorem content_rt (o : WriteOpts) (po : ParseOpts) (c : Content) (h : ContentOk o po c) {b : Bytes} (hb : c.asBytes o = .ok b) :
    parseLeaf po o.version c.id b = .ok (some (c.reencode o), []) := by
  cases c with
  | comment f =>
    obtain ⟨h1, h2, h3, h4⟩ := h
    obtain ⟨b', h5, h6⟩ := lang_rt o f h1 h2 h3 h4
    simp only [Content.asBytes] at hb
    rw [hb] at h5; cases h5
    show wrap .comment (LangF.parse o.version b) = _
    rw [h6]; rfl
  | lyrics f =>
    obtain ⟨h1, h2, h3, h4⟩ := h
    obtain ⟨b', h5, h6⟩ := lang_rt o f h1 h2 h3 h4
    simp only [Content.asBytes] at hb
    rw [hb] at h5; cases h5
    show wrap .lyrics (LangF.parse o.version b) = _
    rw [h6]; rfl
  | text f =>
    obtain ⟨h1, h2⟩ := h
    obtain ⟨b', h5, h6⟩ := text_rt o f h2
    simp only [Content.asBytes] at hb
    rw [hb] at h5; cases h5
    rw [Content.id, parseLeaf_text _ _ _ _ h1, h6]; rfl
  | userText f =>
    obtain ⟨h1, h2⟩ := h
    obtain ⟨b', h5, h6⟩ := userText_rt o f h1 h2
    simp only [Content.asBytes] at hb
    rw [hb] at h5; cases h5
    show wrap .userText (UserF.parseText o.version b) = _
    rw [h6]; rfl
  | url f =>
    obtain ⟨h1, h2, h3, h4⟩ := h
    obtain ⟨b', h5, h6⟩ := url_rt o f h3 h4
    simp only [Content.asBytes] at hb
    rw [hb] at h5; cases h5
    rw [Content.id, parseLeaf_url _ _ _ _ h1 h2, h6]; rfl
  | userUrl f =>
    obtain ⟨h1, h2, h3⟩ := h
    obtain ⟨b', h5, h6⟩ := userUrl_rt_partial o f h1 h2 h3
    simp only [Content.asBytes] at hb
    rw [hb] at h5; cases h5
    show wrap .userUrl (UserF.parseUrl o.version b) = _
    rw [h6]; rfl
  | picture f =>
    obtain ⟨_, h1, h2, h3, h4⟩ := h
    simp only [Content.asBytes] at hb
    have h6 := picture_rt o f h1 h2 h3 h4 hb
    show wrap1 .picture (PicF.parse o.version b) = _
    rw [h6]; rfl
  | pop f =>
    obtain ⟨h1, h2⟩ := h
    obtain ⟨b', h5, h6⟩ := popularimeter_rt o f h1 h2
    simp only [Content.asBytes] at hb
    rw [hb] at h5; cases h5
    show wrap1 .pop (PopF.parse b) = _
    rw [h6]; rfl
  | keyValue f =>
    obtain ⟨h1, h2, h3⟩ := h
    obtain ⟨b', h5, h6⟩ := keyValue_rt o f h3 h2
    simp only [Content.asBytes] at hb
    rw [hb] at h5; cases h5
    have : parseLeaf po o.version f.id b = wrap .keyValue (KvF.parse f.id o.version b) := by
      unfold parseLeaf
      rcases h1 with h1 | h1 <;> rw [h1] <;> rfl
    rw [Content.id, this, h6]; rfl
  | rva f =>
    obtain ⟨h1, h2, h3⟩ := h
    obtain ⟨b', h5, h6⟩ := rva_rt o po.mode f h1 h2 h3
    simp only [Content.asBytes] at hb
    rw [hb] at h5; cases h5
    show wrap .rva (RvaF.parse po.mode b) = _
    rw [h6]; rfl
  | ufid f =>
    obtain ⟨h1, h2⟩ := h
    obtain ⟨b', h5, h6⟩ := ufid_rt o po.mode f h1
    simp only [Content.asBytes] at hb
    rw [hb] at h5; cases h5
    show wrap .ufid (OwnedF.parseUfid po.mode b) = _
    rw [h6, if_neg (by rintro ⟨x, y⟩; rcases h2 with h2 | h2; exact h2 x; exact y h2)]; rfl
  | owner f => exact h.elim
  | etco f => exact h.elim
  | priv f =>
    obtain ⟨b', h5, h6⟩ := private_rt o f h
    simp only [Content.asBytes] at hb
    rw [hb] at h5; cases h5
    show wrap .priv (OwnedF.parsePriv b) = _
    rw [h6]; rfl
  | time f =>
    obtain ⟨h1, h2⟩ := h
    obtain ⟨b', h5, h6⟩ := timestamp_rt o po.mode f h2
    simp only [Content.asBytes] at hb
    rw [hb] at h5; cases h5
    have : parseLeaf po o.version f.id b = wrap .time (TimeF.parse f.id po.mode b) := by
      simp only [List.mem_cons, List.not_mem_nil, or_false] at h1
      unfold parseLeaf
      rcases h1 with h1 | h1 | h1 | h1 | h1 <;> rw [h1] <;> rfl
    rw [Content.id, this, h6]; rfl
  | binary id d =>
    obtain ⟨h1, h2, h3, _⟩ := h
    simp only [Content.asBytes, Except.ok.injEq] at hb
    subst hb
    rw [Content.id, parseLeaf_binary _ _ _ _ h1 h2 h3]; rfl

theorem content_nonempty (o : WriteOpts) (po : ParseOpts) (c : Content) (h : ContentOk o po c) {b : Bytes} (hb : c.asBytes o = .ok b) : b ≠ [] := by
  have term : ∀ {t : Str} {x : Bytes}, Inside .latin1 t → o.text .latin1 t true = .ok x → x ≠ [] := by
    intro t x ht hx
    obtain ⟨y, h1, h2, _⟩ := text_term o ht.1 ht.2
    rw [hx] at h1; cases h1; exact h2
  cases c with
  | comment f | lyrics f =>
    simp only [Content.asBytes, LangF.asBytes] at hb
    split at hb
    · cases hb
    · obtain ⟨_, _, h2⟩ := bind_ok hb
      obtain ⟨_, _, h3⟩ := bind_ok h2
      cases h3; simp
  | text f =>
    simp only [Content.asBytes, TextF.asBytes] at hb
    obtain ⟨_, _, h2⟩ := bind_ok hb
    cases h2; simp
  | userText f | userUrl f =>
    simp only [Content.asBytes, UserF.asBytes] at hb
    obtain ⟨_, _, h2⟩ := bind_ok hb
    obtain ⟨_, _, h3⟩ := bind_ok h2
    cases h3; simp
  | url f =>
    obtain ⟨_, _, h3, h4⟩ := h
    simp only [Content.asBytes, UrlF.asBytes, WriteOpts.text] at hb
    rw [Text.encode_latin1 _ _ _ _ h3.1] at hb
    simp only [Bool.false_eq_true, if_false, List.append_nil, Except.ok.injEq] at hb
    subst hb
    simpa using h4
  | picture f =>
    simp only [Content.asBytes, PicF.asBytes] at hb
    obtain ⟨_, _, h2⟩ := bind_ok hb
    split at h2
    · cases h2
    · cases h2; simp
  | pop f =>
    simp only [Content.asBytes, PopF.asBytes] at hb
    obtain ⟨_, _, h2⟩ := bind_ok hb
    cases h2; simp
  | keyValue f =>
    simp only [Content.asBytes, KvF.asBytes] at hb
    obtain ⟨_, _, h2⟩ := bind_ok hb
    cases h2; simp
  | rva f =>
    simp only [Content.asBytes, RvaF.asBytes] at hb
    obtain ⟨_, h1, h2⟩ := bind_ok hb
    obtain ⟨_, _, h3⟩ := bind_ok h2
    cases h3
    simp [term h.1 h1]
  | ufid f =>
    simp only [Content.asBytes, OwnedF.asBytes] at hb
    obtain ⟨_, h1, h2⟩ := bind_ok hb
    cases h2
    simp [term h.1 h1]
  | priv f =>
    simp only [Content.asBytes, OwnedF.asBytes] at hb
    obtain ⟨_, h1, h2⟩ := bind_ok hb
    cases h2
    simp [term h h1]
  | owner f => exact h.elim
  | etco f => exact h.elim
  | time f =>
    simp only [Content.asBytes, TimeF.asBytes] at hb
    split at hb
    · cases hb
    · obtain ⟨_, _, h2⟩ := bind_ok hb
      cases h2; simp
  | binary id d =>
    simp only [Content.asBytes, Except.ok.injEq] at hb
    subst hb; exact h.2.2.2

/-! ## Frames -/

mutual

/-- The frame as it is read back. -/
def Frame.reencode (o : WriteOpts) : Frame → Frame
  | .leaf flags c => .leaf flags (c.reencode o)
  | .chapter flags id times offsets ch => .chapter flags id times offsets (reencodeAll o ch)
  | .toc flags id top ordered entries ch => .toc flags id top ordered entries (reencodeAll o ch)

/-- The frames as they are read back. -/
def reencodeAll (o : WriteOpts) : List Frame → List Frame
  | [] => []
  | f :: fs => f.reencode o :: reencodeAll o fs

end

theorem reencodeAll_eq (o : WriteOpts) (fs : List Frame) : reencodeAll o fs = fs.map (·.reencode o) := by
  induction fs with
  | nil => rfl
  | cons f fs ih => rw [reencodeAll, ih]; rfl

theorem enc_v4 {o : WriteOpts} (h : o.v23 = false) (e : Encoding) : o.enc e = e := by simp [WriteOpts.enc, h]

theorem content_reencode_v4 {o : WriteOpts} (h : o.v23 = false) (c : Content) : c.reencode o = c := by
  cases c <;> simp only [Content.reencode, enc_v4 h]

mutual

/-- ID3v2.4 changes nothing. -/
theorem reencode_v4 {o : WriteOpts} (h : o.v23 = false) : ∀ f : Frame, f.reencode o = f
  | .leaf flags c => by rw [Frame.reencode, content_reencode_v4 h]
  | .chapter flags id times offsets ch => by rw [Frame.reencode, reencodeAll_v4 h ch]
  | .toc flags id top ordered entries ch => by rw [Frame.reencode, reencodeAll_v4 h ch]

theorem reencodeAll_v4 {o : WriteOpts} (h : o.v23 = false) : ∀ fs : List Frame, reencodeAll o fs = fs
  | [] => rfl
  | f :: fs => by rw [reencodeAll, reencode_v4 h f, reencodeAll_v4 h fs]

end

theorem frame_reencode_id (o : WriteOpts) (f : Frame) : (f.reencode o).id = f.id := by
  cases f with
  | leaf flags c => exact reencode_id o c
  | chapter => rfl
  | toc => rfl

/-- The ids ID3v2.3 does not have (the library drops the frames), those the library rewrites for ID3v2.3, and (if
`implicit_conversions` is set) those it replaces when it reads ID3v2.3. -/
def idsV23 (implicit : Bool) : List Str :=
  [str "ASPI", str "EQU2", str "RVA2", str "SEEK", str "SIGN", str "TDEN", str "TDRL", str "TDTG", str "TMOO", str "TPRO",
   str "TSOA", str "TSOP", str "TSOT", str "TSST", str "TDOR", str "TDRC", str "TCON", str "TIPL", str "TMCL"]
  ++ if implicit then [str "TORY", str "TYER", str "IPLS"] else []

/-- A list whose frames are all different, with at most one top level table of contents and no repetition of a
frame that may occur once. -/
def TagList (o : WriteOpts) (fs : List Frame) : Prop :=
  (fs.filter Frame.isRoot).length ≤ 1 ∧ (fs.map (·.reencode o)).Pairwise (fun a b => ¬ Same a b) ∧ OncePerTag (fs.map (·.reencode o))

/-- A frame that can be written and read with these options. -/
inductive FrameOk (o : WriteOpts) (po : ParseOpts) : Frame → Prop
  | leaf (flags : FrameFlags) (c : Content) (s : Str) (hf : PlainFlags flags) (hi : c.id = .valid s) (hs : IdOk s)
      (hv : o.v23 = true → s ∉ idsV23 po.implicit) (hc : ContentOk o po c) : FrameOk o po (.leaf flags c)
  | chapter (flags : FrameFlags) (id : Str) (times offsets : Nat × Nat) (ch : List Frame) (hf : PlainFlags flags) (hi : Inside .latin1 id)
      (ht : times.1 < 2 ^ 32 ∧ times.2 < 2 ^ 32) (ho : offsets.1 < 2 ^ 32 ∧ offsets.2 < 2 ^ 32)
      (hc : ∀ f ∈ ch, FrameOk o po f) (hl : TagList o ch) : FrameOk o po (.chapter flags id times offsets ch)
  | toc (flags : FrameFlags) (id : Str) (top ordered : Bool) (entries : List Str) (ch : List Frame) (hf : PlainFlags flags)
      (hi : Inside .latin1 id) (he : ∀ e ∈ entries, Inside .latin1 e)
      (hc : ∀ f ∈ ch, FrameOk o po f) (hl : TagList o ch) : FrameOk o po (.toc flags id top ordered entries ch)

/-- Bytes that are no frame: nothing, padding, or too few for a header. -/
def NoFrame (p : Bytes) : Prop := p.length < 10 ∨ p.head? = some 0

theorem noFrame_header (o : WriteOpts) (implicit : Bool) {p : Bytes} (h : NoFrame p) : parseFrameHeader o.version implicit p = .none := by
  have : ∀ s, parseHeaderV34 s implicit p = .none := by
    intro s
    unfold parseHeaderV34
    split
    · rcases h with h | h
      · simp at h; omega
      · simp at h; simp [h]
    · rfl
  unfold WriteOpts.version
  cases o.v23 <;> exact this _

theorem lookup_none {s : Str} (h : s ∉ [str "TORY", str "TYER", str "IPLS"]) : upgradeV3 s = none := by
  simp only [List.mem_cons, List.not_mem_nil, or_false, not_or] at h
  obtain ⟨h1, h2, h3⟩ := h
  have e : v3Keys.find? (fun p => p.1.toList == s) = none := by
    rw [List.find?_eq_none]
    intro p hp
    simp only [v3Keys, List.mem_cons, List.not_mem_nil, or_false] at hp
    rw [beq_iff_eq]
    rcases hp with rfl | rfl | rfl
    · exact fun h => h1 h.symm
    · exact fun h => h2 h.symm
    · exact fun h => h3 h.symm
  rw [upgradeV3, lookupKey, e]; rfl

theorem addFrame_new {acc : List Frame} {f : Frame} {l : List Frame} (h1 : (acc ++ f :: l).Pairwise (fun a b => ¬ Same a b)) (h2 : OncePerTag (acc ++ f :: l)) :
    addFrame acc f = acc ++ [f] := by
  have hs : ∀ g ∈ acc, ¬ Same g f := fun g hg => (List.pairwise_append.mp h1).2.2 g hg f (by simp)
  have : insert acc f = (none, acc ++ [f]) := by
    by_cases hf : f.id.asStr ∈ onceIds.map String.toList
    · have hid : ∀ g ∈ acc, g.id ≠ f.id := by
        intro g hg he
        have := h2 f.id hf
        rw [List.filter_append, List.filter_cons_of_pos (by simp), List.length_append, List.length_cons] at this
        have : 0 < (acc.filter fun x => x.id = f.id).length := List.length_pos_iff.mpr (by
          intro h0
          have := List.filter_eq_nil_iff.mp h0 g hg
          simp [he] at this)
        omega
      obtain ⟨a1, r, a2, _, a3⟩ := insert_once_partial acc f hf
      have e : (acc.filter fun g => g.id = f.id) = [] := List.filter_eq_nil_iff.mpr (fun g hg => by simpa using hid g hg)
      rw [e] at a1
      rw [a3 hid] at a2
      exact Prod.ext a1 a2
    · rcases insert_spec acc f hf with ⟨_, h⟩ | ⟨a, g, b, e, _, e2, _⟩
      · exact h
      · exact absurd e2 (hs g (by rw [e]; simp))
  rw [addFrame, this]


/-- What the reader needs to know about a frame. -/
structure Readable (o : WriteOpts) (po : ParseOpts) (f : Frame) (s : Str) : Prop where
  id : f.id = .valid s
  ok : IdOk s
  kept : IdKept o.v23 po.implicit s
  flags : PlainFlags f.flags
  cover : po.readCover = true ∨ s ≠ str "APIC"
  write : prepare o f = .write

theorem cover_of_ok {o : WriteOpts} {po : ParseOpts} {c : Content} (h : ContentOk o po c) : po.readCover = true ∨ c.id.asStr ≠ str "APIC" := by
  cases c with
  | picture f => exact .inl h.1
  | text f =>
    right
    rintro he
    simp only [Content.id] at he
    have h := h.1
    rw [he] at h
    rcases h with ⟨h, _⟩ | h | h | h <;> revert h <;> decide
  | url f =>
    right
    rintro he
    simp only [Content.id] at he
    have h := h.1
    rw [he] at h
    revert h; decide
  | keyValue f =>
    right
    rintro he
    simp only [Content.id] at he
    have h := h.1
    rw [he] at h
    revert h; decide
  | time f =>
    right
    rintro he
    simp only [Content.id] at he
    have h := h.1
    rw [he] at h
    revert h; decide
  | binary id d =>
    right
    rintro he
    simp only [Content.id] at he
    have h := h.1
    rw [he] at h
    exact h (by decide)
  | _ => right; simp only [Content.id, FrameId.asStr]; decide

theorem verify_of_ok {o : WriteOpts} {po : ParseOpts} {c : Content} (h : ContentOk o po c) : verifyContent c = true := by
  cases c with
  | text f =>
    rcases h.1 with ⟨h, _⟩ | h | h | h
    · simp [verifyContent, Content.id, startsWith, h]
    all_goals
      simp only [verifyContent, Content.id, h]
      decide
  | url f => simp [verifyContent, Content.id, startsWith, h.1]
  | keyValue f =>
    simp only [verifyContent, Content.id, Bool.or_eq_true]
    rcases h.1 with h | h
    · exact .inl (decide_eq_true h)
    · exact .inr (decide_eq_true h)
  | time f => simpa [verifyContent, Content.id, timeIds] using h.1
  | owner f => exact h.elim
  | etco f => exact h.elim
  | _ => rfl

theorem FrameOk.readable {o : WriteOpts} {po : ParseOpts} {f : Frame} (h : FrameOk o po f) : ∃ s, Readable o po f s := by
  cases h with
  | leaf flags c s hf hi hs hv hc =>
    refine ⟨s, hi, hs, ?_, hf, ?_, ?_⟩
    · intro h1 h2
      refine lookup_none (fun h => hv h1 ?_)
      rw [idsV23, h2]
      exact List.mem_append_right _ h
    · have := cover_of_ok hc
      rwa [hi] at this
    · unfold prepare
      have hv' := verify_of_ok hc
      simp only [Frame.id, hi, FrameId.isValid, FrameId.asStr, verifyFrame, hv']
      cases h23 : o.v23 with
      | false => simp
      | true =>
        have hn := hv h23
        have ne : ∀ t ∈ idsV23 po.implicit, s ≠ t := fun t ht => not_mem_ne hn ht
        have base : ∀ t ∈ idsV23 false, s ≠ t := fun t ht => ne t (by
          unfold idsV23 at ht ⊢
          simp only [Bool.false_eq_true, if_false, List.append_nil] at ht
          exact List.mem_append_left _ ht)
        have hc4 : v4Only.contains s = false := by
          rw [← Bool.not_eq_true, List.contains_iff_mem]
          intro hm
          refine base s ?_ rfl
          have : ∀ t ∈ v4Only, t ∈ idsV23 false := by decide
          exact this s hm
        have hst : stepV3 (.leaf flags c) = .write := by
          unfold stepV3
          simp only [hi, FrameId.asStr]
          rw [if_neg (base _ (by decide)), if_neg (base _ (by decide)), if_neg (base _ (by decide)),
            if_neg (by rintro (h | h); exact base _ (by decide) h; exact base _ (by decide) h)]
        simp only [hc4, hst, Bool.and_false, Bool.false_eq_true, if_false, if_true, Bool.true_eq_false]
  | chapter flags id times offsets ch hf hi ht ho hc hl =>
    refine ⟨str "CHAP", rfl, by decide, fun _ _ => by decide, hf, .inr (by decide), ?_⟩
    unfold prepare
    cases o.v23 <;> rfl
  | toc flags id top ordered entries ch hf hi he hc hl =>
    refine ⟨str "CTOC", rfl, by decide, fun _ _ => by decide, hf, .inr (by decide), ?_⟩
    unfold prepare
    cases o.v23 <;> rfl

/-- The content of the frame is read back by `parse_content` if the frames inside it are read by `rc`. -/
def ReadBack (o : WriteOpts) (po : ParseOpts) (rc : Bytes → Except Err (List Frame × Bytes)) (f : Frame) : Prop :=
  ∀ v, f.asBytes o = .ok v → v.length < 2 ^ 32 → v ≠ [] ∧ parseContent rc po o.version f.id f.flags v = .ok (some (f.reencode o), [])

theorem loop_rt (o : WriteOpts) (po : ParseOpts) (rc : Bytes → Except Err (List Frame × Bytes)) (p : Bytes) (hp : NoFrame p) (fs : List Frame) :
    ∀ (root : Bool) (acc : List Frame) (b : Bytes), (∀ f ∈ fs, (∃ s, Readable o po f s) ∧ ReadBack o po rc f) →
      (if root then 1 else 0) + (fs.filter Frame.isRoot).length ≤ 1 →
      (acc ++ fs.map (·.reencode o)).Pairwise (fun a b => ¬ Same a b) → OncePerTag (acc ++ fs.map (·.reencode o)) →
      itemsFrom o root none fs = .ok b → b.length < 2 ^ 32 →
      ∀ n, b.length < n → readLoop rc po o.version false n (b ++ p) acc = .ok (acc ++ fs.map (·.reencode o), p.drop 10) := by
  induction fs with
  | nil =>
    intro root acc b _ _ _ _ hb _ n hn
    simp only [itemsFrom, writePeople, Except.ok.injEq] at hb
    subst hb
    cases n with
    | zero => simp at hn
    | succ n =>
      rw [readLoop, List.nil_append, readFrame, noFrame_header o _ hp]
      simp only [if_neg o.version_ne, List.map_nil, List.append_nil]
  | cons f fs ih =>
    intro root acc b hf hr hd ho hb hl n hn
    obtain ⟨⟨s, hs⟩, hback⟩ := hf f (by simp)
    rw [itemsFrom, hs.write] at hb
    simp only at hb
    have hroot : (f.isRoot && root) = false := by
      cases h1 : f.isRoot with
      | false => rfl
      | true =>
        cases h2 : root with
        | false => rfl
        | true =>
          rw [List.filter_cons_of_pos h1, h2] at hr
          simp at hr
    rw [hroot] at hb
    simp only [Bool.false_eq_true, if_false] at hb
    obtain ⟨v, h1, hb2⟩ := bind_ok hb
    obtain ⟨w, h2, hb3⟩ := bind_ok hb2
    obtain ⟨r, h3, hb4⟩ := bind_ok hb3
    simp only [Except.ok.injEq] at hb4
    subst hb4
    rw [hs.id, FrameId.asStr] at h2
    have hw10 := writeFrame_length hs.ok h2
    simp only [List.length_append] at hl hn
    have hvl : v.length ≤ w.length := writeFrame_le (by exact hs.flags) h2
    obtain ⟨hne, hpc⟩ := hback v h1 (by omega)
    cases n with
    | zero => omega
    | succ n =>
      rw [readLoop, List.append_assoc, readFrame_writeFrame rc o po (r ++ p) hs.ok hs.kept hs.flags hne (by omega) hs.cover h2,
        parseFrame, ← hs.id, hpc]
      simp only [Except.map, leftover, List.nil_append, if_t_t]
      rw [List.map_cons] at hd ho
      rw [addFrame_new hd ho, ih (root || f.isRoot) (acc ++ [f.reencode o]) r (fun g hg => hf g (by simp [hg])) ?_ (by simpa using hd) (by simpa using ho) h3 (by omega) n (by omega)]
      · simp
      · cases h1 : f.isRoot with
        | false => rw [List.filter_cons_of_neg (by simp [h1])] at hr; simpa using hr
        | true =>
          rw [List.filter_cons_of_pos h1] at hr
          simp only [Bool.or_true, if_true]
          simp only [List.length_cons] at hr
          omega

theorem eventually_all {α} (l : List α) (Q : α → Nat → Prop) (h : ∀ x ∈ l, ∃ d0, ∀ d, d0 ≤ d → Q x d) :
    ∃ d0, ∀ d, d0 ≤ d → ∀ x ∈ l, Q x d := by
  induction l with
  | nil => exact ⟨0, by simp⟩
  | cons a l ih =>
    obtain ⟨d1, h1⟩ := h a (by simp)
    obtain ⟨d2, h2⟩ := ih (fun x hx => h x (by simp [hx]))
    refine ⟨max d1 d2, fun d hd x hx => ?_⟩
    rcases List.mem_cons.mp hx with rfl | hx
    · exact h1 d (by omega)
    · exact h2 d (by omega) x hx

theorem notChapter_of_ok {o : WriteOpts} {po : ParseOpts} {c : Content} (h : ContentOk o po c) :
    c.id.asStr ≠ str "CHAP" ∧ c.id.asStr ≠ str "CTOC" := by
  cases c with
  | text f =>
    constructor
    all_goals
      intro he
      simp only [Content.id] at he
      have h := h.1
      rw [he] at h
      rcases h with ⟨h, _⟩ | h | h | h <;> revert h <;> decide
  | url f =>
    constructor
    all_goals
      intro he
      simp only [Content.id] at he
      have h := h.1
      rw [he] at h
      revert h; decide
  | keyValue f =>
    constructor
    all_goals
      intro he
      simp only [Content.id] at he
      have h := h.1
      rw [he] at h
      revert h; decide
  | time f =>
    constructor
    all_goals
      intro he
      simp only [Content.id] at he
      have h := h.1
      rw [he] at h
      revert h; decide
  | binary id d =>
    constructor
    all_goals
      intro he
      simp only [Content.id] at he
      have h := h.1
      rw [he] at h
      exact h (by decide)
  | _ => constructor <;> (simp only [Content.id, FrameId.asStr]; decide)

theorem children_rt (o : WriteOpts) (po : ParseOpts) (ch : List Frame) (hr : ∀ f ∈ ch, ∃ s, Readable o po f s) (hl : TagList o ch) (d : Nat)
    (hd : ∀ f ∈ ch, ReadBack o po (readAll po o.version d false) f) {b : Bytes} (hb : itemsFrom o false none ch = .ok b) (hlen : b.length < 2 ^ 32)
    (p : Bytes) (hp : NoFrame p) :
    readAll po o.version (d + 1) false (b ++ p) = .ok (ch.map (·.reencode o), p.drop 10) := by
  rw [readAll, loop_rt o po _ p hp ch false [] b (fun f hf => ⟨hr f hf, hd f hf⟩) (by simpa using hl.1) (by simpa using hl.2.1)
    (by simpa using hl.2.2) hb hlen _ (by simp; omega)]
  rfl

theorem entries_rt (o : WriteOpts) (l : List Str) (h : ∀ e ∈ l, Inside .latin1 e) : ∃ b, entriesBytes o l = .ok b ∧
    ∀ r, readEntries l.length (b ++ r) = .ok (l, r) := by
  induction l with
  | nil => exact ⟨[], rfl, fun r => rfl⟩
  | cons e l ih =>
    obtain ⟨b, h1, h2⟩ := ih (fun e he => h e (by simp [he]))
    have he := h e (by simp)
    obtain ⟨b1, h3, _, h4⟩ := text_term o he.1 he.2
    refine ⟨b1 ++ b, ?_, fun r => ?_⟩
    · rw [entriesBytes, h3]; simp only [ok_bind, h1]
    · obtain ⟨d, g1, g2, _⟩ := h4 (b ++ r)
      rw [List.length_cons, readEntries, List.append_assoc, g1]
      simp only [ok_bind, h2, g2]

/-- **One frame of any kind** is read back from what is written for it, including the frames inside it. -/
theorem frame_rt {o : WriteOpts} {po : ParseOpts} {f : Frame} (h : FrameOk o po f) :
    ∃ d0, ∀ d, d0 ≤ d → ReadBack o po (readAll po o.version d false) f := by
  induction h with
  | leaf flags c s hf hi hs hv hc =>
    refine ⟨0, fun d _ v hb hl => ?_⟩
    rw [Frame.asBytes] at hb
    refine ⟨content_nonempty o po c hc hb, ?_⟩
    obtain ⟨n1, n2⟩ := notChapter_of_ok hc
    rw [parseContent, Frame.id, if_neg n1, if_neg n2, content_rt o po c hc hb]
    rfl
  | chapter flags id times offsets ch hf hi ht ho hc hl ih =>
    obtain ⟨d0, h0⟩ := eventually_all ch _ ih
    refine ⟨d0 + 1, fun d hd v hb hlen => ?_⟩
    obtain ⟨d, rfl⟩ : ∃ k, d = k + 1 := ⟨d - 1, by omega⟩
    rw [Frame.asBytes] at hb
    obtain ⟨x, h1, hb2⟩ := bind_ok hb
    obtain ⟨y, h2, hb3⟩ := bind_ok hb2
    simp only [Except.ok.injEq] at hb3
    subst hb3
    obtain ⟨b1, h3, hne, h4⟩ := text_term o hi.1 hi.2
    rw [chapterHead, h3] at h1
    simp only [ok_bind, Except.ok.injEq] at h1
    subst h1
    obtain ⟨dd, g1, g2, _⟩ := h4 (beBytes 4 times.1 ++ (beBytes 4 times.2 ++ (beBytes 4 offsets.1 ++ (beBytes 4 offsets.2 ++ y))))
    refine ⟨by simp [hne], ?_⟩
    simp only [List.length_append] at hlen
    have hch := children_rt o po ch (fun f hf => (hc f hf).readable) hl d (h0 d (by omega)) h2 (by omega) [] (.inl (by simp))
    rw [List.append_nil] at hch
    rw [parseContent, Frame.id, FrameId.asStr, if_pos rfl, parseChapter, if_neg o.version_ne]
    simp only [List.append_assoc]
    rw [g1]
    simp only [ok_bind]
    rw [readBE_append _ (by omega)]
    simp only [ok_bind]
    rw [readBE_append _ (by omega)]
    simp only [ok_bind]
    rw [readBE_append _ (by omega)]
    simp only [ok_bind]
    rw [readBE_append _ (by omega)]
    simp only [ok_bind, hch, g2, Except.map, Frame.reencode, reencodeAll_eq, Frame.flags, List.drop_nil]
  | toc flags id top ordered entries ch hf hi he hc hl ih =>
    obtain ⟨d0, h0⟩ := eventually_all ch _ ih
    refine ⟨d0 + 1, fun d hd v hb hlen => ?_⟩
    obtain ⟨d, rfl⟩ : ∃ k, d = k + 1 := ⟨d - 1, by omega⟩
    rw [Frame.asBytes] at hb
    obtain ⟨x, h1, hb2⟩ := bind_ok hb
    obtain ⟨y, h2, hb3⟩ := bind_ok hb2
    simp only [Except.ok.injEq] at hb3
    subst hb3
    obtain ⟨b1, h3, hne, h4⟩ := text_term o hi.1 hi.2
    obtain ⟨b2, h5, h6⟩ := entries_rt o entries he
    rw [tocHead] at h1
    split at h1
    · cases h1
    · rename_i h255
      simp only [h3, h5, ok_bind, Except.ok.injEq] at h1
      subst h1
      obtain ⟨dd, g1, g2, _⟩ := h4 (ctocByte top ordered :: UInt8.ofNat entries.length :: (b2 ++ y))
      refine ⟨by simp, ?_⟩
      simp only [List.length_append, List.length_cons] at hlen
      have hch := children_rt o po ch (fun f hf => (hc f hf).readable) hl d (h0 d (by omega)) h2 (by omega) [] (.inl (by simp))
      rw [List.append_nil] at hch
      have hn : (UInt8.ofNat entries.length).toNat = entries.length := by
        rw [UInt8.toNat_ofNat']; omega
      have hfl : (ctocByte top ordered &&& 2 == 2) = top ∧ (ctocByte top ordered &&& 1 == 1) = ordered := by
        cases top <;> cases ordered <;> decide
      rw [parseContent, Frame.id, FrameId.asStr, if_neg (by decide), if_pos rfl, parseToc, if_neg o.version_ne]
      simp only [List.append_assoc, List.cons_append]
      rw [g1]
      simp only [ok_bind, readU8_cons, hn, h6, hch, g2, hfl.1, hfl.2, Except.map, Frame.reencode, reencodeAll_eq, Frame.flags, List.drop_nil]

/-- **The frames of a tag are read back**: reading what was written for a list of frames, with any padding behind it, yields the same
frames in the same order with their flags, and leaves nothing of the written frames unread.  In ID3v2.3, UTF-8 and UTF-16BE texts come back as
UTF-16 (`reencode`).  `d` is the number of levels of chapters the reader may descend.

Missing, because the program does not do it: frames that are compressed, encrypted, unsynchronised or have a data length indicator
(`data_length_lost`, `unsync_content_changed`, `encrypted_wrong`), `OWNE` and `ETCO` (`etco_not_written`), contents that are not read
back by themselves (C27; they can also damage the frame behind them, `nul_url_breaks_next`, `wfed_breaks_next`), frames with an empty body
(`empty_frame_lost`) and, in ID3v2.3, the frames that are converted or dropped. -/
theorem tag_rt_partial (o : WriteOpts) (po : ParseOpts) (fs : List Frame) (hf : ∀ f ∈ fs, FrameOk o po f) (hl : TagList o fs)
    {b : Bytes} (hb : createItems o fs = .ok b) (hlen : b.length < 2 ^ 32) :
    ∃ d0, ∀ d, d0 ≤ d → ∀ p, NoFrame p → readAll po o.version d false (b ++ p) = .ok (fs.map (·.reencode o), p.drop 10) := by
  obtain ⟨d0, h0⟩ := eventually_all fs _ fun f hf' => frame_rt (hf f hf')
  refine ⟨d0 + 1, fun d hd p hp => ?_⟩
  obtain ⟨d, rfl⟩ : ∃ k, d = k + 1 := ⟨d - 1, by omega⟩
  exact children_rt o po fs (fun f hf' => (hf f hf').readable) hl d (h0 d (by omega)) hb hlen p hp

/-- **ID3v2.4**: the very same frames. -/
theorem tag_rt_v4_partial (o : WriteOpts) (po : ParseOpts) (fs : List Frame) (h4 : o.v23 = false) (hf : ∀ f ∈ fs, FrameOk o po f) (hl : TagList o fs)
    {b : Bytes} (hb : createItems o fs = .ok b) (hlen : b.length < 2 ^ 32) :
    ∃ d0, ∀ d, d0 ≤ d → ∀ pad, parseTag po .v4 false d (b ++ List.replicate pad 0) = .ok fs := by
  obtain ⟨d0, h0⟩ := tag_rt_partial o po fs hf hl hb hlen
  refine ⟨d0, fun d hd pad => ?_⟩
  have hv : o.version = .v4 := by simp [WriteOpts.version, h4]
  have := h0 d hd (List.replicate pad 0) (by
    cases pad with
    | zero => exact .inl (by simp)
    | succ n => exact .inr rfl)
  rw [hv] at this
  rw [parseTag]
  simp only [Bool.false_and, Bool.false_eq_true, if_false, this, ok_bind]
  have hm : fs.map (·.reencode o) = fs := by rw [← reencodeAll_eq, reencodeAll_v4 h4]
  have hb : (po.implicit && (Version.v4 == Version.v3)) = false := by rw [show (Version.v4 == Version.v3) = false from rfl]; simp
  rw [hb, hm]
  simp

/-! ## Every tag that is read -/

theorem addFrame_once {l : List Frame} (h : OncePerTag l) (f : Frame) : OncePerTag (addFrame l f) := by
  unfold addFrame
  split
  · exact insert_once_per_tag h f
  · split
    · exact insert_once_per_tag (insert_once_per_tag h f) _
    · exact insert_once_per_tag h f

theorem addFrame_distinct {l : List Frame} (h : Distinct l) (f : Frame) : Distinct (addFrame l f) := by
  unfold addFrame
  split
  · exact insert_distinct h f
  · split
    · exact insert_distinct (insert_distinct h f) _
    · exact insert_distinct h f

theorem readLoop_list (rc : Bytes → Except Err (List Frame × Bytes)) (po : ParseOpts) (v : Version) (u : Bool) (n : Nat) : ∀ (r : Bytes) (l l' : List Frame) (r' : Bytes),
    OncePerTag l → Distinct l → readLoop rc po v u n r l = .ok (l', r') → OncePerTag l' ∧ Distinct l' := by
  induction n with
  | zero => intro r l l' r' _ _ h; cases h
  | succ n ih =>
    intro r l l' r' h1 h2 h
    rw [readLoop] at h
    split at h
    · cases h
    · cases h; exact ⟨h1, h2⟩
    · exact ih _ _ _ _ h1 h2 h
    · exact ih _ _ _ _ (addFrame_once h1 _) (addFrame_distinct h2 _) h

/-- **Whatever is read**, from any bytes, version and options: no frame occurs twice and no frame that may
occur once is repeated. -/
theorem read_invariant (po : ParseOpts) (v : Version) (d : Nat) (u : Bool) (r r' : Bytes) (l : List Frame)
    (h : readAll po v d u r = .ok (l, r')) : OncePerTag l ∧ Distinct l := by
  cases d with
  | zero => cases h
  | succ d =>
    rw [readAll] at h
    exact readLoop_list _ po v u _ _ [] l r' (fun _ _ => by simp) (by simp [Distinct]) h

/-! ## What is not read back -/

/-- Options for the witnesses: nothing is compressed. -/
def opts (m : Mode) : ParseOpts := ⟨m, true, true, fun _ => none⟩

/-- Write the frames and read them back as ID3v2.4. -/
def rewrite (m : Mode) (fs : List Frame) : Except Err (List Frame) :=
  (createItems ⟨false, false, false⟩ fs).bind (parseTag (opts m) .v4 false 2)

def tit2 (s : String) : Frame := .leaf {} (.text ⟨.valid (str "TIT2"), .utf8, str s⟩)

/-- A NUL inside a URL makes the frame behind it unreadable: the rest of the URL is taken for a frame header. -/
theorem nul_url_breaks_next : rewrite .bestAttempt [.leaf {} (.url ⟨.valid (str "WCOM"), str "abc\x00xyz"⟩), tit2 "Title"]
    = .ok [.leaf {} (.url ⟨.valid (str "WCOM"), str "abc"⟩)] := by decide +kernel

/-- A text frame may be written under the id `WFED`, but is then read as a URL, and the frame behind it is lost. -/
theorem wfed_breaks_next : rewrite .bestAttempt [.leaf {} (.text ⟨.valid (str "WFED"), .utf16, str "ab"⟩), tit2 "Title"]
    ≠ .ok [.leaf {} (.text ⟨.valid (str "WFED"), .utf16, str "ab"⟩), tit2 "Title"] := by decide +kernel

/-- A frame that is written without a body is skipped, in strict mode it makes the whole tag unreadable. -/
theorem empty_frame_lost : rewrite .relaxed [.leaf {} (.url ⟨.valid (str "WCOM"), []⟩), tit2 "Title"] = .ok [tit2 "Title"]
    ∧ rewrite .strict [.leaf {} (.url ⟨.valid (str "WCOM"), []⟩), tit2 "Title"] = .error .parse := by decide +kernel

/-- Frames with a data length indicator: the flag is written, but not the indicator. -/
theorem data_length_lost : rewrite .bestAttempt [.leaf { dataLength := some 6 } (.text ⟨.valid (str "TIT2"), .utf8, str "Title"⟩)]
    ≠ .ok [.leaf { dataLength := some 6 } (.text ⟨.valid (str "TIT2"), .utf8, str "Title"⟩)] := by decide +kernel

/-- Frames marked as unsynchronised: the content is written as it is. -/
theorem unsync_content_changed : rewrite .bestAttempt [.leaf { unsync := true } (.binary (.valid (str "MCDI")) [0xFF, 0x00, 0x01])]
    = .ok [.leaf { unsync := true } (.binary (.valid (str "MCDI")) [0xFF, 0x01])] := by decide +kernel

/-- Encrypted frames: the symbol and the data length are written in the wrong order and the size is four short. -/
theorem encrypted_wrong : rewrite .bestAttempt [.leaf { encryption := some 0x90, dataLength := some 3 } (.binary (.valid (str "MCDI")) [1, 2, 3])]
    ≠ .ok [.leaf { encryption := some 0x90, dataLength := some 3 } (.binary (.valid (str "MCDI")) [1, 2, 3])] := by decide +kernel

/-- Ownership frames and event timing codes can be read, but are refused when written. -/
theorem etco_not_written (fl : FrameFlags) (f : EtcoF) (g : OwneF) (o : WriteOpts) (fs : List Frame) :
    createItems ⟨false, o.lossy, o.ne⟩ (.leaf fl (.etco f) :: fs) = .error .encode
    ∧ createItems ⟨false, o.lossy, o.ne⟩ (.leaf fl (.owner g) :: fs) = .error .encode := ⟨rfl, rfl⟩

/-- A frame that cannot be decoded makes the whole tag unreadable, also in the relaxed mode. -/
theorem bad_frame_fails_tag : parseTag (opts .relaxed) .v4 false 2
    (ascii "TIT2" ++ [0, 0, 0, 2, 0, 0, 9, 65] ++ ascii "TALB" ++ [0, 0, 0, 2, 0, 0, 3, 65]) = .error .badText := by decide +kernel

/-- Padding inside a chapter: all but its first ten bytes are taken for the frame behind the chapter, which is lost. -/
theorem chapter_padding_lost : parseTag (opts .relaxed) .v4 false 2
    (ascii "CHAP" ++ [0, 0, 0, 29, 0, 0] ++ [0x61, 0] ++ List.replicate 16 1 ++ List.replicate 11 0
      ++ ascii "TALB" ++ [0, 0, 0, 2, 0, 0, 3, 65])
    = .ok [.chapter {} (str "a") (0x1010101, 0x1010101) (0x1010101, 0x1010101) []] := by decide +kernel

/-! ## Examples -/

instance (a b : Frame) : Decidable (Same a b) := decidable_of_iff _ (sameFrame_iff a b)

theorem once_of_nodup {l : List Frame} (h : (l.map Frame.id).Nodup) : OncePerTag l := by
  intro id _
  induction l with
  | nil => simp
  | cons f l ih =>
    simp only [List.map_cons, List.nodup_cons] at h
    by_cases hf : f.id = id
    · rw [List.filter_cons_of_pos (by simpa using hf), List.filter_eq_nil_iff.mpr]
      · simp
      · intro g hg
        simp only [decide_eq_true_eq]
        intro he
        exact h.1 (List.mem_map.mpr ⟨g, hg, by rw [he, hf]⟩)
    · rw [List.filter_cons_of_neg (by simpa using hf)]
      exact ih h.2

/-- A list of frames that meets the hypotheses of `tag_rt_partial`, with a group, a comment, a table of contents and a chapter with a
title inside. -/
def sample : List Frame :=
  [ .leaf { grouping := some 7, readOnly := true } (.text ⟨.valid (str "TIT2"), .utf16, str "Títle"⟩),
    .leaf {} (.comment ⟨.utf8, (101, 110, 103), [], str "nice"⟩),
    .leaf {} (.binary (.valid (str "MCDI")) [1, 2, 3]),
    .toc {} (str "toc") true true [str "c1"] [],
    .chapter {} (str "c1") (0, 1000) (0xFFFFFFFF, 0xFFFFFFFF) [tit2 "Chapter 1"] ]

theorem sample_ok (o : WriteOpts) (m : Mode) (ho : o = ⟨true, false, true⟩ ∨ o = ⟨false, false, true⟩) : (∀ f ∈ sample, FrameOk o (opts m) f) ∧ TagList o sample := by
  rcases ho with rfl | rfl
  all_goals
    constructor
    · intro f hf
      simp only [sample, List.mem_cons, List.not_mem_nil, or_false] at hf
      rcases hf with rfl | rfl | rfl | rfl | rfl
      · exact .leaf _ _ (str "TIT2") (by decide) rfl (by decide) (by show _ → _ ∉ idsV23 true; decide) ⟨.inl ⟨rfl, by decide⟩, by decide⟩
      · exact .leaf _ _ (str "COMM") (by decide) rfl (by decide) (by show _ → _ ∉ idsV23 true; decide) ⟨by decide, by decide, by decide, by decide⟩
      · exact .leaf _ _ (str "MCDI") (by decide) rfl (by decide) (by show _ → _ ∉ idsV23 true; decide) ⟨by decide, by decide, by decide, by decide⟩
      · exact .toc _ _ _ _ _ _ (by decide) (by decide) (by decide) (by simp) ⟨by decide, by decide, once_of_nodup (by decide)⟩
      · refine .chapter _ _ _ _ _ (by decide) (by decide) (by decide) (by decide) ?_ ⟨by decide, by decide, once_of_nodup (by decide)⟩
        intro f hf
        simp only [List.mem_cons, List.not_mem_nil, or_false] at hf
        subst hf
        exact .leaf _ _ (str "TIT2") (by decide) rfl (by decide) (by show _ → _ ∉ idsV23 true; decide) ⟨.inl ⟨rfl, by decide⟩, by decide⟩
    · exact ⟨by decide, by decide, once_of_nodup (by decide)⟩

/-- The sample is written, as ID3v2.4 and as ID3v2.3, and read back. -/
example : ∃ b, createItems ⟨false, false, true⟩ sample = .ok b ∧ ∃ d0, ∀ d, d0 ≤ d → ∀ pad, parseTag (opts .strict) .v4 false d (b ++ List.replicate pad 0) = .ok sample := by
  have h : ∃ b, createItems ⟨false, false, true⟩ sample = .ok b ∧ b.length < 2 ^ 32 := by
    rcases hb : createItems ⟨false, false, true⟩ sample with e | b
    · have : (createItems ⟨false, false, true⟩ sample).toOption.isSome = true := by decide +kernel
      rw [hb] at this; cases this
    · refine ⟨b, rfl, ?_⟩
      have : ((createItems ⟨false, false, true⟩ sample).toOption.map List.length).getD 0 < 1000 := by decide +kernel
      rw [hb] at this
      have : b.length < 1000 := this
      omega
  obtain ⟨b, h1, h2⟩ := h
  obtain ⟨hf, hl⟩ := sample_ok ⟨false, false, true⟩ .strict (.inr rfl)
  exact ⟨b, h1, tag_rt_v4_partial _ _ _ rfl hf hl h1 h2⟩

example : (createItems ⟨true, false, true⟩ sample).toOption.isSome = true := by decide +kernel

end Lofty.Id3v2
