import Verif.Lemmas.Safe
/-!
# Reading ID3v2 frames neither panics nor loops
-/
namespace Lofty.Safe
open Lofty.Id3v2
open Lofty.Text (Encoding decodeText)
open Lofty.Synchsafe (desync)

variable {D : Prop}

/-- What is left is no longer than what was given. -/
abbrev Len {α : Type} (r : Bytes) : α × Bytes → Prop := fun a => a.2.length ≤ r.length

theorem term_fine (e : Encoding) (r : Bytes) : Fine D (termText e r) (fun a => a.1.bytesRead + a.2.length ≤ r.length ∧ Bom a.1.bom) :=
  decodeText_fine ..

theorem rest_fine (e : Encoding) (r : Bytes) : Fine D (restText e r) (fun a => a.1.bytesRead + a.2.length ≤ r.length ∧ Bom a.1.bom) :=
  decodeText_fine ..

theorem verify_fine (b : UInt8) (v : Version) : Fine D (verifyEncoding b v) (fun _ => True) := by
  unfold verifyEncoding
  exact .ite (fun _ => .err) fun _ => ofByte_fine b

theorem text_fine (id : FrameId) (v : Version) (r : Bytes) : Fine D (TextF.parse id v r) (Len r) := by
  unfold TextF.parse
  cases r with
  | nil => exact .ok (Nat.le_refl _)
  | cons b r =>
    exact .bind (verify_fine ..) fun enc _ => .bind (rest_fine enc r) fun a ha => .ok (by
      simp only [Len, List.length_cons]; omega)

theorem userUtf16_fine {bom : UInt8 × UInt8} (hb : Bom bom) (raw : Bytes) : Fine D (userTextUtf16 bom raw) (fun _ => True) := by
  unfold userTextUtf16
  refine .ite (fun _ => .ok trivial) fun _ => ?_
  have h : Bom (userTextBom bom raw) := by
    unfold userTextBom
    split
    · exact .inr (.inr rfl)
    · exact .inr (.inl rfl)
    · exact hb
  dsimp only
  refine .ite (fun _ => .err) fun h1 => .ite (fun _ => utf16Bytes_fine ..) fun h2 => .ite (fun _ => utf16Bytes_fine ..) fun h3 => ?_
  rcases h with h | h | h
  · exact absurd h h1
  · exact absurd h h3
  · exact absurd h h2

theorem userText_fine (v : Version) (r : Bytes) : Fine D (UserF.parseText v r) (Len r) := by
  unfold UserF.parseText
  cases r with
  | nil => exact .ok (Nat.le_refl _)
  | cons b r =>
    refine .bind (verify_fine ..) fun enc _ => .bind (term_fine enc r) fun a ha => .bind (P := fun _ => True) ?_ fun c _ => .ok (Nat.zero_le _)
    unfold userTextContent
    exact .ite (fun _ => userUtf16_fine ha.2 _) fun _ => (rest_fine ..).map fun _ _ => trivial

theorem userUrl_fine (v : Version) (r : Bytes) : Fine D (UserF.parseUrl v r) (Len r) := by
  unfold UserF.parseUrl
  cases r with
  | nil => exact .ok (Nat.le_refl _)
  | cons b r =>
    exact .bind (verify_fine ..) fun enc _ => .bind (term_fine enc r) fun a ha => .bind (rest_fine ..) fun c hc => .ok (by
      simp only [Len, List.length_cons]; omega)

theorem url_fine (id : FrameId) (r : Bytes) : Fine D (UrlF.parse id r) (Len r) := by
  unfold UrlF.parse
  exact .bind (term_fine ..) fun a ha => .ite (fun _ => .ok (by simp only [Len]; omega)) fun _ => .ok (by simp only [Len]; omega)

theorem lang_fine (v : Version) (r : Bytes) : Fine D (LangF.parse v r) (Len r) := by
  unfold LangF.parse
  cases r with
  | nil => exact .ok (Nat.le_refl _)
  | cons b r =>
    refine .bind (verify_fine ..) fun enc _ => ?_
    split
    · rename_i l1 l2 l3 r
      refine .bind (term_fine enc r) fun a ha => .bind (P := Len a.2) ?_ fun c hc => .ok (by
        simp only [Len, List.length_cons] at hc ⊢; omega)
      unfold langContent
      exact .ite (fun _ => (terminatedBom_fine ..).map fun _ h => h) fun _ => .ite (fun _ => (terminatedBom_fine ..).map fun _ h => h) fun _ =>
        (rest_fine ..).map fun _ h => by simp only [Len]; omega
    · exact .err

theorem kvLoop_fine (enc : Encoding) (bom : UInt8 × UInt8) : ∀ (n : Nat) (r : Bytes), r.length < n → Fine D (kvLoop enc bom n r) (Len r) := by
  intro n
  induction n with
  | zero => intro r h; omega
  | succ n ih =>
    intro r h
    unfold kvLoop
    refine .bind (decodeText_fine ..) fun a ha => .bind (decodeText_fine ..) fun b hb => .ite (fun _ => .ok (by simp only [Len]; omega)) fun hz => ?_
    exact .bind (ih b.2 (by omega)) fun c hc => .ok (by simp only [Len] at hc ⊢; omega)

theorem kv_fine (id : FrameId) (v : Version) (r : Bytes) : Fine D (KvF.parse id v r) (Len r) := by
  unfold KvF.parse
  cases r with
  | nil => exact .err
  | cons b r =>
    refine .bind (verify_fine ..) fun enc _ => .bind (P := Len r) ?_ fun a ha => .ok (by simp only [Len, List.length_cons] at ha ⊢; omega)
    unfold kvPairs
    refine .bind (term_fine enc r) fun a ha => .ite (fun _ => .ok (by simp only [Len]; omega)) fun _ => ?_
    exact .bind (decodeText_fine ..) fun b hb => .bind (kvLoop_fine enc _ _ b.2 (Nat.lt_succ_self _)) fun c hc => .ok (by
      simp only [Len] at hc ⊢; omega)

theorem pic_fine (v : Version) (r : Bytes) : Fine D (PicF.parse v r) (Len r) := by
  unfold PicF.parse
  refine .bind (readU8_fine r) fun a _ => .bind (ofByte_fine _) fun enc _ => .bind (P := fun _ => True) ?_ fun m _ =>
    .bind (readU8_fine _) fun t _ => .bind (term_fine ..) fun d _ => .ok (Nat.zero_le _)
  unfold picMime
  refine .ite (fun _ => ?_) fun _ => .bind (term_fine ..) fun _ _ => .ok trivial
  exact .bind (readN_fine ..) fun _ _ => .ite (fun _ => .ok trivial) fun _ => .ite (fun _ => .ok trivial) fun _ => .err

theorem pop_fine (r : Bytes) : Fine D (PopF.parse r) (Len r) := by
  unfold PopF.parse
  exact .bind (term_fine ..) fun _ _ => .bind (readU8_fine _) fun _ _ => .ok (Nat.zero_le _)

theorem priv_fine (r : Bytes) : Fine D (OwnedF.parsePriv r) (Len r) := by
  unfold OwnedF.parsePriv
  split
  · exact .ok (Nat.zero_le _)
  · exact .ok (Nat.le_refl _)

theorem ufid_fine (m : Mode) (r : Bytes) : Fine D (OwnedF.parseUfid m r) (Len r) := by
  unfold OwnedF.parseUfid
  exact .bind (term_fine ..) fun _ _ => .ite (fun _ => .err) fun _ => .ok (Nat.zero_le _)

theorem timeF_fine (id : FrameId) (m : Mode) (r : Bytes) : Fine D (TimeF.parse id m r) (Len r) := by
  unfold TimeF.parse
  cases r with
  | nil => exact .err
  | cons b r =>
    have h := ofByte_fine (D := D) b
    revert h
    dsimp only
    cases Encoding.ofByte b with
    | error e =>
      intro h
      refine .ite (fun _ => .ok (Nat.le_succ _)) fun _ => ⟨fun e' he => ?_, fun _ he => by cases he⟩
      cases he
      exact h.safe e rfl
    | ok enc =>
      intro _
      refine .bind (rest_fine enc r) fun a ha => .bind (P := fun _ => True) ?_ fun f _ => .ok (by simp only [Len, List.length_cons]; omega)
      unfold timeContent
      have h := time_fine (D := D) m (utf8 a.1.content)
      revert h
      cases Timestamp.parse m (utf8 a.1.content) with
      | error e =>
        intro h
        refine .ite (fun _ => .ok trivial) fun _ => ⟨fun e' he => ?_, fun _ he => by cases he⟩
        cases he
        exact h.safe e rfl
      | ok t => intro _; cases t <;> exact .ok trivial

theorem owne_fine (r : Bytes) : Fine D (OwneF.parse r) (Len r) := by
  unfold OwneF.parse
  cases r with
  | nil => exact .ok (Nat.le_refl _)
  | cons b r =>
    exact .bind (ofByte_fine _) fun enc _ => .bind (term_fine ..) fun a ha => .bind (readN_fine ..) fun b hb => .bind (utf8Decode_fine _) fun _ _ =>
      .bind (rest_fine ..) fun c hc => .ok (by simp only [Len, List.length_cons]; omega)

theorem events_fine : ∀ r : Bytes, Fine D (etcoEvents r) (fun _ => True)
  | [] => .ok trivial
  | [_] => .err
  | [_, _] => .err
  | [_, _, _] => .err
  | [_, _, _, _] => .err
  | _ :: _ :: _ :: _ :: _ :: r => .bind (events_fine r) fun _ _ => .ok trivial

theorem etco_fine (r : Bytes) : Fine D (EtcoF.parse r) (Len r) := by
  unfold EtcoF.parse
  cases r with
  | nil => exact .ok (Nat.le_refl _)
  | cons b r =>
    refine .bind (P := fun _ => True) ?_ fun _ _ => .bind (events_fine r) fun _ _ => .ok (Nat.zero_le _)
    unfold timeFormat
    exact .ite (fun _ => .ok trivial) fun _ => .err

theorem rvaLoop_fine (m : Mode) : ∀ (n : Nat) (r : Bytes) (l : List Channel), r.length < n → Fine D (rvaLoop m n r l) (fun _ => True) := by
  intro n
  induction n with
  | zero => intro r l h; omega
  | succ n ih =>
    intro r l h
    unfold rvaLoop
    cases r with
    | nil => exact .ok trivial
    | cons t r =>
      rw [List.length_cons] at h
      refine .bind (P := fun _ => True) ?_ fun ty _ => .bind (readBE_fine ..) fun a ha => .bind (readU8_fine _) fun b hb =>
        .bind (P := Len b.2) ?_ fun c hc => ih _ _ (by simp only [Len] at hc; omega)
      · unfold channelType
        exact .ite (fun _ => .ok trivial) fun _ => .ite (fun _ => .ok trivial) fun _ => .err
      · unfold readPeak
        exact .ite (fun _ => .ok (Nat.le_refl _)) fun _ => (readN_fine ..).map fun x hx => by simp only [Len]; omega

theorem rva_fine (m : Mode) (r : Bytes) : Fine D (RvaF.parse m r) (Len r) := by
  unfold RvaF.parse
  exact .bind (term_fine ..) fun a _ => .bind (rvaLoop_fine m _ a.2 [] (Nat.lt_succ_self _)) fun _ _ => .ok (Nat.zero_le _)

theorem wrap_fine {α : Type} {k : α → Content} {x : Except Err (Option α × Bytes)} {r : Bytes} (h : Fine D x (Len r)) : Fine D (wrap k x) (Len r) :=
  h.map fun _ h => h

theorem wrap1_fine {α : Type} {k : α → Content} {x : Except Err (α × Bytes)} {r : Bytes} (h : Fine D x (Len r)) : Fine D (wrap1 k x) (Len r) :=
  h.map fun _ h => h

/-- The content of a frame that is no chapter. -/
theorem leaf_fine (o : ParseOpts) (v : Version) (id : FrameId) (r : Bytes) : Fine D (parseLeaf o v id r) (Len r) := by
  unfold parseLeaf
  dsimp only
  refine .ite (fun _ => wrap1_fine (pic_fine ..)) fun _ => .ite (fun _ => wrap_fine (userText_fine ..)) fun _ => .ite (fun _ => wrap_fine (userUrl_fine ..)) fun _ => ?_
  refine .ite (fun _ => wrap_fine (lang_fine ..)) fun _ => .ite (fun _ => wrap_fine (lang_fine ..)) fun _ => .ite (fun _ => wrap_fine (kv_fine ..)) fun _ => ?_
  refine .ite (fun _ => wrap_fine (ufid_fine ..)) fun _ => .ite (fun _ => wrap_fine (rva_fine ..)) fun _ => .ite (fun _ => wrap_fine (owne_fine ..)) fun _ => ?_
  refine .ite (fun _ => wrap_fine (etco_fine ..)) fun _ => .ite (fun _ => wrap_fine (priv_fine ..)) fun _ => .ite (fun _ => wrap_fine (timeF_fine ..)) fun _ => ?_
  refine .ite (fun _ => wrap_fine (text_fine ..)) fun _ => .ite (fun _ => wrap_fine (text_fine ..)) fun _ => .ite (fun _ => wrap_fine (url_fine ..)) fun _ => ?_
  exact .ite (fun _ => wrap1_fine (pop_fine ..)) fun _ => .ok (Nat.zero_le _)

/-! ## Frames -/

theorem entries_fine : ∀ (n : Nat) (r : Bytes), Fine D (readEntries n r) (Len r) := by
  intro n
  induction n with
  | zero => intro r; exact .ok (Nat.le_refl _)
  | succ n ih =>
    intro r
    unfold readEntries
    exact .bind (term_fine ..) fun a ha => .bind (ih a.2) fun b hb => .ok (by simp only [Len] at hb ⊢; omega)

/-- What is assumed of the reader of the frames inside a chapter, for contents of up to `N` bytes. -/
def Inner (D : Prop) (rc : Bytes → Except Err (List Frame × Bytes)) (N : Nat) : Prop := ∀ x : Bytes, x.length ≤ N → Fine D (rc x) (Len x)

theorem Inner.mono {rc : Bytes → Except Err (List Frame × Bytes)} {M N : Nat} (h : Inner D rc N) (hm : M ≤ N) : Inner D rc M :=
  fun x hx => h x (Nat.le_trans hx hm)

variable {rc : Bytes → Except Err (List Frame × Bytes)}

theorem content_fine (o : ParseOpts) (v : Version) (id : FrameId) (fl : FrameFlags) (r : Bytes) (hr : Inner D rc r.length) :
    Fine D (parseContent rc o v id fl r) (Len r) := by
  unfold parseContent
  refine .ite (fun _ => ?_) fun _ => .ite (fun _ => ?_) fun _ => (leaf_fine ..).map fun _ h => h
  · refine Fine.map (P := Len r) ?_ fun _ h => h
    unfold parseChapter
    refine .ite (fun _ => .err) fun _ => ?_
    exact .bind (term_fine ..) fun a ha => .bind (readBE_fine ..) fun b hb => .bind (readBE_fine ..) fun c hc => .bind (readBE_fine ..) fun d hd =>
      .bind (readBE_fine ..) fun e he => .bind (hr e.2 (by omega)) fun f hf => .ok (by simp only [Len] at hf ⊢; omega)
  · refine Fine.map (P := Len r) ?_ fun _ h => h
    unfold parseToc
    refine .ite (fun _ => .err) fun _ => ?_
    exact .bind (term_fine ..) fun a ha => .bind (readU8_fine _) fun b hb => .bind (readU8_fine _) fun c hc => .bind (entries_fine ..) fun d hd =>
      .bind (hr d.2 (by simp only [Len] at hd; omega)) fun f hf => .ok (by simp only [Len] at hf hd ⊢; omega)

/-- What is behind a parsed frame. -/
def behind : Parsed → Bytes
  | .next _ r => r
  | .skip r => r
  | .eof r => r

theorem leftover_length (fl : FrameFlags) (left after : Bytes) : (leftover fl left after).length ≤ (if fl.unsync || fl.compression then 0 else left.length) + after.length := by
  unfold leftover
  split <;> simp

theorem frame_fine (o : ParseOpts) (v : Version) (id : FrameId) (fl : FrameFlags) (c after : Bytes) (hr : Inner D rc c.length) :
    Fine D (parseFrame rc o v id fl c after) (fun p => (behind p).length ≤ (if fl.unsync || fl.compression then 0 else c.length) + after.length) := by
  unfold parseFrame
  refine (content_fine o v id fl c hr).map fun p hp => ?_
  cases p.1 with
  | none => exact Nat.le_add_left _ _
  | some f =>
    refine Nat.le_trans (leftover_length fl p.2 after) (Nat.add_le_add_right ?_ _)
    split
    · exact Nat.le_refl _
    · exact hp

theorem desync_length : ∀ b : Bytes, (desync b).length ≤ b.length
  | [] => Nat.le_refl _
  | [_] => Nat.le_refl _
  | a :: b :: r => by
    have h1 := desync_length r
    have h2 := desync_length (b :: r)
    rw [desync]
    split <;> simp only [List.length_cons] at * <;> omega

/-- Decompression never makes anything longer (it is not available, for example). -/
def NoGrow (o : ParseOpts) : Prop := ∀ c d, o.inflate c = some d → d.length ≤ c.length

theorem body_fine (o : ParseOpts) (v : Version) (id : FrameId) (fl : FrameFlags) (size : Nat) (r : Bytes) {N : Nat} (hN : r.length < N)
    (hr : ∀ x : Bytes, (NoGrow o → x.length < N) → Inner D rc x.length) :
    Fine D (readBody rc o v id fl size r) (fun p => (behind p).length ≤ r.length) := by
  unfold readBody
  refine .ite (fun _ => .err) fun _ => ?_
  dsimp only
  have hc : (if fl.unsync then desync (r.take size) else r.take size).length ≤ (r.take size).length := by
    split
    · exact desync_length _
    · exact Nat.le_refl _
  have ht : (r.take size).length + (r.drop size).length = r.length := by simp only [List.length_take, List.length_drop]; omega
  generalize (if fl.unsync then desync (r.take size) else r.take size) = c at hc
  refine .bind (P := fun d => (fl.compression = false → d = c) ∧ (NoGrow o → d.length ≤ c.length)) ?_ fun d hd => ?_
  · unfold handleCompression
    refine .ite (fun hf => ?_) fun _ => .ok ⟨fun _ => rfl, fun _ => Nat.le_refl _⟩
    cases hi : o.inflate c with
    | none => exact .err
    | some d => exact .ok ⟨fun h => absurd (h.symm.trans hf) Bool.false_ne_true, fun h => h c d hi⟩
  · have key : (if fl.unsync || fl.compression then 0 else d.length) + (r.drop size).length ≤ r.length := by
      split
      · omega
      · rename_i h
        have : fl.compression = false := by
          cases hcc : fl.compression
          · rfl
          · rw [hcc, Bool.or_true] at h; exact absurd rfl h
        rw [hd.1 this]
        omega
    refine .ite (fun _ => ?_) fun _ => ?_
    · unfold handleEncryption
      refine .ite (fun _ => .err) fun _ => (readN_fine ..).map fun x hx => ?_
      refine Nat.le_trans (leftover_length ..) (Nat.le_trans (Nat.add_le_add_right ?_ _) key)
      split
      · exact Nat.le_refl _
      · omega
    · exact (frame_fine o v id fl d _ (hr d fun h => by have := hd.2 h; omega)).imp fun p hp => Nat.le_trans hp key

theorem flagData_fine (fl : FrameFlags) (size : Nat) (r : Bytes) : Fine D (flagData fl size r) (fun a => a.2.2.length ≤ r.length) := by
  unfold flagData
  refine .bind (P := fun a => a.2.2.length ≤ r.length) ?_ ?_
  · unfold flagData.encryptionSymbol
    exact .ite (fun _ => .ite (fun _ => .err) fun _ => (readU8_fine r).map fun x hx => by dsimp only; omega) fun _ => .ok (Nat.le_refl _)
  rintro ⟨f, s, x⟩ ha
  refine .bind (P := fun b => b.2.2.length ≤ r.length) ?_ ?_
  · unfold flagData.groupIdentifier
    exact .ite (fun _ => .ite (fun _ => .err) fun _ => (readU8_fine _).map fun x hx => by dsimp only at ha ⊢; omega) fun _ => .ok ha
  rintro ⟨f, s, x⟩ hb
  unfold flagData.dataLengthIndicator
  exact .ite (fun _ => .ite (fun _ => .err) fun _ => (readBE_fine ..).map fun x hx => by dsimp only at hb ⊢; omega) fun _ => .ok hb

theorem known_fine (o : ParseOpts) (v : Version) (u : Bool) (id : FrameId) (fl : FrameFlags) (size : Nat) (r : Bytes) {N : Nat} (hN : r.length < N)
    (hr : ∀ x : Bytes, (NoGrow o → x.length < N) → Inner D rc x.length) :
    Fine D (readKnown rc o v u id fl size r) (fun p => (behind p).length ≤ r.length) := by
  unfold readKnown
  refine .ite (fun _ => .ok (by simp only [behind, List.length_drop]; omega)) fun _ => ?_
  dsimp only
  refine .ite (fun _ => .ite (fun _ => .err) fun _ => .ok (Nat.le_refl _)) fun _ => ?_
  exact .bind (flagData_fine ..) fun a ha => (body_fine o v id a.1 a.2.1 a.2.2 (N := N) (by omega) hr).imp fun p hp => by omega

/-- What a header leaves. -/
theorem header_length (v : Version) (i : Bool) (r : Bytes) :
    (∀ id fl size rest, parseFrameHeader v i r = .frame id fl size rest → rest.length < r.length) ∧
    (∀ size rest, parseFrameHeader v i r = .bad size rest → rest.length < r.length) := by
  have key : ∀ (x : Except Err FrameId) (fl : FrameFlags) (n : Nat) (l : Bytes), l.length < r.length →
      (∀ id fl' size rest, FrameHeader.ofId x fl n l = .frame id fl' size rest → rest.length < r.length) ∧
      (∀ size rest, FrameHeader.ofId x fl n l = .bad size rest → rest.length < r.length) := by
    intro x fl n l h
    cases x with
    | error e => exact ⟨fun _ _ _ _ h => (by cases h), fun _ _ h' => (by cases h'; exact h)⟩
    | ok id => exact ⟨fun _ _ _ _ h' => (by cases h'; exact h), fun _ _ h => (by cases h)⟩
  have none : (∀ id fl size rest, FrameHeader.none = .frame id fl size rest → rest.length < r.length) ∧
      (∀ size rest, FrameHeader.none = .bad size rest → rest.length < r.length) := ⟨fun _ _ _ _ h => (by cases h), fun _ _ h => (by cases h)⟩
  have k34 : ∀ s, (∀ id fl size rest, parseHeaderV34 s i r = .frame id fl size rest → rest.length < r.length) ∧
      (∀ size rest, parseHeaderV34 s i r = .bad size rest → rest.length < r.length) := by
    intro s
    unfold parseHeaderV34
    split
    · split
      · exact none
      · exact key _ _ _ _ (by simp only [List.length_cons]; omega)
    · exact none
  cases v with
  | v2 =>
    show (∀ id fl size rest, parseHeaderV2 r = .frame id fl size rest → rest.length < r.length) ∧ (∀ size rest, parseHeaderV2 r = .bad size rest → rest.length < r.length)
    unfold parseHeaderV2
    split
    · split
      · exact none
      · exact key _ _ _ _ (by simp only [List.length_cons]; omega)
    · exact none
  | v3 => exact k34 false
  | v4 => exact k34 true

theorem read_fine (o : ParseOpts) (v : Version) (u : Bool) (r : Bytes) {N : Nat} (hN : r.length ≤ N)
    (hr : ∀ x : Bytes, (NoGrow o → x.length < N) → Inner D rc x.length) :
    Fine D (readFrame rc o v u r) (fun p => (behind p).length ≤ r.length ∧ ((∀ x, p ≠ .eof x) → (behind p).length < r.length)) := by
  unfold readFrame
  have h := header_length v o.implicit r
  revert h
  cases parseFrameHeader v o.implicit r with
  | none => intro _; exact .ok ⟨by simp only [behind, List.length_drop]; omega, fun h => absurd rfl (h _)⟩
  | bad size rest =>
    intro h
    have := h.2 size rest rfl
    exact .ite (fun _ => .err) fun _ => .ok ⟨by simp only [behind, List.length_drop]; omega, fun _ => by simp only [behind, List.length_drop]; omega⟩
  | frame id fl size rest =>
    intro h
    have := h.1 id fl size rest rfl
    exact (known_fine o v u id fl size rest (N := N) (by omega) hr).imp fun p hp => ⟨by omega, fun _ => by omega⟩

theorem loop_fine (o : ParseOpts) (v : Version) (u : Bool) {N : Nat} (hr : ∀ x : Bytes, (NoGrow o → x.length < N) → Inner D rc x.length) :
    ∀ (n : Nat) (r : Bytes) (l : List Frame), r.length < n → r.length ≤ N → Fine D (readLoop rc o v u n r l) (Len r) := by
  intro n
  induction n with
  | zero => intro r l h; omega
  | succ n ih =>
    intro r l h hN
    unfold readLoop
    have h1 := read_fine o v u r hN hr
    revert h1
    cases readFrame rc o v u r with
    | error e => intro h1; exact ⟨fun e' he => by cases he; exact h1.safe e rfl, fun _ h => by cases h⟩
    | ok p =>
      intro h1
      have h2 := h1.gives p rfl
      cases p with
      | eof rest => exact .ok h2.1
      | skip rest =>
        have h3 : rest.length < r.length := h2.2 fun x hx => by cases hx
        exact (ih rest l (by omega) (by omega)).imp fun a ha => by simp only [Len] at ha ⊢; omega
      | next f rest =>
        have h3 : rest.length < r.length := h2.2 fun x hx => by cases hx
        exact (ih rest _ (by omega) (by omega)).imp fun a ha => by simp only [Len] at ha ⊢; omega

/-- All frames: no panic; endless nesting only with compressed chapters that expand, or if the levels do not suffice. -/
theorem readAll_fine (o : ParseOpts) (v : Version) : ∀ (d : Nat) (u : Bool) (r : Bytes), Fine (¬ NoGrow o ∨ d ≤ r.length) (readAll o v d u r) (Len r) := by
  intro d
  induction d with
  | zero => intro u r; exact ⟨fun e he => by cases he; exact ⟨by decide, fun _ => .inr (Nat.zero_le _)⟩, fun _ h => by cases h⟩
  | succ d ih =>
    intro u r
    unfold readAll
    refine loop_fine o v u (N := r.length) (fun x hx y hy => (ih false y).weak ?_) _ r [] (Nat.lt_succ_self _) (by omega)
    rintro (h | h)
    · exact .inl h
    · by_cases hg : NoGrow o
      · have := hx hg
        right
        omega
      · exact .inl hg

theorem parseTag_fine (o : ParseOpts) (v : Version) (u : Bool) (d : Nat) (b : Bytes) : Fine (¬ NoGrow o ∨ d ≤ b.length) (parseTag o v u d b) (fun _ => True) := by
  unfold parseTag
  refine .bind ((readAll_fine o v d u _).weak ?_) fun _ _ => .ok trivial
  rintro (h | h)
  · exact .inl h
  · right
    refine Nat.le_trans h ?_
    split
    · exact desync_length b
    · exact Nat.le_refl _

end Lofty.Safe
