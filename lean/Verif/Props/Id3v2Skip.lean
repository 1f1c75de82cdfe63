import Verif.Props.Id3v2List
import Verif.Props.Id3v2Tag
import Verif.Lemmas.Synchsafe
/-!
# Frames of an ID3v2 tag that are not kept, and unsynchronised tags (C28)

The companion of `Props/Id3v2Tag`: which bytes the reader passes over when it skips a frame, which of two equal frames
stays, and what the unsynchronisation mark of a tag does.
-/
namespace Lofty.Id3v2
open Lofty.Text (Encoding)
open Lofty.Synchsafe (desync unsyncWith)

/-- A byte that may occur in a frame id. -/
def IdByte (y : UInt8) : Prop := (65 ≤ y.toNat ∧ y.toNat ≤ 90) ∨ (48 ≤ y.toNat ∧ y.toNat ≤ 57)

instance (y : UInt8) : Decidable (IdByte y) := by unfold IdByte; infer_instance

theorem trimEndNulls_append (t : Str) : ∃ n, t = Text.trimEndNulls t ++ List.replicate n '\x00' := by
  unfold Text.trimEndNulls
  generalize hr : t.reverse = r
  have ht : t = r.reverse := by rw [← hr]; simp
  rw [ht]
  clear hr ht
  induction r with
  | nil => exact ⟨0, by simp⟩
  | cons c r ih =>
    obtain ⟨n, hn⟩ := ih
    by_cases hc : c = '\x00'
    · refine ⟨n + 1, ?_⟩
      rw [List.dropWhile_cons_of_pos (by simpa using hc), List.reverse_cons, hc, List.replicate_succ', ← List.append_assoc, ← hn]
    · exact ⟨0, by rw [List.dropWhile_cons_of_neg (by simpa using hc)]; simp⟩

theorem idByte_of_idChar {c : Char} (h : idChar c = true) : ∀ y ∈ utf8 [c], IdByte y := by
  have e1 : 'A'.toNat = 65 := by decide
  have e2 : 'Z'.toNat = 90 := by decide
  have e3 : '0'.toNat = 48 := by decide
  have e4 : '9'.toNat = 57 := by decide
  have hr := idChar_range h
  have hu : utf8 [c] = [UInt8.ofNat c.toNat] := by
    have := utf8_ascii (t := [c]) (by intro x hx; simp only [List.mem_singleton] at hx; subst hx; omega)
    simpa using this
  rw [hu]
  intro y hy
  simp only [List.mem_singleton] at hy
  subst hy
  unfold idChar at h
  simp only [Bool.or_eq_true, Bool.and_eq_true, decide_eq_true_eq, e1, e2, e3, e4] at h
  unfold IdByte
  have : (UInt8.ofNat c.toNat).toNat = c.toNat := by
    simp only [UInt8.toNat_ofNat']; omega
  omega

theorem decoded_ids {bs : Bytes} {s : Str} (h : Text.utf8Decode bs = .ok s) (hs : s.all idChar = true) :
    ∀ y ∈ bs, y = 0 ∨ IdByte y := by
  unfold Text.utf8Decode at h
  split at h
  · rename_i t ht
    simp only [Except.ok.injEq] at h
    subst h
    obtain ⟨n, hn⟩ := trimEndNulls_append t
    have hb := utf8_fromUtf8 ht
    intro y hy
    rw [← hb, hn, utf8_append, List.mem_append] at hy
    rcases hy with hy | hy
    · right
      rw [utf8, List.mem_flatMap] at hy
      obtain ⟨c, hc, hy⟩ := hy
      exact idByte_of_idChar (List.all_eq_true.mp hs c hc) y (by simpa [utf8] using hy)
    · left
      rw [utf8, List.mem_flatMap] at hy
      obtain ⟨c, hc, hy⟩ := hy
      rw [(List.mem_replicate.mp hc).2] at hy
      revert hy
      have : String.utf8EncodeChar '\x00' = [0] := by decide
      rw [this]
      simp
  · cases h

theorem v2_keys_ids {s t : Str} (h : upgradeV2 s = some t) : s.all idChar = true := by
  unfold upgradeV2 lookupKey at h
  obtain ⟨p, hp, _⟩ := Option.map_eq_some_iff.mp h
  have h1 := List.find?_some hp
  have h2 := List.mem_of_find?_eq_some hp
  have key : ∀ p ∈ v2Keys, p.1.toList.all idChar = true := by decide +kernel
  rw [← (beq_iff_eq.mp h1)]
  exact key p h2

theorem v3_keys_ids {s t : Str} (h : upgradeV3 s = some t) : s.all idChar = true := by
  unfold upgradeV3 lookupKey at h
  obtain ⟨p, hp, _⟩ := Option.map_eq_some_iff.mp h
  have h1 := List.find?_some hp
  have h2 := List.mem_of_find?_eq_some hp
  have key : ∀ p ∈ v3Keys, p.1.toList.all idChar = true := by decide +kernel
  rw [← (beq_iff_eq.mp h1)]
  exact key p h2

theorem new_bad {s : Str} (h : s.all idChar ≠ true) : FrameId.new s = .error .parse := by
  unfold FrameId.new
  rw [if_pos (by simpa using h)]

theorem idV34_bad (synchsafe implicit : Bool) {a b c d : UInt8} (hb : ∃ y ∈ [a, b, c, d], y ≠ 0 ∧ ¬ IdByte y) :
    ∃ e, idV34 synchsafe implicit a b c d = .error e := by
  obtain ⟨y, hy, h0, hn⟩ := hb
  unfold idV34
  split
  · rename_i hd
    have hy3 : y ∈ [a, b, c] := by
      simp only [List.mem_cons, List.not_mem_nil, or_false] at hy ⊢
      rcases hy with rfl | rfl | rfl | rfl
      · simp
      · simp
      · simp
      · exact absurd hd.1 h0
    split
    · rename_i s hs
      have hall : s.all idChar ≠ true := fun h => (decoded_ids hs h y hy3).elim h0 hn
      cases hu : upgradeV2 s with
      | some t => exact absurd (v2_keys_ids hu) hall
      | none => exact ⟨_, new_bad hall⟩
    · exact ⟨_, rfl⟩
  · split
    · rename_i s hs
      have hall : s.all idChar ≠ true := fun h => (decoded_ids hs h y hy).elim h0 hn
      cases hu : upgradeV3 s with
      | some t => exact absurd (v3_keys_ids hu) hall
      | none =>
        refine ⟨.parse, ?_⟩
        have : (if synchsafe = false ∧ implicit = true then (none : Option Str).getD s else s) = s := by split <;> rfl
        rw [this]
        exact new_bad hall
    · exact ⟨_, rfl⟩

/-- **Frames with a name that is none** (some byte of the four is no capital letter or digit): with the strict parsing
mode the tag is rejected, otherwise exactly the header and the number of bytes it announces are passed over. -/
theorem bad_id_skipped (rc : Bytes → Except Err (List Frame × Bytes)) (o : ParseOpts) (v : Version) (hv : v ≠ .v2) (u : Bool)
    {a b c d : UInt8} (s1 s2 s3 s4 f1 f2 : UInt8) (r : Bytes) (ha : a ≠ 0) (hb : ∃ y ∈ [a, b, c, d], y ≠ 0 ∧ ¬ IdByte y) :
    readFrame rc o v u (a :: b :: c :: d :: s1 :: s2 :: s3 :: s4 :: f1 :: f2 :: r) =
      if o.mode = .strict then .error .parse
      else .ok (.skip (r.drop (if v = .v4 then unsynch (fromBE [s1, s2, s3, s4]) else fromBE [s1, s2, s3, s4]))) := by
  unfold readFrame
  cases v with
  | v2 => exact absurd rfl hv
  | v3 =>
    obtain ⟨e, he⟩ := idV34_bad false o.implicit hb
    simp only [parseFrameHeader, parseHeaderV34, if_neg ha, he, FrameHeader.ofId]
    simp
  | v4 =>
    obtain ⟨e, he⟩ := idV34_bad true o.implicit hb
    simp only [parseFrameHeader, parseHeaderV34, if_neg ha, he, FrameHeader.ofId]

example : readFrame (fun r => .ok ([], r)) ⟨.bestAttempt, true, true, fun _ => none⟩ .v4 false (ascii "tit2" ++ [0, 0, 0, 3, 0, 0] ++ [9, 9, 9, 7]) = .ok (.skip [7]) := rfl
example : ∃ y ∈ ascii "TIt2", y ≠ 0 ∧ ¬ IdByte y := ⟨0x74, by decide, by decide, by decide⟩

/-- **Pictures that are not wanted** are passed over, header and content. -/
theorem cover_skipped (rc : Bytes → Except Err (List Frame × Bytes)) (o : WriteOpts) (po : ParseOpts) (u : Bool)
    {flags : FrameFlags} {value b : Bytes} (rest : Bytes) (hp : PlainFlags flags) (hlen : value.length + 1 < 2 ^ 32)
    (hc : po.readCover = false) (hw : writeFrame o (str "APIC") flags value = .ok b) :
    readFrame rc po o.version u (b ++ rest) = .ok (.skip rest) := by
  have hid : IdOk (str "APIC") := by decide
  have hk : IdKept o.v23 po.implicit (str "APIC") := by intro _ _; decide
  have key : ∀ (h c : Bytes), writeFrameHeader o.v23 (str "APIC") c.length flags = .ok h → c.length < 2 ^ 32 →
      readFrame rc po o.version u (h ++ c ++ rest) = .ok (.skip rest) := by
    intro h c hh hl
    unfold readFrame
    rw [List.append_assoc, header_rt o po.implicit _ hid hk hl hp hh]
    simp only [readKnown]
    rw [if_pos ⟨hc, trivial⟩, List.drop_left' rfl]
  unfold writeFrame at hw
  rw [hp.2.1] at hw
  simp only [Nat.mod_eq_of_lt (Nat.lt_of_succ_lt hlen)] at hw
  cases hg : flags.grouping with
  | none =>
    rw [hg] at hw
    simp only at hw
    obtain ⟨h, hh, h2⟩ := bind_ok hw
    cases h2
    exact key h value hh (by omega)
  | some g =>
    rw [hg] at hw
    simp only at hw
    rw [if_neg (by omega)] at hw
    obtain ⟨h, hh, h2⟩ := bind_ok hw
    cases h2
    have := key h (g :: value) (by simpa using hh) (by simpa using hlen)
    simpa using this

/-- **Frames of no content**: with the strict parsing mode the tag is rejected, otherwise exactly the header is passed
over. -/
theorem empty_skipped (rc : Bytes → Except Err (List Frame × Bytes)) (o : WriteOpts) (po : ParseOpts) (u : Bool) {name : Str}
    {flags : FrameFlags} {h : Bytes} (rest : Bytes)
    (hid : IdOk name) (hk : IdKept o.v23 po.implicit name) (hp : PlainFlags flags)
    (hc : po.readCover = true ∨ name ≠ str "APIC") (hw : writeFrameHeader o.v23 name 0 flags = .ok h) :
    readFrame rc po o.version u (h ++ rest) = if po.mode = .strict then .error .parse else .ok (.skip rest) := by
  unfold readFrame
  rw [header_rt o po.implicit _ hid hk (by decide) hp hw]
  simp only [readKnown]
  have hcov : ¬ (po.readCover = false ∧ FrameId.valid name = .valid (str "APIC")) := by
    rintro ⟨h1, h2⟩
    rcases hc with hc | hc
    · rw [h1] at hc; cases hc
    · exact hc (FrameId.valid.inj h2)
  rw [if_neg hcov]
  simp

example : readFrame (fun r => .ok ([], r)) ⟨.bestAttempt, true, true, fun _ => none⟩ .v4 false (ascii "TIT2" ++ [0, 0, 0, 0, 0, 0, 7]) = .ok (.skip [7]) := rfl

/-- **A frame whose content is not understood** is passed over entirely: whenever the reader skips a frame, it goes on
with what was written behind it. -/
theorem skipped_consumed (rc : Bytes → Except Err (List Frame × Bytes)) (o : WriteOpts) (po : ParseOpts) {name : Str}
    {flags : FrameFlags} {value b : Bytes} (rest rest' : Bytes)
    (hid : IdOk name) (hk : IdKept o.v23 po.implicit name) (hp : PlainFlags flags) (hne : value ≠ [])
    (hlen : value.length < 2 ^ 32) (hc : po.readCover = true ∨ name ≠ str "APIC") (hw : writeFrame o name flags value = .ok b)
    (hs : readFrame rc po o.version false (b ++ rest) = .ok (.skip rest')) : rest' = rest := by
  rw [readFrame_writeFrame rc o po rest hid hk hp hne hlen hc hw] at hs
  unfold parseFrame at hs
  cases hpc : parseContent rc po o.version (.valid name) flags value with
  | error e => rw [hpc] at hs; cases hs
  | ok p =>
    rw [hpc] at hs
    obtain ⟨f, l⟩ := p
    cases f with
    | none => simpa [Except.map] using hs.symm
    | some f => simp [Except.map] at hs

/-- A relaxed reader skips a date it cannot read, with all its bytes. -/
example : readFrame (fun r => .ok ([], r)) ⟨.relaxed, true, true, fun _ => none⟩ .v4 false
    (ascii "TDRC" ++ [0, 0, 0, 5, 0, 0] ++ [3] ++ ascii "abcd" ++ [7]) = .ok (.skip [7]) := rfl

/-! ## Equal frames -/

/-- **Two equal frames**: when a frame is read that counts as the same as an earlier one, the later one is kept, at the end
of the list, unless it is empty and the earlier one is not. -/
theorem addFrame_spec {l : List Frame} (hd : Distinct l) (f : Frame) (hf : f.id.asStr ∉ onceIds.map String.toList)
    (hpic : picTypeOf f = none) :
    ((∀ g ∈ l, ¬ Same g f) ∧ addFrame l f = l ++ [f])
    ∨ ∃ a g b, l = a ++ g :: b ∧ Same g f ∧
        addFrame l f = a ++ b ++ [if f.isEmpty = some true ∧ g.isEmpty = some false then g else f] := by
  rcases insert_spec l f hf with ⟨h1, h2⟩ | ⟨a, g, b, h1, h2, h3, h4⟩
  · left
    refine ⟨h1, ?_⟩
    unfold addFrame
    rw [h2]
  · right
    refine ⟨a, g, b, h1, h3, ?_⟩
    unfold addFrame
    rw [h4]
    simp only
    by_cases he : f.isEmpty = some true ∧ g.isEmpty = some false
    · rw [if_pos he, if_pos he]
      have hgid : g.id.asStr ∉ onceIds.map String.toList := by rw [same_id h3]; exact hf
      have hgp : picTypeOf g = none := same_picType (same_symm h3) hpic
      have hno : ∀ x ∈ a ++ b, ¬ Same x g := by
        intro x hx
        rw [h1, Distinct, List.pairwise_append, List.pairwise_cons] at hd
        rcases List.mem_append.mp hx with hx | hx
        · intro hs
          exact hd.2.2 x hx g (by simp) (same_picType (same_symm hs) hgp) hs
        · intro hs
          exact hd.2.1.1 x hx hgp (same_symm hs)
      rcases insert_spec (a ++ b ++ [f]) g hgid with ⟨k1, k2⟩ | ⟨a', g', b', k1, k2, k3, k4⟩
      · exact absurd (same_symm h3) (k1 f (by simp))
      · rw [k4]
        have hb' : a' = a ++ b ∧ g' = f ∧ b' = [] := by
          have hmem : g' ∉ a ++ b := fun hm => hno g' hm k3
          have : ∀ (x y : List Frame) , x ++ [f] = a' ++ g' :: b' → g' ∉ x → a' = x ∧ g' = f ∧ b' = [] := by
            intro x y hxy hnx
            rcases List.eq_nil_or_concat b' with rfl | ⟨b'', z, rfl⟩
            · have := List.append_inj' hxy rfl
              exact ⟨this.1.symm, by simpa using this.2.symm, rfl⟩
            · exfalso
              have e : x ++ [f] = (a' ++ g' :: b'') ++ [z] := by simpa using hxy
              have := (List.append_inj' e rfl).1
              exact hnx (by rw [this]; simp)
          exact this (a ++ b) [] k1 hmem
        obtain ⟨rfl, rfl, rfl⟩ := hb'
        simp
    · rw [if_neg he, if_neg he]

/-- An empty repetition is ignored; another one replaces the first; an empty frame does not keep another empty one. -/
example :
    let t (v : String) : Frame := .leaf {} (.text ⟨.valid (str "TIT2"), .utf8, str v⟩)
    addFrame [t "a"] (t "") = [t "a"] ∧ addFrame [t "a"] (t "b") = [t "b"] := ⟨rfl, rfl⟩
example :
    let t (e : Encoding) : Frame := .leaf {} (.text ⟨.valid (str "TIT2"), e, []⟩)
    addFrame [t .utf8] (t .latin1) = [t .latin1] := rfl

/-! ## Unsynchronised tags -/

theorem readKnown_not_v4 (rc : Bytes → Except Err (List Frame × Bytes)) (o : ParseOpts) {v : Version} (hv : v ≠ .v4) (u : Bool)
    (id : FrameId) (flags : FrameFlags) (size : Nat) (r : Bytes) :
    readKnown rc o v u id flags size r = readKnown rc o v false id flags size r := by
  unfold readKnown
  have : (v == Version.v4) = false := by cases v <;> first | rfl | exact absurd rfl hv
  rw [this]
  simp

theorem readFrame_not_v4 (rc : Bytes → Except Err (List Frame × Bytes)) (o : ParseOpts) {v : Version} (hv : v ≠ .v4) (u : Bool)
    (r : Bytes) : readFrame rc o v u r = readFrame rc o v false r := by
  unfold readFrame
  cases parseFrameHeader v o.implicit r with
  | none => rfl
  | bad => rfl
  | frame id flags size rest => exact readKnown_not_v4 rc o hv u id flags size rest

theorem readLoop_not_v4 (rc : Bytes → Except Err (List Frame × Bytes)) (o : ParseOpts) {v : Version} (hv : v ≠ .v4) (u : Bool)
    (n : Nat) : ∀ (r : Bytes) (l : List Frame), readLoop rc o v u n r l = readLoop rc o v false n r l := by
  induction n with
  | zero => intros; rfl
  | succ n ih =>
    intro r l
    unfold readLoop
    rw [readFrame_not_v4 rc o hv u r]
    simp only [ih]

/-- **Unsynchronised tags of ID3v2.2 and ID3v2.3**: putting zero bytes behind any choice of `0xFF` bytes that includes those
followed by a zero byte, and marking the tag, changes nothing about what is read. -/
theorem unsync_tag_v3 (o : ParseOpts) {v : Version} (hv : v ≠ .v4) (depth : Nat) (needs : Bytes → Bool)
    (h0 : ∀ r, needs (0 :: r) = true) (body : Bytes) :
    parseTag o v true depth (unsyncWith needs body) = parseTag o v false depth body := by
  have hb : (v != Version.v4) = true := by cases v <;> first | rfl | exact absurd rfl hv
  unfold parseTag
  rw [hb]
  simp only [Bool.and_self, if_true, Bool.false_and, Bool.false_eq_true, if_false]
  rw [Synchsafe.desync_unsyncWith needs body h0]
  cases depth with
  | zero => rfl
  | succ d =>
    unfold readAll
    rw [readLoop_not_v4 _ o hv true]

example : ∀ r, Synchsafe.id3Rule (0 :: r) = true := by intro r; rfl

/-- **Unsynchronised tags of ID3v2.4** have each frame unsynchronised by itself: a frame with its content changed in that
way, and the changed length in its header, is read from the marked tag like the unchanged content. -/
theorem unsync_frame_v4 (rc : Bytes → Except Err (List Frame × Bytes)) (o : WriteOpts) (hv : o.v23 = false) (po : ParseOpts)
    {name : Str} {flags : FrameFlags} {h value : Bytes} (rest : Bytes) (needs : Bytes → Bool) (h0 : ∀ r, needs (0 :: r) = true)
    (hid : IdOk name) (hp : PlainFlags flags) (hg : flags.grouping = none) (hne : value ≠ [])
    (hlen : (unsyncWith needs value).length < 2 ^ 32) (hc : po.readCover = true ∨ name ≠ str "APIC")
    (hw : writeFrameHeader false name (unsyncWith needs value).length flags = .ok h) :
    readFrame rc po .v4 true (h ++ unsyncWith needs value ++ rest)
      = parseFrame rc po .v4 (.valid name) { flags with unsync := true } value rest := by
  have hver : o.version = .v4 := by unfold WriteOpts.version; rw [hv]; rfl
  have hpos : 0 < (unsyncWith needs value).length := by
    cases value with
    | nil => exact absurd rfl hne
    | cons b r => unfold unsyncWith; split <;> simp
  unfold readFrame
  have hh := header_rt o po.implicit (unsyncWith needs value ++ rest) hid (by intro h; rw [hv] at h; cases h) hlen hp (by rw [hv]; exact hw)
  rw [hver] at hh
  rw [List.append_assoc, hh]
  simp only [readKnown]
  have hcov : ¬ (po.readCover = false ∧ FrameId.valid name = .valid (str "APIC")) := by
    rintro ⟨h1, h2⟩
    rcases hc with hc | hc
    · rw [h1] at hc; cases hc
    · exact hc (FrameId.valid.inj h2)
  rw [if_neg hcov, if_neg (by omega)]
  obtain ⟨a, b, c, gr, k, e, u, d⟩ := flags
  obtain ⟨rfl, rfl, rfl, rfl⟩ := hp
  simp only at hg
  subst hg
  simp [flagData, flagData.encryptionSymbol, flagData.groupIdentifier, flagData.dataLengthIndicator, FrameFlags.kinds, ok_bind,
    readBody, handleCompression, Nat.ne_of_gt hpos, Synchsafe.desync_unsyncWith needs value h0]

/-- The frames inside a chapter were changed with the chapter, once: they are not changed back twice.  The inner title is
`ÿ`, a zero byte and `a`. -/
theorem chapter_unsync_once (o : ParseOpts) :
    parseTag { o with readCover := true, implicit := false, mode := .bestAttempt } .v4 true 3
      (ascii "CHAP" ++ [0, 0, 0, 33, 0, 0] ++ ascii "c" ++ [0] ++ [0, 0, 0, 0, 0, 0, 0, 0, 0, 0, 0, 0, 0, 0, 0, 0] ++
        (ascii "TIT2" ++ [0, 0, 0, 4, 0, 0] ++ [0, 0xFF, 0, 0, 0x61]))
      = .ok [.chapter { unsync := true } (str "c") (0, 0) (0, 0) [.leaf {} (.text ⟨.valid (str "TIT2"), .latin1, ['ÿ', '\x00', 'a']⟩)]] := by
  rfl

end Lofty.Id3v2
