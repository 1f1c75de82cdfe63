import Verif.Model.Opened
import Verif.Model.Mp4Props
import Verif.Props.TagFiles
import Verif.Props.EndToEnd
/-!
# C70: a file that is read in strict mode is read alike in the other modes
-/
namespace Lofty.Modes
open Lofty.Opened

/-- What the one gives, the other gives too. -/
structure Le {α : Type} (x y : Except Err α) : Prop where
  gives : ∀ a, x = .ok a → y = .ok a

theorem Le.refl {α : Type} (x : Except Err α) : Le x x := ⟨fun _ h => h⟩

theorem Le.err {α : Type} {e : Err} {y : Except Err α} : Le (.error e) y := ⟨fun _ h => by cases h⟩

theorem Le.bind {α β : Type} {x y : Except Err α} {f g : α → Except Err β} (h : Le x y) (hf : ∀ a, Le (f a) (g a)) : Le (x >>= f) (y >>= g) := by
  refine ⟨fun b hb => ?_⟩
  cases x with
  | error e => cases hb
  | ok a =>
    rw [h.gives a rfl]
    exact (hf a).gives b hb

theorem Le.map {α β : Type} {x y : Except Err α} {f : α → β} (h : Le x y) : Le (x.map f) (y.map f) := by
  refine ⟨fun b hb => ?_⟩
  cases x with
  | error e => cases hb
  | ok a =>
    rw [h.gives a rfl]
    exact hb

theorem Le.ite {α : Type} {c : Prop} [Decidable c] {a a' b b' : Except Err α} (h1 : c → Le a a') (h2 : ¬ c → Le b b') :
    Le (if c then a else b) (if c then a' else b') := by
  by_cases hc : c
  · rw [if_pos hc, if_pos hc]; exact h1 hc
  · rw [if_neg hc, if_neg hc]; exact h2 hc

/-- What is an error in strict mode is no matter. -/
theorem Le.strict {α : Type} {e : Err} {a b : Except Err α} : Le (if Mode.strict = Mode.strict then .error e else a) b := by
  rw [if_pos rfl]; exact .err

theorem Le.strictV {α : Type} {e : Err} {a b : Except Err α} : Le (if Vorbis.Mode.strict = Vorbis.Mode.strict then .error e else a) b := by
  rw [if_pos rfl]; exact .err

theorem Le.strictB {α : Type} {e : Err} {a b : Except Err α} : Le (if true = true then .error e else a) b := by
  rw [if_pos rfl]; exact .err

/-! ## Timestamps -/

section
open Timestamp

theorem segLoop_le (hasSep : Bool) (m : Mode) : ∀ (b : Bytes) (num : Option Nat) (count : Nat),
    Le (segLoop hasSep .strict b num count) (segLoop hasSep m b num count) := by
  intro b
  induction b with
  | nil => intro num count; exact .refl _
  | cons i rest ih =>
    intro num count
    unfold segLoop
    refine .ite (fun _ => .strict) fun _ => .ite (fun _ => ?_) fun _ => ih _ _
    rw [if_neg (by rintro ⟨-, -, h⟩; exact h rfl)]
    exact .err

theorem segDigits_le (size : Nat) (hasSep : Bool) (m : Mode) (c : Bytes) : Le (segDigits size hasSep .strict c) (segDigits size hasSep m c) := by
  unfold segDigits
  refine .ite (fun _ => .strict) fun _ => .bind (segLoop_le ..) ?_
  rintro ⟨num, count⟩
  cases num with
  | none => exact .strict
  | some n => exact .refl _

theorem segment_le (size : Nat) (sep : Option Bytes) (m : Mode) (c : Bytes) : Le (segment size sep .strict c) (segment size sep m c) := by
  cases c with
  | nil => exact .refl _
  | cons b c =>
    cases sep with
    | none => exact segDigits_le ..
    | some sep =>
      show Le (match sep.findIdx? (· == b) with
        | some pos => if 0 < pos ∧ Mode.strict = .strict then .error .parse else segDigits size true .strict c
        | none => if Mode.strict = .strict then .error .parse else .ok ((0, 0), c)) (match sep.findIdx? (· == b) with
        | some pos => if 0 < pos ∧ m = .strict then .error .parse else segDigits size true m c
        | none => if m = .strict then .error .parse else .ok ((0, 0), c))
      cases sep.findIdx? (· == b) with
      | none => exact .strict
      | some pos =>
        show Le (if 0 < pos ∧ Mode.strict = .strict then _ else _) _
        by_cases h : 0 < pos
        · rw [if_pos ⟨h, rfl⟩]; exact .err
        · rw [if_neg (fun x => h x.1)]
          show Le _ (if 0 < pos ∧ m = .strict then _ else _)
          rw [if_neg (fun x => h x.1)]
          exact segDigits_le ..

theorem segments_le (m : Mode) : ∀ (l : List (Option Bytes)) (c : Bytes), Le (segments .strict l c) (segments m l c) := by
  intro l
  induction l with
  | nil => intro c; exact .refl _
  | cons s ss ih =>
    intro c
    unfold segments
    refine .bind (segment_le ..) ?_
    rintro ⟨⟨val, n⟩, c⟩
    exact .ite (fun _ => .refl _) fun _ => .bind (ih _) fun _ => .refl _

theorem parseContent_le (m : Mode) (c : Bytes) : Le (parseContent .strict c) (parseContent m c) := by
  unfold parseContent
  refine .bind (segment_le ..) ?_
  rintro ⟨⟨year, n⟩, c⟩
  exact .ite (fun _ => .strict) fun _ => .ite (fun _ => .refl _) fun _ => .bind (segments_le ..) fun _ => .refl _

/-- Leading white space is an error in strict mode. -/
theorem space_strict {c : UInt8} (h : isSpace c = true) (r : Bytes) (t : Option Timestamp) : parseContent .strict (c :: r) ≠ .ok t := by
  have : ∃ e, segment 4 none .strict (c :: r) = .error e := by
    show ∃ e, segDigits 4 false .strict (c :: r) = .error e
    unfold segDigits
    by_cases hl : (c :: r).length < 4
    · exact ⟨.parse, by rw [if_pos hl]; rfl⟩
    · rw [if_neg hl]
      have : segLoop false .strict ((c :: r).take 4) none 0 = .error .parse := by
        show segLoop false .strict (c :: r.take 3) none 0 = _
        unfold segLoop
        by_cases h32 : c = 32
        · rw [if_pos h32]; rfl
        · rw [if_neg h32]
          have : isDigit c = false := by
            simp only [isSpace, Bool.or_eq_true, beq_iff_eq] at h
            rcases h with (((h | h) | h) | h) | h <;> subst h <;> decide
          rw [if_pos this, if_neg (by rintro ⟨h, -⟩; cases h)]
      rw [this]
      exact ⟨.parse, rfl⟩
  obtain ⟨e, he⟩ := this
  unfold parseContent
  rw [he]
  intro h
  cases h

theorem time_le (m : Mode) (b : Bytes) : Le (Timestamp.parse .strict b) (Timestamp.parse m b) := by
  unfold Timestamp.parse
  cases b with
  | nil => exact .strict
  | cons c r =>
    refine ⟨fun t ht => ?_⟩
    have hs : isSpace c = false := by
      cases h : isSpace c with
      | false => rfl
      | true => exact absurd ht (space_strict h _ _)
    have h1 : start m c r = .ok (c, r) := by
      unfold start
      split
      · rfl
      · cases r <;> unfold skipSpace <;> rw [hs] <;> rfl
    show (start m c r >>= _) = _
    rw [h1]
    exact (parseContent_le m _).gives t ht

end

/-! ## ID3v2 -/

section
open Id3v2

theorem wrap_le {α : Type} {k : α → Content} {x y : Except Err (Option α × Bytes)} (h : Le x y) : Le (wrap k x) (wrap k y) := .map h

theorem ufid_le (m : Mode) (r : Bytes) : Le (OwnedF.parseUfid .strict r) (OwnedF.parseUfid m r) := by
  unfold OwnedF.parseUfid
  refine .bind (.refl _) ?_
  rintro ⟨o, r⟩
  dsimp only
  by_cases h : o.content.isEmpty
  · rw [if_pos ⟨h, by decide⟩]; exact .err
  · rw [if_neg (fun x => h x.1)]
    show Le _ (if o.content.isEmpty = true ∧ m ≠ .bestAttempt then _ else _)
    rw [if_neg (fun x => h x.1)]
    exact .refl _

theorem channelType_le (m : Mode) (b : UInt8) : Le (channelType .strict b) (channelType m b) := by
  unfold channelType
  refine .ite (fun _ => .refl _) fun _ => ?_
  rw [if_neg (by decide)]
  exact .err

theorem rvaLoop_le (m : Mode) : ∀ (n : Nat) (r : Bytes) (l : List Channel), Le (rvaLoop .strict n r l) (rvaLoop m n r l) := by
  intro n
  induction n with
  | zero => intro r l; exact .refl _
  | succ n ih =>
    intro r l
    unfold rvaLoop
    cases r with
    | nil => exact .refl _
    | cons t r =>
      refine .bind (channelType_le ..) fun ty => .bind (.refl _) ?_
      rintro ⟨adjust, r⟩
      refine .bind (.refl _) ?_
      rintro ⟨bits, r⟩
      refine .bind (.refl _) ?_
      rintro ⟨peak, r⟩
      exact ih _ _

theorem rva_le (m : Mode) (r : Bytes) : Le (RvaF.parse .strict r) (RvaF.parse m r) := by
  unfold RvaF.parse
  refine .bind (.refl _) ?_
  rintro ⟨i, r⟩
  exact .bind (rvaLoop_le ..) fun _ => .refl _

theorem timeContent_le (id : FrameId) (m : Mode) (enc : Text.Encoding) (t : Str) : Le (timeContent id .strict enc t) (timeContent id m enc t) := by
  unfold timeContent
  have h := time_le m (utf8 t)
  revert h
  cases Timestamp.parse .strict (utf8 t) with
  | error e => intro _; exact .err
  | ok x => intro h; rw [h.gives x rfl]; cases x <;> exact .refl _

theorem timeF_le (id : FrameId) (m : Mode) (r : Bytes) : Le (TimeF.parse id .strict r) (TimeF.parse id m r) := by
  unfold TimeF.parse
  cases r with
  | nil => exact .refl _
  | cons b r =>
    show Le (match Text.Encoding.ofByte b with | .error e => _ | .ok enc => _) (match Text.Encoding.ofByte b with | .error e => _ | .ok enc => _)
    cases Text.Encoding.ofByte b with
    | error e => exact .err
    | ok enc =>
      refine .bind (.refl _) ?_
      rintro ⟨d, r⟩
      exact .bind (timeContent_le ..) fun _ => .refl _

theorem leaf_le (o : ParseOpts) (m : Mode) (v : Version) (id : FrameId) (r : Bytes) :
    Le (parseLeaf { o with mode := .strict } v id r) (parseLeaf { o with mode := m } v id r) := by
  unfold parseLeaf
  dsimp only
  repeat' refine .ite (fun _ => ?_) fun _ => ?_
  all_goals first | exact .refl _ | exact wrap_le (ufid_le ..) | exact wrap_le (rva_le ..) | exact wrap_le (timeF_le ..)

theorem content_le {rc rc' : Bytes → Except Err (List Frame × Bytes)} (hrc : ∀ b, Le (rc b) (rc' b)) (o : ParseOpts) (m : Mode) (v : Version)
    (id : FrameId) (fl : FrameFlags) (r : Bytes) :
    Le (Id3v2.parseContent rc { o with mode := .strict } v id fl r) (Id3v2.parseContent rc' { o with mode := m } v id fl r) := by
  unfold Id3v2.parseContent
  refine .ite (fun _ => .map ?_) fun _ => .ite (fun _ => .map ?_) fun _ => .map (leaf_le ..)
  · unfold parseChapter
    refine .ite (fun _ => .refl _) fun _ => .bind (.refl _) fun _ => .bind (.refl _) fun _ => .bind (.refl _) fun _ => .bind (.refl _) fun _ =>
      .bind (.refl _) fun _ => .bind (hrc _) fun _ => .refl _
  · unfold parseToc
    refine .ite (fun _ => .refl _) fun _ => .bind (.refl _) fun _ => .bind (.refl _) fun _ => .bind (.refl _) fun _ => .bind (.refl _) fun _ =>
      .bind (hrc _) fun _ => .refl _

theorem body_le {rc rc' : Bytes → Except Err (List Frame × Bytes)} (hrc : ∀ b, Le (rc b) (rc' b)) (o : ParseOpts) (m : Mode) (v : Version)
    (id : FrameId) (fl : FrameFlags) (size : Nat) (r : Bytes) :
    Le (readBody rc { o with mode := .strict } v id fl size r) (readBody rc' { o with mode := m } v id fl size r) := by
  unfold readBody
  refine .ite (fun _ => .refl _) fun _ => .bind (.refl _) fun c => .ite (fun _ => .refl _) fun _ => ?_
  exact .map (content_le hrc ..)

theorem frame_le {rc rc' : Bytes → Except Err (List Frame × Bytes)} (hrc : ∀ b, Le (rc b) (rc' b)) (o : ParseOpts) (m : Mode) (v : Version)
    (u : Bool) (r : Bytes) :
    Le (readFrame rc { o with mode := .strict } v u r) (readFrame rc' { o with mode := m } v u r) := by
  unfold readFrame
  dsimp only
  cases parseFrameHeader v o.implicit r with
  | none => exact .refl _
  | bad size rest => exact .strict
  | frame id fl size rest =>
    unfold readKnown
    dsimp only
    refine .ite (fun _ => .refl _) fun _ => .ite (fun _ => .strict) fun _ => .bind (.refl _) ?_
    rintro ⟨fl, size, r⟩
    exact body_le hrc ..

theorem loop_le {rc rc' : Bytes → Except Err (List Frame × Bytes)} (hrc : ∀ b, Le (rc b) (rc' b)) (o : ParseOpts) (m : Mode) (v : Version)
    (u : Bool) : ∀ (n : Nat) (r : Bytes) (l : List Frame),
    Le (Id3v2.readLoop rc { o with mode := .strict } v u n r l) (Id3v2.readLoop rc' { o with mode := m } v u n r l) := by
  intro n
  induction n with
  | zero => intro r l; exact .refl _
  | succ n ih =>
    intro r l
    unfold Id3v2.readLoop
    have h := frame_le hrc o m v u r
    revert h
    cases readFrame rc { o with mode := .strict } v u r with
    | error e => intro _; exact .err
    | ok x =>
      intro h
      rw [h.gives x rfl]
      cases x with
      | eof rest => exact .refl _
      | skip rest => exact ih _ _
      | next f rest => exact ih _ _

theorem all_le (o : ParseOpts) (m : Mode) (v : Version) : ∀ (d : Nat) (u : Bool) (r : Bytes),
    Le (readAll { o with mode := .strict } v d u r) (readAll { o with mode := m } v d u r) := by
  intro d
  induction d with
  | zero => intro u r; exact .refl _
  | succ d ih =>
    intro u r
    unfold readAll
    exact loop_le (ih false) ..

/-- **An ID3v2 tag that is read in strict mode is read alike in every mode.** -/
theorem id3v2_le (o : ParseOpts) (m : Mode) (v : Version) (u : Bool) (d : Nat) (body : Bytes) :
    Le (parseTag { o with mode := .strict } v u d body) (parseTag { o with mode := m } v u d body) := by
  unfold parseTag
  exact .bind (all_le ..) fun _ => .refl _

end
/-! ## ID3v1, comments, FLAC -/

theorem year_le (b : Bool) (d : Bytes) : Le (Id3v1.parseYear true d) (Id3v1.parseYear b d) := by
  unfold Id3v1.parseYear
  dsimp only
  exact .ite (fun _ => .strictB) fun _ => .refl _

theorem id3v1_le (b : Bool) (d : Bytes) : Le (Id3v1.parse true d) (Id3v1.parse b d) := by
  unfold Id3v1.parse
  exact .ite (fun _ => .refl _) fun _ => .bind (year_le ..) fun _ => .refl _

theorem find_le (b read : Bool) (f : Bytes) : Le (Id3v1.find true read f) (Id3v1.find b read f) := by
  unfold Id3v1.find
  refine .ite (fun _ => .refl _) fun _ => .bind (.refl _) fun _ => .ite (fun _ => .refl _) fun _ => .ite (fun _ => ?_) fun _ => .refl _
  exact .bind (.refl _) fun _ => .bind (id3v1_le ..) fun _ => .refl _

theorem inner_le (b : Bool) (d : Bytes) : Le (Picture.fromFlacInner true d) (Picture.fromFlacInner b d) := by
  unfold Picture.fromFlacInner
  refine .ite (fun _ => .refl _) fun _ => .bind (.refl _) ?_
  rintro ⟨ty, r⟩
  refine .bind (.refl _) fun _ => ?_
  dsimp only
  by_cases h : ty > 255
  · rw [if_pos ⟨h, rfl⟩]; exact .err
  · rw [if_neg (fun x => h x.1), if_neg (fun x => h x.1)]; exact .refl _

theorem picture_le (b enc : Bool) (d : Bytes) : Le (Picture.fromFlacBytes d enc true) (Picture.fromFlacBytes d enc b) := by
  unfold Picture.fromFlacBytes
  refine .ite (fun _ => ?_) fun _ => inner_le ..
  cases Picture.b64Decode d with
  | none => exact .refl _
  | some d => exact inner_le ..

section
open Vorbis

theorem item_le (o : Opts) (m : Vorbis.Mode) (t : Tag) (c : Bytes) : Le (readItem { o with mode := .strict } t c) (readItem { o with mode := m } t c) := by
  unfold readItem
  obtain ⟨key, v⟩ := split2 0x3D c
  cases v with
  | none => exact .refl _
  | some value =>
    dsimp only
    refine .ite (fun _ => .ite (fun _ => .refl _) fun _ => ?_) fun _ => .ite (fun _ => .ite (fun _ => .refl _) fun _ => ?_) fun _ =>
      .ite (fun _ => ?_) fun _ => .ite (fun _ => ?_) fun _ => .strictV
    · have h := picture_le (decide (m = .strict)) true value
      revert h
      show Le (Picture.fromFlacBytes value true (decide (Vorbis.Mode.strict = .strict))) _ → _
      cases Picture.fromFlacBytes value true (decide (Vorbis.Mode.strict = .strict)) with
      | error e =>
        intro _
        cases e <;> exact .err
      | ok x => intro h; rw [h.gives x rfl]; exact .refl _
    · cases Picture.b64Decode value with
      | none => exact .strictV
      | some d => exact .refl _
    · cases Text.utf8Decode value with
      | error e => exact .strictV
      | ok d => exact .refl _
    · cases Text.utf8Decode value with
      | error e => exact .strictV
      | ok d => exact .refl _

theorem items_le (o : Opts) (m : Vorbis.Mode) : ∀ (n len : Nat) (t : Tag) (d : Bytes),
    Le (readItems { o with mode := .strict } n len t d) (readItems { o with mode := m } n len t d) := by
  intro n
  induction n with
  | zero => intro len t d; exact .refl _
  | succ n ih =>
    intro len t d
    unfold readItems
    refine .bind (.refl _) fun _ => .ite (fun _ => .refl _) fun _ => .bind (.refl _) fun _ => .bind (item_le ..) fun _ => ih _ _ _

/-- **Comments that are read in strict mode are read alike in every mode.** -/
theorem comments_le (o : Opts) (m : Vorbis.Mode) (d : Bytes) (len : Nat) :
    Le (readComments { o with mode := .strict } d len) (readComments { o with mode := m } d len) := by
  unfold readComments
  refine .bind (.refl _) fun _ => .ite (fun _ => .refl _) fun _ => .bind (.refl _) ?_
  rintro ⟨raw, d⟩
  refine .bind ?_ fun _ => .bind (.refl _) fun _ => .ite (fun _ => .refl _) fun _ => items_le ..
  unfold readVendor
  dsimp only
  cases Text.utf8Decode raw with
  | error e => exact .strictV
  | ok v => exact .refl _

end

theorem ogg_le (fmt : OggWrite.Format) (o : Vorbis.Opts) (m : Vorbis.Mode) (f : Bytes) :
    Le (OggWrite.read fmt { o with mode := .strict } f) (OggWrite.read fmt { o with mode := m } f) := by
  unfold OggWrite.read
  exact .bind (.refl _) fun _ => .bind (comments_le ..) fun _ => .refl _

section
open Flac

theorem step_le (o : Vorbis.Opts) (m : Vorbis.Mode) (b : Block) (r : Found) :
    Le (readStep { o with mode := .strict } b r) (readStep { o with mode := m } b r) := by
  unfold readStep
  dsimp only
  refine .ite (fun _ => .refl _) fun _ => .ite (fun _ => ?_) fun _ => .ite (fun _ => ?_) fun _ => .refl _
  · cases hc : r.comments.isSome with
    | true => exact .strictB
    | false => exact .bind (comments_le ..) fun _ => .refl _
  · have h := picture_le (decide (m = .strict)) false b.content
    revert h
    show Le (Picture.fromFlacBytes b.content false (decide (Vorbis.Mode.strict = .strict))) _ → _
    cases Picture.fromFlacBytes b.content false (decide (Vorbis.Mode.strict = .strict)) with
    | error e =>
      intro _
      cases e <;> exact .err
    | ok x => intro h; rw [h.gives x rfl]; exact .refl _

theorem blocks_le (o : Vorbis.Opts) (m : Vorbis.Mode) (f : Bytes) : ∀ (n : Nat) (last : Bool) (pos : Nat) (r : Found),
    Le (Flac.readLoop { o with mode := .strict } f n last pos r) (Flac.readLoop { o with mode := m } f n last pos r) := by
  intro n
  induction n with
  | zero => intro last pos r; cases last <;> exact .refl _
  | succ n ih =>
    intro last pos r
    cases last with
    | true => exact .refl _
    | false =>
      unfold Flac.readLoop
      exact .bind (.refl _) fun _ => .bind (step_le ..) fun _ => ih _ _ _

theorem flac_le (o : Vorbis.Opts) (m : Vorbis.Mode) (f : Bytes) : Le (Flac.readFrom { o with mode := .strict } f) (Flac.readFrom { o with mode := m } f) := by
  unfold Flac.readFrom
  exact .bind (.refl _) fun _ => .bind (.refl _) fun _ => .ite (fun _ => .refl _) fun _ => blocks_le ..

end

/-! ## Chunks -/

section
open Iff

theorem next_le (be b : Bool) (c : Chunks) : Le (c.next be true) (c.next be b) := by
  unfold Chunks.next
  refine .bind (.refl _) fun c => ?_
  unfold Chunks.header
  exact .ite (fun _ => .refl _) fun _ => .bind (.refl _) fun _ => .ite (fun _ => .strictB) fun _ => .bind (.refl _) fun _ =>
    .ite (fun _ => .strictB) fun _ => .refl _

theorem info_le (b : Bool) : ∀ (n : Nat) (c : Chunks) (l : List Item), Le (parseInfo true n c l) (parseInfo b n c l) := by
  intro n
  induction n with
  | zero => intro c l; exact .refl _
  | succ n ih =>
    intro c l
    unfold parseInfo
    refine .bind (next_le ..) ?_
    rintro ⟨h, c⟩
    cases h with
    | none => exact .refl _
    | some h =>
      refine .bind (.refl _) fun key => .ite (fun _ => .refl _) fun _ => .bind (.refl _) ?_
      rintro ⟨v, c⟩
      dsimp only
      cases Text.utf8Decode v with
      | error e => exact .strictB
      | ok v => exact ih _ _

theorem wavChunk_le (b : Bool) (id3 : Bytes → Except Err Unit) (n : Nat) (h : Hdr) (c : Chunks) (l : List Item) :
    Le (Iff.wavChunk true id3 n h c l) (Iff.wavChunk b id3 n h c l) := by
  unfold Iff.wavChunk
  refine .ite (fun _ => .ite (fun _ => .refl _) fun _ => .bind (.refl _) fun _ => .ite (fun _ => .refl _) fun _ => .ite (fun _ => .refl _) fun _ =>
    .bind (.refl _) fun _ => .bind (info_le ..) fun _ => .refl _) fun _ => .ite (fun _ => .bind (.refl _) fun _ =>
    .ite (fun _ => .strictB) fun _ => .refl _) fun _ => .refl _

theorem aiffChunk_le (b : Bool) (id3 : Bytes → Except Err Unit) (h : Hdr) (c : Chunks) (a : AiffAcc) :
    Le (Iff.aiffChunk true id3 h c a) (Iff.aiffChunk b id3 h c a) := by
  unfold Iff.aiffChunk
  exact .ite (fun _ => .bind (.refl _) fun _ => .ite (fun _ => .strictB) fun _ => .refl _) fun _ => .refl _

end

/-! ## Files -/

section
open FileTags

/-- The options, in another mode. -/
def inMode (o : Opts) (m : Mode) : Opts := { o with id3 := { o.id3 with mode := m } }

theorem parseId3_le (o : Opts) (m : Mode) (h : Id3v2.Header) (c : Bytes) : Le (parseId3 (inMode o .strict) h c) (parseId3 (inMode o m) h c) := by
  unfold parseId3
  exact .bind (id3v2_le ..) fun _ => .refl _

theorem contentOf_le (o : Opts) (m : Mode) (r : Option (Id3v2.Header × Option Bytes)) :
    Le (contentOf (inMode o .strict) r) (contentOf (inMode o m) r) := by
  unfold contentOf
  split
  · exact .map (parseId3_le ..)
  · exact .refl _

theorem tail_le (o : Opts) (m : Mode) (f : Bytes) : Le (tail (inMode o .strict) f) (tail (inMode o m) f) := by
  unfold tail
  refine .bind ?_ fun _ => .refl _
  exact find_le (decide (m = .strict)) o.readTags f

theorem mac_le (o : Opts) (m : Mode) (f : Bytes) : Le (readMac (inMode o .strict) f) (readMac (inMode o m) f) := by
  unfold readMac
  refine .bind (.refl _) fun x => .bind (.refl _) fun _ => .bind (contentOf_le ..) fun _ => .bind (.refl _) fun _ => .bind ?_ fun _ => .bind (tail_le ..) fun _ => .refl _
  have : ∀ header n pos stream ape, macLoop (inMode o .strict) f header n pos stream ape = macLoop (inMode o m) f header n pos stream ape := by
    intro header n
    induction n with
    | zero => intros; rfl
    | succ n ih =>
      intro pos stream ape
      unfold macLoop
      simp only [ih]
      rfl
  rw [this]
  exact .refl _

theorem wavPack_le (o : Opts) (m : Mode) (f : Bytes) : Le (readWavPack (inMode o .strict) f) (readWavPack (inMode o m) f) := by
  unfold readWavPack
  exact .bind (tail_le ..) fun _ => .refl _

theorem mpc_le (o : Opts) (m : Mode) (f : Bytes) : Le (readMpc (inMode o .strict) f) (readMpc (inMode o m) f) := by
  unfold readMpc
  exact .bind (.refl _) fun _ => .bind (.refl _) fun _ => .bind (contentOf_le ..) fun _ => .bind (tail_le ..) fun _ => .refl _

theorem aacFront_le (o : Opts) (m : Mode) (f : Bytes) : ∀ (n pos stream : Nat) (tag : Option Id3Tag),
    Le (aacFront (inMode o .strict) f n pos stream tag) (aacFront (inMode o m) f n pos stream tag) := by
  intro n
  induction n with
  | zero => intros; exact .refl _
  | succ n ih =>
    intro pos stream tag
    unfold aacFront
    cases readAt f pos 4 with
    | error e => exact .refl _
    | ok b =>
      refine .ite (fun _ => ?_) fun _ => .refl _
      cases Id3v2.parseHeader f pos with
      | error e => exact .refl _
      | ok x =>
        refine .bind (.refl _) fun stream => .ite (fun _ => ?_) fun _ => .ite (fun _ => .bind (.refl _) fun _ => ih ..) fun _ => ih ..
        refine .bind (parseId3_le ..) fun t => ?_
        cases tag with
        | some old => exact ih ..
        | none => exact .ite (fun _ => .bind (.refl _) fun _ => ih ..) fun _ => ih ..

theorem aacProps_le (f : Bytes) (b : Bool) (h : Aac.Header) (fin stream fuel : Nat) :
    Le (Aac.readProperties f true h fin stream fuel) (Aac.readProperties f b h fin stream fuel) := by
  unfold Aac.readProperties
  by_cases hs : h.sampleRate = 0
  · rw [if_pos ⟨hs, rfl⟩]; exact .err
  · rw [if_neg (c := h.sampleRate = 0 ∧ true = true) (fun x => hs x.1), if_neg (c := h.sampleRate = 0 ∧ b = true) (fun x => hs x.1)]; exact .refl _

/-- **An AAC file that is read in strict mode is read alike in every mode**, tags and properties. -/
theorem aac_le (o : Opts) (m : Mode) (f : Bytes) : Le (readAac (inMode o .strict) f) (readAac (inMode o m) f) := by
  unfold readAac
  refine .ite (fun _ => .refl _) fun _ => .bind (aacFront_le ..) fun st => .bind (find_le (decide (m = .strict)) o.readTags f) fun x =>
    .bind (.refl _) fun stream => .ite (fun _ => ?_) fun _ => .refl _
  cases st.first with
  | none => exact .refl _
  | some y => exact .bind (aacProps_le f (decide (m = .strict)) ..) fun _ => .refl _

end

section
open IffFiles

theorem id3Chunk_le (o : FileTags.Opts) (m : Mode) (b : Bytes) : Le (id3Chunk (inMode o .strict) b) (id3Chunk (inMode o m) b) := by
  unfold id3Chunk
  refine .ite (fun _ => .strict) fun _ => ?_
  cases Id3v2.parseHeader b 0 with
  | error e => exact .refl _
  | ok x => exact .bind (parseId3_le ..) fun _ => .refl _

theorem chunkLoop_le {α : Type} (be b : Bool) {fn fn' : Iff.Hdr → Iff.Chunks → α → Except Err (Iff.Chunks × α)} (hf : ∀ h c a, Le (fn h c a) (fn' h c a)) :
    ∀ (n : Nat) (c : Iff.Chunks) (a : α), Le (chunkLoop be true fn n c a) (chunkLoop be b fn' n c a) := by
  intro n
  induction n with
  | zero => intros; exact .refl _
  | succ n ih =>
    intro c a
    unfold chunkLoop
    refine .bind (next_le ..) ?_
    rintro ⟨h, c⟩
    cases h with
    | none => exact .refl _
    | some h => exact .bind (hf ..) fun _ => ih ..

/-- **A WAV file that is read in strict mode is read alike in every mode**, tags and properties. -/
theorem wav_le (o : FileTags.Opts) (m : Mode) (f : Bytes) : Le (readWav (inMode o .strict) f) (readWav (inMode o m) f) := by
  unfold readWav
  refine .bind (.refl _) fun _ => .bind (chunkLoop_le false (decide (m = .strict)) ?_ ..) fun _ => .refl _
  intro h c a
  unfold IffFiles.wavChunk
  refine .ite (fun _ => .refl _) fun _ => .ite (fun _ => .refl _) fun _ => .ite (fun _ => .refl _) fun _ => .ite (fun _ => .ite (fun _ => ?_) fun _ => .refl _) fun _ =>
    .ite (fun _ => .bind (.refl _) fun _ => .bind (id3Chunk_le ..) fun _ => .refl _) fun _ => .refl _
  exact .bind (wavChunk_le (decide (m = .strict)) ..) fun _ => .refl _

/-- **An AIFF file that is read in strict mode is read alike in every mode**, tags and properties. -/
theorem aiff_le (o : FileTags.Opts) (m : Mode) (f : Bytes) : Le (readAiff (inMode o .strict) f) (readAiff (inMode o m) f) := by
  unfold readAiff
  refine .bind (.refl _) fun _ => .bind (chunkLoop_le true (decide (m = .strict)) ?_ ..) fun _ => .refl _
  intro h c a
  unfold IffFiles.aiffChunk
  refine .ite (fun _ => .bind (.refl _) fun _ => .bind (id3Chunk_le ..) fun _ => .refl _) fun _ => .ite (fun _ => .refl _) fun _ => .ite (fun _ => .refl _) fun _ =>
    .ite (fun _ => .bind (aiffChunk_le (decide (m = .strict)) ..) fun _ => .refl _) fun _ => .refl _

end

/-! ## MP4 -/

section
open Mp4 Ilst Mp4Read

/-- What the one gives, the other gives too, and where the one fails without a panic, so does the other. -/
structure Both {α : Type} (x y : Except Err α) : Prop extends Le x y where
  fails : ∀ e, x = .error e → e ≠ .panic → ∃ e', y = .error e' ∧ e' ≠ .panic

theorem Both.refl {α : Type} (x : Except Err α) : Both x x := ⟨.refl _, fun e h h' => ⟨e, h, h'⟩⟩

theorem Both.bind {α β : Type} {x y : Except Err α} {f g : α → Except Err β} (h : Both x y) (hf : ∀ a, Both (f a) (g a)) : Both (x >>= f) (y >>= g) := by
  refine ⟨.bind h.toLe fun a => (hf a).toLe, fun e he hp => ?_⟩
  cases x with
  | error e' =>
    obtain rfl := (Except.error.injEq _ _).mp he
    obtain ⟨e2, h2, h3⟩ := h.fails e' rfl hp
    exact ⟨e2, by rw [h2]; rfl, h3⟩
  | ok a =>
    rw [h.gives a rfl]
    exact (hf a).fails e he hp

theorem Both.ite {α : Type} {c : Prop} [Decidable c] {a a' b b' : Except Err α} (h1 : c → Both a a') (h2 : ¬ c → Both b b') :
    Both (if c then a else b) (if c then a' else b') := by
  by_cases hc : c
  · rw [if_pos hc, if_pos hc]; exact h1 hc
  · rw [if_neg hc, if_neg hc]; exact h2 hc

/-- What the one gives, the other gives too, and where the one fails without a panic, the other fails or finds nothing. -/
structure Atom {α : Type} (x y : Except Err (Option α × Rd)) : Prop extends Le x y where
  fails : ∀ e, x = .error e → e ≠ .panic → (∃ r, y = .ok (none, r)) ∨ ∃ e', y = .error e' ∧ e' ≠ .panic

theorem Atom.refl {α : Type} (x : Except Err (Option α × Rd)) : Atom x x := ⟨.refl _, fun e h h' => .inr ⟨e, h, h'⟩⟩

theorem Atom.both {α : Type} {x y : Except Err (Option α × Rd)} (h : Both x y) : Atom x y := ⟨h.toLe, fun e he hp => .inr (h.fails e he hp)⟩

theorem Atom.ite {α : Type} {c : Prop} [Decidable c] {a a' b b' : Except Err (Option α × Rd)} (h1 : c → Atom a a') (h2 : ¬ c → Atom b b') :
    Atom (if c then a else b) (if c then a' else b') := by
  by_cases hc : c
  · rw [if_pos hc, if_pos hc]; exact h1 hc
  · rw [if_neg hc, if_neg hc]; exact h2 hc

theorem Atom.bind {α β : Type} {x : Except Err α} {f g : α → Except Err (Option β × Rd)} (hf : ∀ a, Atom (f a) (g a)) : Atom (x >>= f) (x >>= g) := by
  cases x with
  | error e => exact .refl _
  | ok a => exact hf a

theorem head_le (r : Rd) (size : Nat) (m : Mode) : Atom (readHead r size .strict) (readHead r size m) := by
  cases m with
  | strict => exact .refl _
  | bestAttempt =>
    unfold readHead
    refine .bind fun _ => .bind fun x => .ite (fun _ => ?_) fun _ => .bind fun y => .ite (fun _ => .refl _) fun _ => .ite (fun _ => ?_) fun _ => .refl _
    · exact ⟨.strict, fun e _ _ => .inl ⟨_, rfl⟩⟩
    · refine ⟨⟨fun a h => ?_⟩, fun e _ _ => ?_⟩
      · rw [if_neg (by rintro (⟨h, -⟩ | h); exact h rfl; cases h)] at h; cases h
      · by_cases hc : (Mode.bestAttempt ≠ .strict ∧ x.1 = ascii "free") ∨ Mode.bestAttempt = .relaxed
        · exact .inl ⟨y.2.2.seekEnd, if_pos hc⟩
        · exact .inr ⟨_, if_neg hc, by decide⟩
  | relaxed =>
    unfold readHead
    refine .bind fun _ => .bind fun x => .ite (fun _ => ?_) fun _ => .bind fun y => .ite (fun _ => .refl _) fun _ => .ite (fun _ => ?_) fun _ => .refl _
    · exact ⟨.strict, fun e _ _ => .inl ⟨_, rfl⟩⟩
    · refine ⟨⟨fun a h => ?_⟩, fun e _ _ => ?_⟩
      · rw [if_neg (by rintro (⟨h, -⟩ | h); exact h rfl; cases h)] at h; cases h
      · exact .inl ⟨y.2.2.seekEnd, if_pos (.inr rfl)⟩

theorem chunk_le (r : Rd) (name : Bytes) (size : Nat) (m : Mode) : Both (freeformChunk r name size .strict) (freeformChunk r name size m) := by
  unfold freeformChunk
  have h := head_le r size m
  revert h
  generalize readHead r size .strict = x
  generalize readHead r size m = y
  intro h
  cases x with
  | error e =>
    refine ⟨.err, fun e' he hp => ?_⟩
    obtain rfl := (Except.error.injEq _ _).mp he
    obtain ⟨r, rfl⟩ | ⟨e2, rfl, h2⟩ := h.fails _ rfl hp
    · exact ⟨.parse, rfl, by decide⟩
    · exact ⟨e2, rfl, h2⟩
  | ok a =>
    rw [h.gives a rfl]
    exact .refl _

theorem ident_le (hd : Head) (r : Rd) (size : Nat) (m : Mode) : Both (identOf hd r size .strict) (identOf hd r size m) := by
  unfold identOf
  refine .ite (fun _ => .ite (fun _ => .refl _) fun _ => .ite (fun _ => .refl _) fun _ => .bind ?_ fun _ => .refl _) fun _ => .refl _
  unfold parseFreeform
  exact .ite (fun _ => .refl _) fun _ => .bind (chunk_le ..) fun _ => .bind (chunk_le ..) fun _ => .refl _

theorem readInfo_le (r : Rd) (size : Nat) (m : Mode) : Atom (readInfo r size .strict) (readInfo r size m) := by
  unfold readInfo
  have h := head_le r size m
  revert h
  generalize readHead r size .strict = x
  generalize readHead r size m = y
  intro h
  cases x with
  | error e =>
    refine ⟨.err, fun e' he hp => ?_⟩
    obtain rfl := (Except.error.injEq _ _).mp he
    obtain ⟨r, rfl⟩ | ⟨e2, rfl, h2⟩ := h.fails _ rfl hp
    · exact .inl ⟨r, rfl⟩
    · exact .inr ⟨e2, rfl, h2⟩
  | ok a =>
    rw [h.gives a rfl]
    obtain ⟨a, r⟩ := a
    cases a with
    | none => exact .refl _
    | some a => exact .both (ident_le ..)

theorem atom_le (r : Rd) (m : Mode) : Atom (r.next .strict) (r.next m) := by
  unfold Rd.next
  exact .ite (fun _ => .refl _) fun _ => .ite (fun _ => .refl _) fun _ => readInfo_le ..

theorem data_le (m : Mode) (toRead : Nat) : ∀ (n pos : Nat) (acc : List (Nat × Bytes)) (r : Rd),
    Le (dataLoop .strict toRead n pos acc r) (dataLoop m toRead n pos acc r) := by
  intro n
  induction n with
  | zero => intros; exact .refl _
  | succ n ih =>
    intro pos acc r
    unfold dataLoop
    refine .ite (fun _ => .refl _) fun _ => .bind (atom_le ..).toLe ?_
    rintro ⟨a, r⟩
    cases a with
    | none => exact .refl _
    | some a =>
      refine .ite (fun _ => .strict) fun _ => .ite (fun _ => .strict) fun _ => .bind ?_ ?_
      · unfold typeIndicator
        exact .bind (.refl _) fun _ => .ite (fun _ => .strict) fun _ => .refl _
      · rintro ⟨t, r⟩
        cases t with
        | none => exact ih ..
        | some c => exact .bind (.refl _) fun _ => ih ..

theorem dataInner_le (r : Rd) (m : Mode) (a : Info) : Le (parseDataInner r .strict a) (parseDataInner r m a) := by
  unfold parseDataInner
  exact .ite (fun _ => .refl _) fun _ => data_le ..

theorem parseData_le (r : Rd) (m : Mode) (t : Tag) (a : Info) : Le (parseData r .strict t a) (parseData r m t a) := by
  unfold parseData
  refine .bind (dataInner_le ..) ?_
  rintro ⟨ds, r⟩
  dsimp only
  cases interpretAll ds with
  | error e => exact .strict
  | ok ds => exact .refl _

theorem covr_le (r : Rd) (m : Mode) (t : Tag) (a : Info) : Le (handleCovr r .strict t a) (handleCovr r m t a) := by
  unfold handleCovr
  refine .bind (dataInner_le ..) ?_
  rintro ⟨ds, r⟩
  dsimp only
  cases coverData ds with
  | none => exact .strict
  | some ds => exact .refl _

theorem ilstStep_le (o : Ilst.Opts) (m : Mode) (r : Rd) (a : Info) (t : Tag) (g : List Data) :
    Le (ilstStep { o with mode := .strict } r a t g) (ilstStep { o with mode := m } r a t g) := by
  unfold ilstStep
  cases a.ident with
  | freeform x y => exact .bind (parseData_le ..) fun _ => .refl _
  | fourcc id =>
    refine .ite (fun _ => .refl _) fun _ => .ite (fun _ => .ite (fun _ => .bind (covr_le ..) fun _ => .refl _) fun _ => .refl _) fun _ =>
      .ite (fun _ => .bind (dataInner_le ..) fun _ => .refl _) fun _ => .ite (fun _ => .bind (dataInner_le ..) fun _ => .refl _) fun _ =>
      .ite (fun _ => .bind (dataInner_le ..) fun _ => .refl _) fun _ => .bind (parseData_le ..) fun _ => .refl _

/-- A loop that ends where no atom is found or an atom cannot be read. -/
theorem atoms_le {α : Type} {x y : Except Err (Option Info × Rd)} (z : Except Err α) {f g : Info → Rd → Except Err α}
    (hf : ∀ a r, Le (f a r) (g a r)) : Atom x y →
    Le (match x with
      | .error .panic => .error .panic
      | .error _ => z
      | .ok (none, _) => z
      | .ok (some a, r) => f a r) (match y with
      | .error .panic => .error .panic
      | .error _ => z
      | .ok (none, _) => z
      | .ok (some a, r) => g a r) := by
  intro h
  cases x with
  | error e =>
    by_cases hp : e = .panic
    · subst hp; exact .err
    · have hx : (match (Except.error e : Except Err (Option Info × Rd)) with
        | .error .panic => .error .panic
        | .error _ => z
        | .ok (none, _) => z
        | .ok (some a, r) => f a r) = z := by cases e <;> first | rfl | exact absurd rfl hp
      rw [hx]
      obtain ⟨r, rfl⟩ | ⟨e2, rfl, h2⟩ := h.fails _ rfl hp
      · exact .refl _
      · cases e2 <;> first | exact .refl _ | exact absurd rfl h2
  | ok a =>
    rw [h.gives a rfl]
    obtain ⟨a, r⟩ := a
    cases a with
    | none => exact .refl _
    | some a => exact hf a r

theorem ilstLoop_le (o : Ilst.Opts) (m : Mode) : ∀ (n : Nat) (r : Rd) (t : Tag) (g : List Data),
    Le (ilstLoop { o with mode := .strict } n r t g) (ilstLoop { o with mode := m } n r t g) := by
  intro n
  induction n with
  | zero => intros; exact .refl _
  | succ n ih =>
    intro r t g
    unfold ilstLoop
    exact atoms_le _ (fun a r => .bind (ilstStep_le ..) fun _ => ih ..) (atom_le ..)

/-- **The items of an MP4 file that are read in strict mode are read alike in every mode.** -/
theorem ilst_le (o : Ilst.Opts) (m : Mode) (c : Bytes) : Le (Ilst.parse { o with mode := .strict } c) (Ilst.parse { o with mode := m } c) := by
  unfold Ilst.parse
  exact .bind (ilstLoop_le ..) fun _ => .refl _

theorem seek_le (m : Mode) (name : Bytes) (len : Nat) : ∀ (n : Nat) (r : Rd) (read : Nat), Le (seekAtom n r read len name .strict) (seekAtom n r read len name m) := by
  intro n
  induction n with
  | zero => intros; exact .refl _
  | succ n ih =>
    intro r read
    unfold seekAtom
    refine .ite (fun _ => .bind (atom_le ..).toLe ?_) fun _ => .refl _
    rintro ⟨a, r⟩
    cases a with
    | none => exact .refl _
    | some a => exact .ite (fun _ => .refl _) fun _ => .bind (.refl _) fun _ => ih ..

theorem child_le (m : Mode) (name : Bytes) : ∀ (n : Nat) (r : Rd) (len : Nat), Le (findChild n r len name .strict) (findChild n r len name m) := by
  intro n
  induction n with
  | zero => intros; exact .refl _
  | succ n ih =>
    intro r len
    unfold findChild
    refine .ite (fun _ => .refl _) fun _ => .bind (readInfo_le ..).toLe ?_
    rintro ⟨a, r⟩
    cases a with
    | none => exact .refl _
    | some a => exact .ite (fun _ => .refl _) fun _ => .bind (.refl _) fun _ => ih ..

/-- The options, in another mode. -/
def mp4Mode (c : Config) (m : Mode) : Config := { c with opts := { c.opts with mode := m } }

theorem udta_le (c : Config) (m : Mode) (r : Rd) (len : Nat) : Le (ilstFromUdta (mp4Mode c .strict) r len) (ilstFromUdta (mp4Mode c m) r len) := by
  unfold ilstFromUdta
  refine .bind (seek_le ..) ?_
  rintro ⟨a, r⟩
  cases a with
  | none => exact .refl _
  | some a =>
    refine .bind (.refl _) fun x => .bind (seek_le ..) ?_
    rintro ⟨a, r⟩
    cases a with
    | none => exact .refl _
    | some a =>
      refine .bind ?_ fun _ => .refl _
      unfold readIlst
      exact .ite (fun _ => .refl _) fun _ => .bind (.refl _) fun _ => .bind (ilst_le ..) fun _ => .refl _

theorem moovStep_le (c : Config) (m : Mode) (r : Rd) (a : Info) (x : Moov) : Le (moovStep (mp4Mode c .strict) r a x) (moovStep (mp4Mode c m) r a x) := by
  unfold moovStep
  refine .ite (fun _ => .bind (child_le ..) fun _ => .refl _) fun _ => .ite (fun _ => .bind (udta_le ..) fun _ => .refl _) fun _ => .refl _

theorem moovLoop_le (c : Config) (m : Mode) : ∀ (n : Nat) (r : Rd) (x : Moov), Le (moovLoop (mp4Mode c .strict) n r x) (moovLoop (mp4Mode c m) n r x) := by
  intro n
  induction n with
  | zero => intros; exact .refl _
  | succ n ih =>
    intro r x
    unfold moovLoop
    exact atoms_le _ (fun a r => .bind (moovStep_le ..) fun _ => ih ..) (atom_le ..)

theorem findMoov_le (m : Mode) : ∀ (n : Nat) (r : Rd), Le (findMoov n r .strict) (findMoov n r m) := by
  intro n
  induction n with
  | zero => intros; exact .refl _
  | succ n ih =>
    intro r
    unfold findMoov
    exact atoms_le _ (fun a r => .ite (fun _ => .refl _) fun _ => .bind (.refl _) fun _ => ih ..) (atom_le ..)

/-- **An MP4 file that is read in strict mode is read alike in every mode.** -/
theorem mp4_le (c : Config) (m : Mode) (f : Bytes) : Le (readFrom (mp4Mode c .strict) f) (readFrom (mp4Mode c m) f) := by
  unfold readFrom
  refine .bind ?_ fun _ => .bind (findMoov_le ..) fun _ => .bind (moovLoop_le ..) fun _ => .refl _
  unfold verifyMp4
  exact .bind (atom_le ..).toLe fun _ => .refl _

end

/-! ## MPEG -/

section
open FileTags

/-- What the one gives and is such, the other gives too. -/
structure LeOn {α : Type} (P : α → Prop) (x y : Except Err α) : Prop where
  gives : ∀ a, P a → x = .ok a → y = .ok a

theorem Le.on {α : Type} {P : α → Prop} {x y : Except Err α} (h : Le x y) : LeOn P x y := ⟨fun a _ => h.gives a⟩

theorem LeOn.bind {α β : Type} {P : β → Prop} {x y : Except Err α} {f g : α → Except Err β} (h : Le x y) (hf : ∀ a, LeOn P (f a) (g a)) :
    LeOn P (x >>= f) (y >>= g) := by
  refine ⟨fun b hp hb => ?_⟩
  cases x with
  | error e => cases hb
  | ok a =>
    rw [h.gives a rfl]
    exact (hf a).gives b hp hb

theorem LeOn.ite {α : Type} {P : α → Prop} {c : Prop} [Decidable c] {a a' b b' : Except Err α} (h1 : c → LeOn P a a') (h2 : ¬ c → LeOn P b b') :
    LeOn P (if c then a else b) (if c then a' else b') := by
  by_cases hc : c
  · rw [if_pos hc, if_pos hc]; exact h1 hc
  · rw [if_neg hc, if_neg hc]; exact h2 hc

theorem noMarker_prefix {d : Bytes} {n : Nat} (k : Nat) (h : Id3v2.NoMarker (d.take n)) (hk : k ≤ n) : Id3v2.NoMarker (d.take k) := by
  intro a b hc
  refine h a (b ++ (d.take n).drop k) ?_
  have : d.take n = d.take k ++ (d.take n).drop k := by
    conv => lhs; rw [← List.take_append_drop k (d.take n)]
    rw [List.take_take, Nat.min_eq_left hk]
  refine this.trans ?_
  rw [hc]
  simp only [List.append_assoc]

/-- The search for a tag in the junk is left out in strict mode, and finds nothing where there is no `ID3`. -/
theorem junkTag_eq (o : Opts) (m : Mode) (f : Bytes) (off : Nat) (st : Front) (h : st.id3v2.isSome ∨ Id3v2.NoMarker (f.take o.junk)) :
    junkTag (inMode o m) f off st = .ok st := by
  unfold junkTag
  by_cases hc : st.id3v2.isNone ∧ (inMode o m).id3.mode ≠ .strict ∧ 0 < off
  · rw [if_pos hc]
    obtain h | h := h
    · rw [Option.isSome_iff_ne_none] at h
      exact absurd (Option.isNone_iff_eq_none.mp hc.1) h
    · have : Id3v2.find f 0 (inMode o m).readTags (some (min off (inMode o m).junk)) = .ok (none, 0) := by
        unfold Id3v2.find
        show (match Id3v2.findInJunk ((f.drop 0).take (min off o.junk)) with
          | none => _
          | some off => _) = _
        rw [List.drop_zero, Id3v2.findInJunk_none (noMarker_prefix _ h (Nat.min_le_right _ _))]
      rw [this]
      rfl
  · rw [if_neg hc]

/-- What is asked of the tags in front. -/
def Known (o : Opts) (f : Bytes) (st : Front) : Prop := st.id3v2.isSome ∨ Id3v2.NoMarker (f.take o.junk)

theorem front_le (o : Opts) (m : Mode) (f : Bytes) : ∀ (n pos : Nat) (st : Front),
    LeOn (fun x => Known o f x.1) (front (inMode o .strict) f n pos st) (front (inMode o m) f n pos st) := by
  intro n
  induction n with
  | zero => intros; exact (Le.refl _).on
  | succ n ih =>
    intro pos st
    unfold front
    cases readAt f pos 4 with
    | error e => exact (Le.refl _).on
    | ok b =>
      refine .ite (fun _ => ?_) fun _ => .ite (fun _ => .bind (.refl _) fun _ => .ite (fun _ => .bind (.refl _) fun _ =>
        .ite (fun _ => .bind (.refl _) fun _ => ih ..) fun _ => ih ..) fun _ => (Le.refl _).on) fun _ => .bind (.refl _) fun x => ?_
      · cases Id3v2.parseHeader f pos with
        | error e => exact (Le.refl _).on
        | ok x =>
          refine .ite (fun _ => .bind (parseId3_le ..) fun t => ?_) fun _ => ih ..
          cases st.id3v2 with
          | some old => exact ih ..
          | none => exact ih ..
      · cases x with
        | none => exact (Le.refl _).on
        | some x =>
          obtain ⟨h, off⟩ := x
          refine ⟨fun a hp ha => ?_⟩
          have hs : junkTag (inMode o .strict) f off st = .ok st := if_neg (fun h => h.2.1 rfl)
          dsimp only at ha ⊢
          rw [hs] at ha
          obtain rfl := (Except.ok.injEq _ _).mp ha
          rw [junkTag_eq o m f off st hp]
          rfl

/-- **An MPEG file that is read in strict mode is read alike in every mode**, tags and properties, if it has an ID3v2 tag or there is no
`ID3` in the bytes that may be searched for one. -/
theorem mpeg_le (o : Opts) (m : Mode) (f : Bytes) : LeOn (fun x => x.id3v2.isSome ∨ Id3v2.NoMarker (f.take o.junk))
    (readMpeg (inMode o .strict) f) (readMpeg (inMode o m) f) := by
  unfold readMpeg
  refine .ite (fun _ => (Le.refl _).on) fun _ => ⟨fun a hp ha => ?_⟩
  have hf := front_le o m f (f.length + 1) (f.length - (f.dropWhile (· = 0)).length) ⟨none, none⟩
  revert hf ha
  generalize front (inMode o .strict) f (f.length + 1) (f.length - (f.dropWhile (· = 0)).length) ⟨none, none⟩ = x
  generalize front (inMode o m) f (f.length + 1) (f.length - (f.dropWhile (· = 0)).length) ⟨none, none⟩ = y
  intro ha hf
  cases x with
  | error e => cases ha
  | ok x =>
    obtain ⟨st, first⟩ := x
    have hk : Known o f st := by
      have key : ∀ (t : Except Err Tail), (t >>= fun t => mpegEnd t st.ape >>= fun y => if (inMode o .strict).readProps then
          (mpegProps f first y.2 >>= fun p => .ok ⟨st.id3v2, t.v1, y.1, some p⟩) else .ok ⟨st.id3v2, t.v1, y.1, none⟩) = .ok a → a.id3v2 = st.id3v2 := by
        intro t ht
        cases t with
        | error e => cases ht
        | ok t =>
          replace ht : (mpegEnd t st.ape >>= fun y => if (inMode o .strict).readProps then
            (mpegProps f first y.2 >>= fun p => .ok ⟨st.id3v2, t.v1, y.1, some p⟩) else .ok ⟨st.id3v2, t.v1, y.1, none⟩) = .ok a := ht
          cases he : mpegEnd t st.ape with
          | error e => rw [he] at ht; cases ht
          | ok y =>
            rw [he] at ht
            replace ht : (if (inMode o .strict).readProps then
              (mpegProps f first y.2 >>= fun p => .ok ⟨st.id3v2, t.v1, y.1, some p⟩) else .ok ⟨st.id3v2, t.v1, y.1, none⟩) = .ok a := ht
            split at ht
            · cases hq : mpegProps f first y.2 with
              | error e => rw [hq] at ht; cases ht
              | ok p => rw [hq] at ht; obtain rfl := (Except.ok.injEq _ _).mp ht; rfl
            · obtain rfl := (Except.ok.injEq _ _).mp ht; rfl
      have := key _ ha
      unfold Known
      rw [← this]
      exact hp
    rw [hf.gives _ hk rfl]
    exact (Le.bind (tail_le o m f) fun _ => .refl _).gives a ha

end

/-! ## All files -/

theorem toFlac_le (o : ReadOptions) (m : Mode) (f : Bytes) : Le (openFlac { o with mode := .strict } f) (openFlac { o with mode := m } f) := by
  unfold openFlac
  exact .bind (.refl _) fun _ => .bind (contentOf_le o.files m _) fun _ => .bind (flac_le o.comments _ f) fun _ => .refl _

/-- **C70: a file that is read in strict mode is read alike in the other modes**: the same tags with the same items and pictures,
whatever else is asked for.  For an MPEG file, if one of the tags is an ID3v2 tag or there is no `ID3` in the bytes that may be searched for one. -/
theorem modes_partial (o : ReadOptions) (m : Mode) {f : Bytes} {ts : List Item.Tag} (h : openFile { o with mode := .strict } f = .ok ts)
    (hj : Save.verified f = .ok .mpeg → (∃ t ∈ ts, t.type = .id3v2) ∨ Id3v2.NoMarker (f.take o.junk)) :
    openFile { o with mode := m } f = .ok ts := by
  unfold openFile at h ⊢
  cases hv : Save.verified f with
  | error e => rw [hv] at h; cases h
  | ok ty =>
    rw [hv] at h hj
    replace h : openAs { o with mode := .strict } f ty = .ok ts := h
    show openAs { o with mode := m } f ty = .ok ts
    cases ty with
    | aac => exact (Le.map (aac_le o.files m f)).gives ts h
    | aiff => exact (Le.map (aiff_le o.files m f)).gives ts h
    | ape => exact (Le.map (mac_le o.files m f)).gives ts h
    | flac => exact (toFlac_le o m f).gives ts h
    | opus => exact (Le.map (ogg_le .opus o.comments _ f)).gives ts h
    | vorbis => exact (Le.map (ogg_le .vorbis o.comments _ f)).gives ts h
    | wav => exact (Le.map (wav_le o.files m f)).gives ts h
    | mp4 => exact (Le.map (mp4_le o.mp4 m f)).gives ts h
    | mpc => exact (Le.map (mpc_le o.files m f)).gives ts h
    | speex => exact (Le.map (ogg_le .speex o.comments _ f)).gives ts h
    | wavPack => exact (Le.map (wavPack_le o.files m f)).gives ts h
    | mpeg =>
      replace h : (FileTags.readMpeg (inMode o.files .strict) f).map (fun x => tagsOf o.custom x.id3v2 x.id3v1 x.ape) = .ok ts := h
      show (FileTags.readMpeg (inMode o.files m) f).map (fun x => tagsOf o.custom x.id3v2 x.id3v1 x.ape) = .ok ts
      cases hr : FileTags.readMpeg (inMode o.files .strict) f with
      | error e => rw [hr] at h; cases h
      | ok x =>
        rw [hr] at h
        obtain rfl := (Except.ok.injEq _ _).mp h
        have : x.id3v2.isSome ∨ Id3v2.NoMarker (f.take o.junk) := by
          obtain ⟨t, ht, hty⟩ | h := hj rfl
          · refine .inl ?_
            cases hx : x.id3v2 with
            | some t => rfl
            | none =>
              dsimp only [tagsOf] at ht
              rw [hx] at ht
              simp only [Option.map_none, Option.toList_none, List.nil_append, List.mem_append, Option.mem_toList, Option.map_eq_some_iff] at ht
              obtain ⟨u, -, rfl⟩ | ⟨u, -, rfl⟩ := ht
              · exact absurd hty (by rw [ofId3v1_type]; decide)
              · exact absurd hty (by show ¬ Item.TagType.ape = .id3v2; decide)
          · exact .inr h
        rw [(mpeg_le o.files m f).gives x this hr]
        rfl

/-! ## Properties -/

section
open Lossless

theorem macFinish_le (b : Bool) (p : Mac) (frames final per stream file : Nat) :
    Le (macFinish true p frames final per stream file) (macFinish b p frames final per stream file) := by
  unfold macFinish
  exact .ite (fun _ => .refl _) fun _ => .strictB

theorem macProps_le (b : Bool) (r : Bytes) (stream file : Nat) : Le (mac true r stream file) (mac b r stream file) := by
  unfold mac
  cases readLE 2 r with
  | error e => exact .refl _
  | ok x =>
    refine .ite (fun _ => ?_) fun _ => ?_
    · unfold macNew
      cases readN 46 x.2 with
      | error e => exact .refl _
      | ok y =>
        dsimp only
        generalize (if 52 < fromLE ((y.1.drop 2).take 4) then y.2.drop (fromLE ((y.1.drop 2).take 4) - 52) else y.2) = z
        cases readN 24 z with
        | error e => exact .refl _
        | ok w =>
          exact .bind (.refl _) fun _ => .bind (.refl _) fun _ => .bind (.refl _) fun _ => .bind (.refl _) fun _ => .bind (.refl _) fun _ =>
            .bind (.refl _) fun _ => macFinish_le ..
    · unfold macOld
      cases readN 26 x.2 with
      | error e => exact .refl _
      | ok y =>
        exact .bind (.refl _) fun _ => .bind (.refl _) fun _ => .bind (.refl _) fun _ => .bind (.refl _) fun _ => .bind (.refl _) fun _ =>
          .bind (.refl _) fun _ => .bind (.refl _) fun _ => macFinish_le ..

end

section
open WavPack

theorem subBlock_eq (b : Bool) (id : Nat) (r : Bytes) (size : Nat) (p : Props) (h : ∀ e, (subBlock true id r size p).2 ≠ .error e) :
    subBlock b id r size p = subBlock true id r size p := by
  unfold subBlock at h ⊢
  split
  · rfl
  · split
    · split
      · rfl
      · rename_i h1 h2 h3
        rw [if_neg h1, if_pos h2, if_neg h3] at h
        revert h
        cases readU8 r with
        | error e => intro _; rfl
        | ok x =>
          cases sub size 1 with
          | error e => intro _; rfl
          | ok y =>
            intro h
            dsimp only at h ⊢
            by_cases hm : 30 < x.1.toNat
            · rw [if_pos hm, if_pos rfl] at h
              exact absurd rfl (h .parse)
            · rw [if_neg hm, if_neg hm]
    · rfl

theorem extended_eq (b : Bool) : ∀ (n : Nat) (r : Bytes) (p q : Props), extended true n r p = (q, .ok ()) → extended b n r p = (q, .ok ()) := by
  intro n
  induction n with
  | zero => intro r p q h; exact h
  | succ n ih =>
    intro r p q h
    unfold extended at h ⊢
    by_cases h1 : r.length < 2
    · rw [if_pos h1] at h ⊢; exact h
    · rw [if_neg h1] at h ⊢
      cases hs : subHeader r with
      | error e => rw [hs] at h; exact h
      | ok x =>
        obtain ⟨id, size, r⟩ := x
        rw [hs] at h
        dsimp only at h ⊢
        by_cases h2 : size = 0
        · rw [if_pos h2] at h ⊢; exact ih _ _ _ h
        · rw [if_neg h2] at h ⊢
          by_cases h3 : r.length < size
          · rw [if_pos h3] at h ⊢; exact h
          · rw [if_neg h3] at h ⊢
            generalize sub size (if id &&& 0x40 ≠ 0 then 1 else 0) = z at h ⊢
            cases z with
            | error e => exact h
            | ok size =>
              dsimp only at h ⊢
              have he : ∀ e, (subBlock true (id &&& 0x3F).toNat r size p).2 ≠ .error e := by
                intro e he
                cases hb : subBlock true (id &&& 0x3F).toNat r size p with
                | mk p' x =>
                  rw [hb] at he h
                  dsimp only at he
                  subst he
                  cases h
              rw [subBlock_eq b _ _ _ _ he]
              cases hb : subBlock true (id &&& 0x3F).toNat r size p with
              | mk p' x =>
                rw [hb] at h
                cases x with
                | error e => exact h
                | ok x =>
                  cases x with
                  | none => exact h
                  | some x =>
                    obtain ⟨r, size⟩ := x
                    dsimp only at h ⊢
                    by_cases h4 : r.length < size
                    · rw [if_pos h4] at h ⊢; exact h
                    · rw [if_neg h4] at h ⊢
                      by_cases h5 : id &&& 0x40 ≠ 0
                      · rw [if_pos h5] at h ⊢
                        cases hr : readU8 (r.drop size) with
                        | error e => rw [hr] at h; exact h
                        | ok y => rw [hr] at h; exact ih _ _ _ h
                      · rw [if_neg h5] at h ⊢; exact ih _ _ _ h

theorem stepBody_eq (b : Bool) (x : Block) (p : Props) (total offset : Nat) (h : ∀ e, stepBody true x p total offset ≠ .fail e) :
    stepBody b x p total offset = stepBody true x p total offset := by
  unfold stepBody at h ⊢
  dsimp only at h ⊢
  by_cases hc : x.flags &&& 0x800 = 0x800 ∧ (x.version < 0x402 ∨ 0x410 < x.version)
  · rw [if_pos hc, if_pos rfl] at h
    exact absurd rfl (h .parse)
  · rw [if_neg hc, if_neg hc]

theorem wvStep_eq (b : Bool) (f : Bytes) (p : Props) (total offset : Nat) (h : ∀ e, step true f p total offset ≠ .fail e) :
    step b f p total offset = step true f p total offset := by
  unfold step at h ⊢
  cases hh : header (f.drop offset) with
  | error e => rw [hh] at h; exact absurd rfl (h e)
  | ok x =>
    rw [hh] at h
    dsimp only at h ⊢
    split
    · rename_i h1
      rw [if_pos h1] at h
      cases hr : readAt f (offset + 32) (x.size - 24) with
      | error e => rfl
      | ok c =>
        rw [hr] at h
        dsimp only at h ⊢
        cases hx : extended true (c.length + 1) c { p with sampleRate := sampleRates.getD ((x.flags >>> 23) &&& 0xF) 0 } with
        | mk q z =>
          rw [hx] at h
          cases z with
          | error e => exact absurd rfl (h e)
          | ok u =>
            rw [extended_eq b _ _ _ _ hx]
            dsimp only at h ⊢
            split
            · rename_i h2
              rw [if_pos h2] at h
              exact absurd rfl (h .parse)
            · rename_i h2
              rw [if_neg h2] at h
              exact stepBody_eq b x _ _ _ h
    · rename_i h1
      rw [if_neg h1] at h
      exact stepBody_eq b x _ _ _ h

theorem wvLoop_le (b : Bool) (f : Bytes) : ∀ (n : Nat) (p : Props) (total offset : Nat), Le (WavPack.loop true f n p total offset) (WavPack.loop b f n p total offset) := by
  intro n
  induction n with
  | zero => intros; exact .refl _
  | succ n ih =>
    intro p total offset
    unfold WavPack.loop
    cases hs : step true f p total offset with
    | fail e => exact .err
    | stop q t =>
      rw [wvStep_eq b f p total offset (by rw [hs]; intro e h; cases h), hs]
      exact .refl _
    | next q t off =>
      rw [wvStep_eq b f p total offset (by rw [hs]; intro e h; cases h), hs]
      exact ih ..

theorem wvProps_le (b : Bool) (f : Bytes) (stream : Nat) : Le (WavPack.readProperties true f stream) (WavPack.readProperties b f stream) := by
  unfold WavPack.readProperties
  exact .bind (wvLoop_le ..) fun _ => .ite (fun _ => .refl _) fun _ => .ite (fun _ => .strictB) fun _ => .refl _

end

section
open FileTags

/-- **A WavPack file that is read in strict mode is read alike in every mode**, tags and properties. -/
theorem wavPackFile_le (o : Opts) (m : Mode) (f : Bytes) : Le (readWavPackFile (inMode o .strict) f) (readWavPackFile (inMode o m) f) := by
  unfold readWavPackFile
  exact .bind (wavPack_le ..) fun _ => .ite (fun _ => .bind (wvProps_le (decide (m = .strict)) ..) fun _ => .refl _) fun _ => .refl _

/-- **A Monkey's Audio file that is read in strict mode is read alike in every mode**, tags and properties. -/
theorem macFile_le (o : Opts) (m : Mode) (f : Bytes) : Le (readMacFile (inMode o .strict) f) (readMacFile (inMode o m) f) := by
  unfold readMacFile
  exact .bind (mac_le ..) fun _ => .ite (fun _ => .bind (.refl _) fun _ => .bind (tail_le ..) fun _ =>
    .bind (macProps_le (decide (m = .strict)) ..) fun _ => .refl _) fun _ => .refl _

end

section
open Mp4 Mp4Read Mp4Props

theorem mdia_le (m : Mode) (len : Nat) : ∀ (n : Nat) (r : Rd) (read : Nat) (t : Trak), Le (mdiaLoop .strict len n r read t) (mdiaLoop m len n r read t) := by
  intro n
  induction n with
  | zero => intros; exact .refl _
  | succ n ih =>
    intro r read t
    unfold mdiaLoop
    refine .ite (fun _ => .bind (atom_le ..).toLe ?_) fun _ => .refl _
    rintro ⟨a, r⟩
    cases a with
    | none => exact .refl _
    | some a =>
      exact .ite (fun _ => .bind (.refl _) fun _ => ih ..) fun _ => .ite (fun _ => .ite (fun _ => .bind (.refl _) fun _ => ih ..) fun _ =>
        .bind (.refl _) fun _ => .bind (.refl _) fun _ => ih ..) fun _ => .ite (fun _ => ih ..) fun _ => .bind (.refl _) fun _ => ih ..

theorem trak_le (m : Mode) (r : Rd) : ∀ (l : List Info) (t : Trak), Le (trakLoop .strict r l t) (trakLoop m r l t) := by
  intro l
  induction l with
  | nil => intros; exact .refl _
  | cons a l ih =>
    intro t
    unfold trakLoop
    exact .ite (fun _ => .refl _) fun _ => .bind (mdia_le ..) fun _ => ih ..

theorem stbl_le (m : Mode) (limit len : Nat) : ∀ (n : Nat) (r : Rd) (read : Nat) (t : Option Bytes × Option (List (Nat × Nat))),
    Le (stblLoop .strict limit len n r read t) (stblLoop m limit len n r read t) := by
  intro n
  induction n with
  | zero => intros; exact .refl _
  | succ n ih =>
    intro r read t
    unfold stblLoop
    refine .ite (fun _ => .bind (atom_le ..).toLe ?_) fun _ => .refl _
    rintro ⟨a, r⟩
    cases a with
    | none => exact .refl _
    | some a =>
      dsimp only
      cases a.ident with
      | freeform x y => exact ih ..
      | fourcc id =>
        exact .ite (fun _ => .bind (.refl _) fun _ => ih ..) fun _ => .ite (fun _ => .bind (.refl _) fun _ => ih ..) fun _ =>
          .bind (.refl _) fun _ => ih ..

theorem minf_le (m : Mode) (limit : Nat) (r : Rd) (len : Nat) : Le (parseMinf .strict limit r len) (parseMinf m limit r len) := by
  unfold parseMinf
  refine .bind (child_le ..) ?_
  rintro ⟨a, r⟩
  cases a with
  | none => exact .refl _
  | some a => exact .bind (stbl_le ..) fun _ => .refl _

theorem mp4a_le (m : Mode) (r : Rd) (p : Mp4Props.Props) : Le (mp4a .strict r p) (mp4a m r p) := by
  unfold mp4a
  exact atoms_le _ (fun _ _ => .refl _) (atom_le ..)

theorem alac_le (m : Mode) (r : Rd) (p : Mp4Props.Props) : Le (alac .strict r p) (alac m r p) := by
  unfold alac
  exact .ite (fun _ => .refl _) fun _ => atoms_le _ (fun _ _ => .refl _) (atom_le ..)

theorem dfla_le (m : Mode) (limit : Nat) (r : Rd) (p : Mp4Props.Props) : Le (Mp4Props.flac .strict limit r p) (Mp4Props.flac m limit r p) := by
  unfold Mp4Props.flac
  exact .bind (atom_le ..).toLe fun _ => .refl _

theorem stsdEntry_le (m : Mode) (limit : Nat) (r : Rd) (p : Mp4Props.Props) : Le (stsdEntry .strict limit r p) (stsdEntry m limit r p) := by
  unfold stsdEntry
  refine .bind (atom_le ..).toLe ?_
  rintro ⟨a, r⟩
  cases a with
  | none => exact .refl _
  | some a =>
    refine .ite (fun _ => .refl _) fun _ => ?_
    cases a.ident with
    | freeform x y => exact .refl _
    | fourcc id =>
      refine .bind (.refl _) fun _ => .ite (fun _ => .refl _) fun _ => .bind (.refl _) fun _ => .bind (.refl _) fun _ => ?_
      dsimp only
      refine .ite (fun _ => ?_) fun _ => .ite (fun _ => .bind (.refl _) fun _ => ?_) fun _ => ?_
      all_goals
        exact .ite (fun _ => .bind (mp4a_le ..) fun _ => .refl _) fun _ => .ite (fun _ => .bind (alac_le ..) fun _ => .refl _) fun _ =>
          .ite (fun _ => .bind (dfla_le ..) fun _ => .refl _) fun _ => .refl _

theorem stsd_le (m : Mode) (limit : Nat) : ∀ (n : Nat) (r : Rd) (p : Mp4Props.Props), Le (stsdLoop .strict limit n r p) (stsdLoop m limit n r p) := by
  intro n
  induction n with
  | zero => intros; exact .refl _
  | succ n ih =>
    intro r p
    unfold stsdLoop
    refine .bind (stsdEntry_le ..) ?_
    rintro ⟨p, r⟩
    cases r with
    | none => exact .refl _
    | some r => exact ih ..

theorem mdat_le (m : Mode) : ∀ (n : Nat) (r : Rd), Le (mdatLength .strict n r) (mdatLength m n r) := by
  intro n
  induction n with
  | zero => intros; exact .refl _
  | succ n ih =>
    intro r
    unfold mdatLength
    exact atoms_le _ (fun a r => .ite (fun _ => .refl _) fun _ => .bind (.refl _) fun _ => ih ..) (atom_le ..)

theorem mp4Props_le (m : Mode) (limit : Nat) (r : Rd) (traks : List Info) (file : Nat) :
    Le (Mp4Props.readProperties .strict limit r traks file) (Mp4Props.readProperties m limit r traks file) := by
  unfold Mp4Props.readProperties
  refine .bind ?_ fun x => .bind (.refl _) fun y => .bind (.refl _) fun d => ?_
  · unfold findAudio
    exact .bind (trak_le ..) fun _ => .refl _
  · cases x.2 with
    | none => exact .refl _
    | some i =>
      refine .bind (minf_le ..) fun z => ?_
      cases z with
      | none => exact .refl _
      | some z =>
        refine .bind ?_ fun p => .ite (fun _ => ?_) fun _ => .refl _
        · unfold readStsd
          exact .bind (.refl _) fun _ => stsd_le ..
        · have h := mdat_le m (r.f.length + 1) (r.seekStart 0)
          revert h
          generalize mdatLength .strict (r.f.length + 1) (r.seekStart 0) = u
          intro h
          cases u with
          | error e => cases e <;> exact .err
          | ok k => rw [h.gives k rfl]; exact .refl _

/-- **An MP4 file that is read in strict mode is read alike in every mode**, tag and properties. -/
theorem mp4File_le (c : Config) (m : Mode) (f : Bytes) : Le (readFile (mp4Mode c .strict) f) (readFile (mp4Mode c m) f) := by
  unfold readFile
  exact .bind (mp4_le ..) fun _ => .ite (fun _ => .bind (mp4Props_le ..) fun _ => .refl _) fun _ => .refl _

end

/-! ## Examples -/

/-- A tag with a title. -/
def exTag : Bytes := ascii "ID3" ++ [4, 0, 0, 0, 0, 0, 12] ++ ascii "TIT2" ++ [0, 0, 0, 2, 0, 0, 0, 120]

/-- The texts in the tags of the file. -/
def titles (m : Mode) (f : Bytes) : Option (List (List Str)) :=
  (openFile { exRead with mode := m } f).toOption.map fun ts => ts.map fun t => t.items.filterMap fun i => i.value.intoString

/-- The hypotheses are met by files of several formats. -/
example : titles .strict (exTag ++ Save.mp3) = some [[str "x"]] ∧ titles .bestAttempt (exTag ++ Save.mp3) = some [[str "x"]] ∧
    titles .strict OggWrite.opus = some [[str "x", str "libopus"]] := by decide +kernel

/-- **Not every file that is read in strict mode is read alike in the others** (mpeg/read.rs 113-146): behind junk, the other modes look for
an ID3v2 tag and strict mode does not, so that they show a tag more, or fail where the tag is cut off. -/
theorem junk_modes :
    let f := [1, 2, 3, 4, 5] ++ exTag ++ Save.mp3
    let g := [1, 2, 3, 4, 5] ++ (ascii "ID3" ++ [4, 0, 0, 0, 0, 127, 12]) ++ Save.mp3
    titles .strict f = some [] ∧ titles .bestAttempt f = some [[str "x"]] ∧
      titles .strict g = some [] ∧ titles .bestAttempt g = none ∧ titles .relaxed g = none := by decide +kernel

end Lofty.Modes
