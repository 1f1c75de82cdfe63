import Verif.Lemmas.Flac
import Verif.Props.Vorbis
import Verif.Props.Id3v2Header
/-! # C15, C16: FLAC metadata blocks, and writing tags to FLAC files -/
namespace Lofty.Flac
open Spec

/-! ## C15 -/

/-- C15: a written block has a one-byte type and flag, a 24-bit length and its content, and
reading it back (anywhere in a file) gives the same type, flag and content, ending exactly
behind it.  With a predicate that declines the type, the content is skipped instead. -/
theorem readBlock_write (b : Block) (w pre rest : Bytes) (want : UInt8 → Bool) (hty : b.ty < 128)
    (h : b.write = .ok w) :
    w.length = 4 + b.content.length ∧
    readBlock (pre ++ w ++ rest) pre.length want
      = .ok ⟨b.ty, b.last, if want b.ty then b.content else [], pre.length, pre.length + w.length⟩ := by
  have hl : b.content.length < 2 ^ 24 := by
    unfold Block.write maxContent at h
    split at h
    · cases h
    · omega
  rw [write_eq b hty hl] at h
  cases h
  rw [List.append_assoc, readBlock_encodeOne pre rest b.last (b.ty, b.content) want ⟨hty, hl⟩, encodeOne_length]
  exact ⟨rfl, rfl⟩

/-- C15: exactly the blocks of at most 16777215 bytes can be written. -/
theorem write_refuses (b : Block) : b.write = .error .tooMuch ↔ 16777215 < b.content.length := by
  unfold Block.write maxContent
  split <;> simp <;> omega

example : (⟨4, true, [1, 2, 3], 0, 0⟩ : Block).write = .ok [0x84, 0, 0, 3, 1, 2, 3] := by decide

/-! ## C16 -/

/-- What may stand in front of the FLAC stream: the tag search, started at the beginning of
any file of this form, ends in front of the stream marker. -/
def Skipped (pre : Bytes) : Prop :=
  ∀ (read : Bool) (rest : Bytes), 6 ≤ rest.length →
    ∃ r, Id3v2.find (pre ++ (ascii "fLaC" ++ rest)) 0 read none = .ok (r, pre.length)

/-- Nothing in front of the stream is fine. -/
theorem skipped_nil : Skipped [] := by
  intro read rest h
  obtain ⟨a, b, c, d, e, g, rest, rfl⟩ : ∃ a b c d e g r, rest = a :: b :: c :: d :: e :: g :: r := by
    match rest, h with
    | a :: b :: c :: d :: e :: g :: r, _ => exact ⟨a, b, c, d, e, g, r, rfl⟩
  refine ⟨none, ?_⟩
  have hid : ascii "fLaC" = [0x66, 0x4C, 0x61, 0x43] := by decide
  unfold Id3v2.find Id3v2.findAt Id3v2.parseHeader
  have hn := Id3v2.need_append [] [0x66, 0x4C, 0x61, 0x43, a, b, c, d, e, g] rest 10 rfl
  simp only [List.nil_append, List.length_nil] at hn
  rw [hid]
  simp only [List.nil_append, List.cons_append] at hn ⊢
  rw [hn]
  simp only [ok_bind, Id3v2.decodeHeader]
  rw [if_pos (by simp [show ascii "ID3" = [0x49, 0x44, 0x33] by decide])]
  rfl

/-- An ID3v2 tag written by the library (without extended header) is fine. -/
theorem skipped_tag (fl : Id3v2.Flags) (v23 : Bool) (padding : Option Nat) (body tag : Bytes)
    (hcrc : fl.crc = false) (hres : fl.restrictions = none) (hexp : v23 = true → fl.experimental = false)
    (hsize : body.length + padding.getD 0 < 2 ^ 32)
    (h : Id3v2.createTag fl v23 padding body = .ok tag) : Skipped tag := by
  intro read rest _
  obtain ⟨h1, h2, h3⟩ := Id3v2.parseHeader_createTag_partial fl v23 padding body tag (ascii "fLaC" ++ rest) hcrc hres
    hexp hsize h
  have hlen : tag.length = 10 + (body.length + if fl.footer then 0 else padding.getD 0) + if fl.footer then 10 else 0 := by
    have := congrArg List.length h2
    simp only [List.length_append, h3] at this
    cases hf : fl.footer
    · simp [hf] at this ⊢; omega
    · simp only [hf, if_true, List.length_append, List.length_take, List.length_drop] at this ⊢
      have h9 : (ascii "3DI").length = 3 := by decide
      have := congrArg List.length h2
      simp only [List.length_append, List.length_take, List.length_drop, hf, if_true] at this
      simp only [List.length_take] at h3
      omega
  unfold Id3v2.find Id3v2.findAt
  simp only
  rw [h1]
  simp only
  have hf : (Id3v2.written fl v23).footer = fl.footer := rfl
  rw [hf]
  have fin : ∀ (r : Option (Id3v2.Header × Option Bytes)) (p : Nat), p = tag.length →
      ∃ x, (.ok (r, p) : Except Err _) = .ok (x, tag.length) := fun r p h => ⟨r, by rw [h]⟩
  cases read
  · simp only [Bool.false_eq_true, if_false]
    refine fin _ _ ?_
    rw [hlen]
    cases fl.footer <;> simp
  · simp only [if_true]
    rw [Id3v2.need_ok (by simp only [List.length_append]; rw [hlen]; omega)]
    simp only
    refine fin _ _ ?_
    rw [hlen]
    cases fl.footer <;> simp

/-- The streams the theorems are about: something the tag search skips, the marker, a
STREAMINFO block, further metadata blocks (at least one), and the audio. -/
def stream (pre : Bytes) (blocks : List MBlock) (audio : Bytes) : Bytes :=
  pre ++ (ascii "fLaC" ++ (encode blocks ++ audio))

/-- `verify_flac` on a stream. -/
theorem verify_stream (pre si : Bytes) (bs : List MBlock) (audio : Bytes) (hsi : si.length < 2 ^ 24) :
    verify (stream pre ((0, si) :: bs) audio) pre.length
      = .ok ⟨0, bs.isEmpty, si, pre.length + 4, pre.length + 4 + (4 + si.length)⟩ := by
  unfold verify stream
  have h4 : (ascii "fLaC").length = 4 := by decide
  rw [readAt_append _ _ _ 4 h4, ok_bind, if_neg (by simp)]
  have e : ∀ tail, pre ++ (ascii "fLaC" ++ (encodeOne bs.isEmpty (0, si) ++ tail))
      = (pre ++ ascii "fLaC") ++ (encodeOne bs.isEmpty (0, si) ++ tail) := by intro; simp
  have e2 : ∃ tail, encode ((0, si) :: bs) ++ audio = encodeOne bs.isEmpty (0, si) ++ tail := by
    cases bs with
    | nil => exact ⟨audio, rfl⟩
    | cons c cs => exact ⟨encode (c :: cs) ++ audio, by rw [encode_cons _ (by simp), List.append_assoc]; rfl⟩
  obtain ⟨tail, ht⟩ := e2
  rw [ht, e]
  have := readBlock_encodeOne (pre ++ ascii "fLaC") tail bs.isEmpty (0, si) (fun _ => true)
    ⟨(by decide : (0 : UInt8) < 128), hsi⟩
  simp only [List.length_append, h4] at this
  rw [this, ok_bind]
  simp

/-- The comment and picture blocks of a tag. -/
def tagBlocks (vendor : Str) (t : Vorbis.Tag) : Except Err (List MBlock) :=
  (encodeTag vendor t.items t.pictures).map (List.map Block.m)

/-- Whether there is a block of one of the given types. -/
def hasType (tys : List UInt8) (bs : List MBlock) : Bool := bs.any fun b => tys.contains b.1

/-- The padding a write adds: none if there is a padding block already or no preferred
padding; otherwise as much as the shrunk metadata leaves, but at least the preferred amount. -/
def addedPadding (preferred : Option Nat) (old : List MBlock) (new : List MBlock) : List MBlock :=
  match preferred with
  | none => []
  | some p => if hasType [1] old.tail then [] else
      [(1, List.replicate (min (max ((encode old).length - (encode new).length - 4) p) 16777215) 0)]

theorem newPictures_valid : ∀ (ps : List (Picture.Pic × Picture.Info)) (bs : List Block), newPictures ps = .ok bs →
    bs.map Block.m = ps.map (fun p => ((6 : UInt8), Picture.asFlacBytes p.1 p.2 false)) ∧
    ∀ b ∈ bs, b.last = false ∧ MBlock.Valid b.m
  | [], bs, h => by cases h; simp
  | p :: ps, bs, h => by
    rw [newPictures] at h
    obtain ⟨b, hb, h⟩ := bind_ok h
    obtain ⟨cs, hc, h⟩ := bind_ok h
    cases h
    obtain ⟨h1, h2⟩ := newPictures_valid ps cs hc
    unfold newPicture at hb
    simp only at hb
    split at hb
    · cases hb
    · next hl =>
      cases hb
      refine ⟨by simp [Block.m, h1], ?_⟩
      intro x hx
      rcases List.mem_cons.mp hx with rfl | hx
      · exact ⟨rfl, (by decide : (6 : UInt8) < 128), by simp only [Block.m]; unfold maxContent at hl; omega⟩
      · exact h2 x hx

theorem encodeTag_valid (vendor : Str) (items : List Vorbis.Item) (ps : List (Picture.Pic × Picture.Info))
    (bs : List Block) (h : encodeTag vendor items ps = .ok bs) :
    (∃ c, (items = [] ∧ c = [] ∨ ∃ packet, items ≠ [] ∧ Vorbis.createPacket ⟨vendor, items, []⟩ [] false = .ok packet ∧
        packet.length < 2 ^ 24 ∧ c = [((4 : UInt8), packet)]) ∧
      bs.map Block.m = c ++ ps.map (fun p => ((6 : UInt8), Picture.asFlacBytes p.1 p.2 false))) ∧
    ∀ b ∈ bs, b.last = false ∧ MBlock.Valid b.m := by
  unfold encodeTag at h
  obtain ⟨cs, hc, h⟩ := bind_ok h
  obtain ⟨h1, h2⟩ := newPictures_valid ps cs hc
  cases items with
  | nil => cases h; exact ⟨⟨[], Or.inl ⟨rfl, rfl⟩, by simpa using h1⟩, h2⟩
  | cons i is =>
    simp only at h
    obtain ⟨b, hb, h⟩ := bind_ok h
    cases h
    unfold newComments at hb
    obtain ⟨packet, hp, hb⟩ := bind_ok hb
    split at hb
    · cases hb
    · next hl =>
      cases hb
      unfold maxContent at hl
      refine ⟨⟨_, Or.inr ⟨packet, by simp, hp, by omega, rfl⟩, by simp [Block.m, h1]⟩, ?_⟩
      intro x hx
      rcases List.mem_cons.mp hx with rfl | hx
      · exact ⟨rfl, (by decide : (4 : UInt8) < 128), by simp only [Block.m]; omega⟩
      · exact h2 x hx

/-- C16: writing a tag to any FLAC stream.  The audio, everything in front of the stream and
every block that is not a comment or a picture stay as they are, in order and with STREAMINFO
first; the tag's comment and picture blocks follow, then possibly a padding block; exactly the
last block is flagged (that is what `encode` says).  If there is nothing to write or remove
the file is unchanged. -/
theorem writeTo_stream (pre si audio : Bytes) (bs : List MBlock) (tag : Vorbis.Tag) (preferred : Option Nat)
    (vendor : Str) (new : List MBlock) (hpre : Skipped pre) (hsi : si.length < 2 ^ 24) (hsi2 : 2 ≤ si.length)
    (hv : ∀ b ∈ bs, b.Valid) (hvendor : scanVendor tag.vendor bs = .ok vendor)
    (hnew : tagBlocks vendor tag = .ok new) :
    writeTo (stream pre ((0, si) :: bs) audio) tag preferred = .ok (
      if hasType [4, 6] bs = false ∧ tag.items = [] ∧ tag.pictures = [] then stream pre ((0, si) :: bs) audio
      else
        stream pre ((0, si) :: kept bs ++ new ++ addedPadding preferred ((0, si) :: bs) ((0, si) :: kept bs ++ new))
          audio) := by
  have h4 : (ascii "fLaC").length = 4 := by decide
  have hfind : ∃ r, Id3v2.find (stream pre ((0, si) :: bs) audio) 0 false none = .ok (r, pre.length) := by
    refine hpre false _ ?_
    rw [List.length_append, encode_length]
    simp
    omega
  obtain ⟨r, hfind⟩ := hfind
  -- the scan
  have hscan : ∃ s, scan (stream pre ((0, si) :: bs) audio) ((stream pre ((0, si) :: bs) audio).length + 1) bs.isEmpty
      ⟨[⟨0, false, si, pre.length + 4, pre.length + 4 + (4 + si.length)⟩], pre.length + 4 + (4 + si.length),
        tag.vendor, false, false⟩ = .ok s ∧
      s.blocks.map Block.m = (0, si) :: kept bs ∧ (∀ b ∈ s.blocks, b.last = false) ∧
      s.stop = pre.length + 4 + (encode ((0, si) :: bs)).length ∧ s.vendor = vendor ∧
      s.remove = hasType [4, 6] bs ∧ s.padding = hasType [1] bs := by
    cases bs with
    | nil =>
      refine ⟨_, rfl, rfl, by simp, ?_, ?_, rfl, rfl⟩
      · rw [encode_length]; simp
      · simpa [scanVendor] using hvendor
    | cons c cs =>
      have e : stream pre ((0, si) :: c :: cs) audio
          = (pre ++ (ascii "fLaC" ++ encodeOne false (0, si))) ++ (encode (c :: cs) ++ audio) := by
        unfold stream; rw [encode_cons _ (by simp)]; simp
      have hlen : (pre ++ (ascii "fLaC" ++ encodeOne false (0, si))).length = pre.length + 4 + (4 + si.length) := by
        simp [encodeOne_length, h4]; omega
      obtain ⟨s, g1, g2, g3, g4, g5, g6, g7⟩ := scan_encode audio vendor (c :: cs)
        (pre ++ (ascii "fLaC" ++ encodeOne false (0, si)))
        ((stream pre ((0, si) :: c :: cs) audio).length + 1)
        ⟨[⟨0, false, si, pre.length + 4, pre.length + 4 + (4 + si.length)⟩], pre.length + 4 + (4 + si.length),
          tag.vendor, false, false⟩ (by simp) hv hlen.symm
        (by
          have : (c :: cs).length ≤ (encode (c :: cs)).length := by
            rw [encode_length]
            have gen : ∀ l : List MBlock, l.length ≤ (l.map fun b => 4 + b.2.length).sum := by
              intro l
              induction l with
              | nil => simp
              | cons x xs ih => simp only [List.length_cons, List.map_cons, List.sum_cons]; omega
            exact gen _
          rw [e]
          simp only [List.length_append] at this ⊢
          omega)
        hvendor (by simp)
      refine ⟨s, ?_, by simpa [Block.m] using g2, g3, ?_, g5, ?_, ?_⟩
      · rw [← e] at g1; exact g1
      · rw [g4, hlen, encode_cons (0, si) (List.cons_ne_nil c cs), List.length_append, encodeOne_length]
        have : ((0 : UInt8), si).2.length = si.length := rfl
        omega
      · rw [g6, Bool.false_or]; unfold hasType; congr 1; funext b; simp [Bool.beq_eq_decide_eq]
      · rw [g7, Bool.false_or]; unfold hasType; congr 1; funext b; simp [Bool.beq_eq_decide_eq]
  obtain ⟨s, g1, g2, g3, g4, g5, g6, g7⟩ := hscan
  unfold writeTo
  rw [hfind, ok_bind]
  simp only
  rw [verify_stream pre si bs audio hsi, ok_bind]
  simp only
  rw [g1, ok_bind, g6]
  by_cases hnone : hasType [4, 6] bs = false ∧ tag.items = [] ∧ tag.pictures = []
  · rw [if_pos hnone, if_pos (by simp [hnone.1, hnone.2.1, hnone.2.2])]
  rw [if_neg hnone, if_neg (by
    intro h
    simp only [Bool.and_eq_true, Bool.not_eq_true', List.isEmpty_iff] at h
    exact hnone ⟨h.1.1, h.1.2, h.2⟩)]
  -- the new blocks
  unfold tagBlocks at hnew
  cases henc : encodeTag vendor tag.items tag.pictures with
  | error e => rw [henc] at hnew; cases hnew
  | ok nb =>
    rw [henc] at hnew
    simp only [Except.map, Except.ok.injEq] at hnew
    obtain ⟨-, hnb⟩ := encodeTag_valid _ _ _ _ henc
    rw [g5, henc, ok_bind]
    have hkept : ∀ b ∈ (s.blocks ++ nb).map Block.m, b.Valid := by
      intro b hb
      rw [List.map_append, g2] at hb
      rcases List.mem_append.mp hb with hb | hb
      · rcases List.mem_cons.mp hb with rfl | hb
        · exact ⟨(by decide : (0 : UInt8) < 128), hsi⟩
        · exact hv b (List.mem_filter.mp hb).1
      · obtain ⟨x, hx, rfl⟩ := List.mem_map.mp hb
        exact (hnb x hx).2
    have hall : (s.blocks ++ nb).map Block.m = (0, si) :: kept bs ++ new := by
      rw [List.map_append, g2, hnew]
    have hsum : ((s.blocks ++ nb).map fun b => 4 + b.content.length).sum = (encode ((0, si) :: kept bs ++ new)).length := by
      rw [← hall, encode_length, List.map_map]; rfl
    -- the padding
    have hpad : (paddingBlocks s.padding preferred (s.stop - (pre.length + 4)) (s.blocks ++ nb)).map Block.m
          = addedPadding preferred ((0, si) :: bs) ((0, si) :: kept bs ++ new) ∧
        ∀ b ∈ paddingBlocks s.padding preferred (s.stop - (pre.length + 4)) (s.blocks ++ nb),
          b.last = false ∧ MBlock.Valid b.m := by
      unfold paddingBlocks addedPadding
      cases preferred with
      | none => simp
      | some p =>
        simp only [List.tail_cons]
        rw [g7]
        by_cases hh : hasType [1] bs = true
        · simp [hh]
        · simp only [hh, Bool.false_eq_true, if_false]
          rw [hsum, g4, show pre.length + 4 + (encode ((0, si) :: bs)).length - (pre.length + 4)
            = (encode ((0, si) :: bs)).length by omega]
          refine ⟨by simp [newPadding, Block.m, maxContent], ?_⟩
          intro b hb
          rw [List.mem_singleton] at hb
          subst hb
          refine ⟨rfl, (by decide : (1 : UInt8) < 128), ?_⟩
          simp only [Block.m, newPadding, List.length_replicate, maxContent]
          omega
    rw [writeBlocks_markLast, ok_bind]
    · rw [replaceRange_splice _ _ _ _ _ _ (by rw [g4]; omega)
        (by rw [g4]; unfold stream; simp only [List.length_append, h4]; omega)]
      rw [List.map_append, hpad.1, hall, g4]
      congr 1
      unfold stream
      rw [← List.append_assoc pre (ascii "fLaC")]
      have hp4 : pre.length + 4 = (pre ++ ascii "fLaC").length := by simp [h4]
      rw [hp4, List.take_left, ← List.append_assoc (pre ++ ascii "fLaC") (encode ((0, si) :: bs)) audio,
        ← List.length_append, List.drop_left]
      simp only [List.append_assoc]
    · intro b hb
      rcases List.mem_append.mp hb with hb | hb
      · rcases List.mem_append.mp hb with hb | hb
        · exact g3 b hb
        · exact (hnb b hb).1
      · exact (hpad.2 b hb).1
    · intro b hb
      rcases List.mem_append.mp hb with hb | hb
      · exact hkept _ (List.mem_map_of_mem hb)
      · exact (hpad.2 b hb).2

/-- Reading any FLAC stream folds over its blocks. -/
theorem readFrom_stream (o : Vorbis.Opts) (pre si audio : Bytes) (bs : List MBlock) (hpre : Skipped pre)
    (hsi : si.length < 2 ^ 24) (hsi14 : 14 ≤ si.length) (hv : ∀ b ∈ bs, b.Valid) :
    readFrom o (stream pre ((0, si) :: bs) audio) = (bs.map seen).foldlM (fun r b => readStep o b r) ⟨none, []⟩ := by
  have h4 : (ascii "fLaC").length = 4 := by decide
  obtain ⟨r, hfind⟩ : ∃ r, Id3v2.find (stream pre ((0, si) :: bs) audio) 0 true none = .ok (r, pre.length) := by
    refine hpre true _ ?_
    rw [List.length_append, encode_length]
    simp
    omega
  unfold readFrom
  rw [hfind, ok_bind]
  simp only
  rw [verify_stream pre si bs audio hsi, ok_bind]
  simp only
  rw [if_neg (by omega)]
  cases bs with
  | nil => rfl
  | cons c cs =>
    have e : stream pre ((0, si) :: c :: cs) audio
        = (pre ++ (ascii "fLaC" ++ encodeOne false (0, si))) ++ (encode (c :: cs) ++ audio) := by
      unfold stream; rw [encode_cons _ (by simp)]; simp
    have hlen : (pre ++ (ascii "fLaC" ++ encodeOne false (0, si))).length = pre.length + 4 + (4 + si.length) := by
      simp [encodeOne_length, h4]; omega
    rw [← hlen, e]
    refine readLoop_encode o audio (c :: cs) _ _ _ (by simp) hv ?_
    have : (c :: cs).length ≤ (encode (c :: cs)).length := by
      rw [encode_length]
      have gen : ∀ l : List MBlock, l.length ≤ (l.map fun b => 4 + b.2.length).sum := by
        intro l
        induction l with
        | nil => simp
        | cons x xs ih => simp only [List.length_cons, List.map_cons, List.sum_cons]; omega
      exact gen _
    simp only [List.length_append] at this ⊢
    omega

theorem foldlM_ignored (o : Vorbis.Opts) (bs : List MBlock) (h : ∀ b ∈ bs, b.1 ≠ 4 ∧ b.1 ≠ 6) (r : Found) :
    (bs.map seen).foldlM (fun r b => readStep o b r) r = .ok r := by
  induction bs with
  | nil => rfl
  | cons b bs ih =>
    rw [List.map_cons, List.foldlM_cons]
    have hb := h b (by simp)
    have : readStep o (seen b) r = .ok r := by
      unfold readStep seen
      simp [hb.1, hb.2]
    rw [this, ok_bind, ih fun x hx => h x (by simp [hx])]

theorem foldlM_pictures (o : Vorbis.Opts) (ho : o.readCoverArt = true) (ps : List (Picture.Pic × Picture.Info))
    (h : ∀ p ∈ ps, Picture.Stable p.1) : ∀ (r : Found),
    ((ps.map fun p => ((6 : UInt8), Picture.asFlacBytes p.1 p.2 false)).map seen).foldlM (fun r b => readStep o b r) r
      = .ok { r with pictures := r.pictures ++ ps } := by
  induction ps with
  | nil => intro r; simp; rfl
  | cons p ps ih =>
    intro r
    rw [List.map_cons, List.map_cons, List.foldlM_cons]
    have hrt := Picture.fromFlac_asFlac p.1 p.2 false (o.mode = .strict) (h p (by simp))
    have hne : Picture.asFlacBytes p.1 p.2 false ≠ [] := by
      intro he
      rw [he] at hrt
      cases hm : decide (o.mode = .strict) <;> rw [hm] at hrt <;> cases hrt
    have : readStep o (seen ((6 : UInt8), Picture.asFlacBytes p.1 p.2 false)) r
        = .ok { r with pictures := r.pictures ++ [p] } := by
      unfold readStep seen
      simp only [List.isEmpty_iff, hne, if_false, ho]
      rw [if_neg (by decide), if_pos (by decide), hrt]
    rw [this, ok_bind, ih fun x hx => h x (by simp [hx])]
    simp

/-- C16: reading a stream after a tag was written to it yields the comments written (those
with a non-empty value), under the vendor string the file had before (if it had one), and
the pictures in order. -/
theorem readFrom_written (o : Vorbis.Opts) (pre si audio : Bytes) (bs : List MBlock) (tag : Vorbis.Tag)
    (preferred : Option Nat) (vendor : Str) (new : List MBlock) (f' : Bytes)
    (hpre : Skipped pre) (hsi : si.length < 2 ^ 24) (hsi14 : 14 ≤ si.length)
    (hv : ∀ b ∈ bs, b.Valid) (hvendor : scanVendor tag.vendor bs = .ok vendor)
    (hnew : tagBlocks vendor tag = .ok new)
    (hw : writeTo (stream pre ((0, si) :: bs) audio) tag preferred = .ok f')
    (hvn : vendor.getLast? ≠ some '\x00')
    (hitems : Vorbis.Stable o (tag.items.filter fun i => !i.2.isEmpty))
    (hcover : tag.pictures ≠ [] → o.readCoverArt = true)
    (hpics : ∀ p ∈ tag.pictures, Picture.Stable p.1) :
    readFrom o f' = .ok {
      comments := if tag.items = [] then none else some ⟨vendor, tag.items.filter fun i => !i.2.isEmpty, []⟩
      pictures := tag.pictures } := by
  rw [writeTo_stream pre si audio bs tag preferred vendor new hpre hsi (by omega) hv hvendor hnew] at hw
  have hnew' := hnew
  unfold tagBlocks at hnew
  cases henc : encodeTag vendor tag.items tag.pictures with
  | error e => rw [henc] at hnew; cases hnew
  | ok nb =>
    rw [henc] at hnew
    simp only [Except.map, Except.ok.injEq] at hnew
    obtain ⟨⟨c, hc, hcp⟩, hnb⟩ := encodeTag_valid _ _ _ _ henc
    cases hw
    by_cases hnone : hasType [4, 6] bs = false ∧ tag.items = [] ∧ tag.pictures = []
    · rw [if_pos hnone, readFrom_stream o pre si audio bs hpre hsi hsi14 hv, foldlM_ignored]
      · simp [hnone.2.1, hnone.2.2]
      · intro b hb
        have := hnone.1
        unfold hasType at this
        rw [List.any_eq_false] at this
        have := this b hb
        simp at this
        exact this
    · rw [if_neg hnone]
      have hpadv : ∀ b ∈ addedPadding preferred ((0, si) :: bs) ((0, si) :: kept bs ++ new), b.1 = 1 ∧ b.Valid := by
        intro b hb
        unfold addedPadding at hb
        split at hb
        · simp at hb
        · split at hb
          · simp at hb
          · simp only [List.mem_singleton] at hb
            subst hb
            exact ⟨rfl, (by decide : (1 : UInt8) < 128), by simp only [List.length_replicate]; omega⟩
      rw [List.cons_append, List.cons_append, readFrom_stream o pre si audio _ hpre hsi hsi14]
      · rw [List.map_append, List.map_append, List.foldlM_append, List.foldlM_append, foldlM_ignored, ok_bind]
        · rw [← hnew, hcp, List.map_append, List.foldlM_append]
          -- the comment block
          have hcom : (c.map seen).foldlM (fun r b => readStep o b r) ⟨none, []⟩ = .ok {
              comments := if tag.items = [] then none else some ⟨vendor, tag.items.filter fun i => !i.2.isEmpty, []⟩
              pictures := [] } := by
            rcases hc with ⟨h1, h2⟩ | ⟨packet, h1, h2, h3, h4⟩
            · subst h2; simp [h1]; rfl
            · subst h4
              have hrw := Vorbis.read_written o ⟨vendor, tag.items, []⟩ [] false packet [] packet.length h2 hvn hitems
                (by simp) (by simp) (by simp) (by omega)
              obtain ⟨-, hrw⟩ := hrw
              simp only [List.length_nil, List.drop_zero, List.append_nil, Bool.false_eq_true, if_false] at hrw
              have hne : packet ≠ [] := by
                intro h
                rw [h] at hrw
                cases hrw
              simp only [List.map_cons, List.map_nil, List.foldlM_cons, List.foldlM_nil]
              unfold readStep seen
              simp only [List.isEmpty_iff, hne, if_false, if_true]
              rw [hrw]
              simp only [ok_bind, if_neg h1]
              rfl
          rw [hcom, ok_bind]
          have hp : ∀ x : Option Vorbis.Tag,
              ((tag.pictures.map fun p => ((6 : UInt8), Picture.asFlacBytes p.1 p.2 false)).map seen).foldlM
              (fun r b => readStep o b r) ⟨x, []⟩ = .ok ⟨x, tag.pictures⟩ := by
            intro x
            by_cases hpe : tag.pictures = []
            · rw [hpe]; rfl
            · rw [foldlM_pictures o (hcover hpe) _ hpics]; rfl
          rw [hp, ok_bind, foldlM_ignored]
          intro b hb
          rw [hnew] at hcp
          rw [← hcp] at hb
          rw [(hpadv b hb).1]
          decide
        · intro b hb
          have := (List.mem_filter.mp hb).2
          simpa using this
      · intro b hb
        rcases List.mem_append.mp hb with hb | hb
        · rcases List.mem_append.mp hb with hb | hb
          · exact hv b (List.mem_filter.mp hb).1
          · rw [← hnew] at hb
            obtain ⟨x, hx, rfl⟩ := List.mem_map.mp hb
            exact (hnb x hx).2
        · exact (hpadv b hb).2

/-- The hypotheses are met by a file with a comment block, a picture, an application block
and padding. -/
example : ∃ f' new, tagBlocks (str "v") Vorbis.exampleTag = .ok new ∧
    scanVendor Vorbis.exampleTag.vendor [(2, [1, 2]), (4, [1, 0, 0, 0, 0x76, 0, 0, 0, 0]), (6, [9]), (1, [0])] = .ok (str "v") ∧
    writeTo (stream [] [(0, List.replicate 34 7), (2, [1, 2]), (4, [1, 0, 0, 0, 0x76, 0, 0, 0, 0]), (6, [9]), (1, [0])]
      [0xFF, 0xF8]) Vorbis.exampleTag (some 4) = .ok f' := by
  have h1 : (tagBlocks (str "v") Vorbis.exampleTag).toOption.isSome := by decide +kernel
  have h2 : scanVendor Vorbis.exampleTag.vendor [(2, [1, 2]), (4, [1, 0, 0, 0, 0x76, 0, 0, 0, 0]), (6, [9]), (1, [0])]
      = .ok (str "v") := by decide +kernel
  cases h : tagBlocks (str "v") Vorbis.exampleTag with
  | error e => rw [h] at h1; cases h1
  | ok new =>
    exact ⟨_, new, rfl, h2, writeTo_stream [] (List.replicate 34 7) [0xFF, 0xF8] _ Vorbis.exampleTag (some 4) (str "v")
      new skipped_nil (by decide) (by decide) (by
        intro b hb
        simp only [List.mem_cons, List.not_mem_nil, or_false] at hb
        rcases hb with rfl | rfl | rfl | rfl <;> exact ⟨by decide, by decide⟩) h2 h⟩

end Lofty.Flac
