import Verif.Model.Id3v2File
import Verif.Props.Ape
/-!
# C29: writing tags leaves the rest of the file alone

ID3v2 tags at the start and APE tags at the end of files that have no container for tags (ID3v1
tags are covered in Props/Id3v1: `write_tagged`, `write_untagged`).
-/
namespace Lofty

/-- An ID3v2 tag written by the library, without extended header. -/
structure Id3v2.Written (tag : Bytes) : Prop where
  made : ∃ (fl : Id3v2.Flags) (v23 : Bool) (padding : Option Nat) (body : Bytes),
    fl.crc = false ∧ fl.restrictions = none ∧ (v23 = true → fl.experimental = false) ∧
      body.length + padding.getD 0 < 2 ^ 32 ∧ Id3v2.createTag fl v23 padding body = .ok tag

/-- The bytes contain no `ID3`. -/
def Id3v2.NoMarker (d : Bytes) : Prop := ∀ a b, d ≠ a ++ ([0x49, 0x44, 0x33] ++ b)

namespace Id3v2

theorem id3_bytes : ascii "ID3" = [0x49, 0x44, 0x33] := by decide

theorem findAt_written {tag : Bytes} (h : Written tag) (rest : Bytes) :
    (∃ r, findAt (tag ++ rest) 0 false = .ok (r, tag.length)) ∧ tag.take 3 = ascii "ID3" ∧ 10 ≤ tag.length := by
  obtain ⟨fl, v23, padding, body, hcrc, hres, hexp, hsize, h⟩ := h.made
  obtain ⟨h1, h2, h3⟩ := parseHeader_createTag_partial fl v23 padding body tag rest hcrc hres hexp hsize h
  have hlen : tag.length = 10 + (body.length + if fl.footer then 0 else padding.getD 0) + if fl.footer then 10 else 0 := by
    have := congrArg List.length h2
    simp only [List.length_append, h3] at this
    cases hf : fl.footer
    · simp [hf] at this ⊢; omega
    · simp only [hf, if_true, List.length_append, List.length_take, List.length_drop] at this ⊢
      have h9 : (ascii "3DI").length = 3 := by decide
      have := congrArg List.length h2
      simp only [List.length_append, List.length_take, List.length_drop, hf, if_true] at this
      simp only [List.length_take] at h3
      omega
  refine ⟨?_, ?_, by omega⟩
  · unfold findAt
    rw [h1]
    simp only
    have hf : (written fl v23).footer = fl.footer := rfl
    rw [hf]
    simp only [Bool.false_eq_true, if_false]
    have fin : ∀ (r : Option (Header × Option Bytes)) (p : Nat), p = tag.length →
        ∃ x, (.ok (r, p) : Except Err _) = .ok (x, tag.length) := fun r p h => ⟨r, by rw [h]⟩
    refine fin _ _ ?_
    rw [hlen]
    cases fl.footer <;> simp
  · have h10 : 10 ≤ tag.length := by omega
    have := h1
    unfold parseHeader at this
    obtain ⟨x, hx, h4⟩ := bind_ok this
    unfold decodeHeader at h4
    simp only at h4
    split at h4
    · cases h4
    · rename_i hid
      have hid : x.1.take 3 = ascii "ID3" := Classical.not_not.mp hid
      unfold need at hx
      split at hx
      · have hx := (Except.ok.inj hx).symm
        rw [hx] at hid
        simp only [List.drop_zero, List.take_take] at hid
        rw [← hid, List.take_append_of_le_length (by omega)]
        rfl
      · cases hx

/-! A tag header does not depend on what is in front of it. -/

/-- Moves the offsets of a reader. -/
def shift {α} (k : Nat) : Except (Err × Nat) (α × Nat) → Except (Err × Nat) (α × Nat)
  | .ok (a, p) => .ok (a, k + p)
  | .error (e, p) => .error (e, k + p)

theorem need_shift (pre d : Bytes) (p n : Nat) : need (pre ++ d) (pre.length + p) n = shift pre.length (need d p n) := by
  unfold need
  by_cases h : p + n ≤ d.length
  · rw [if_pos (by simp; omega), if_pos h]
    simp only [shift]
    rw [← List.drop_drop, List.drop_left' rfl, Nat.add_assoc]
  · rw [if_neg (by simp; omega), if_neg h]
    simp only [shift, List.length_append]
    rw [Nat.add_max_add_left]

theorem bind_shift {α β} (k : Nat) (x : Except (Err × Nat) (α × Nat)) (f g : α × Nat → Except (Err × Nat) (β × Nat))
    (h : ∀ a p, f (a, k + p) = shift k (g (a, p))) : (shift k x >>= f) = shift k (x >>= g) := by
  rcases x with ⟨e, p⟩ | ⟨a, p⟩
  · rfl
  · exact h a p

theorem readExtended_shift (pre d : Bytes) (p : Nat) (fl : Flags) (size : Nat) :
    readExtended (pre ++ d) (pre.length + p) fl size = shift pre.length (readExtended d p fl size) := by
  unfold readExtended
  split
  · rfl
  · rw [need_shift]
    apply bind_shift
    intro b p
    simp only
    have tail : ∀ (fl : Flags) (p : Nat), (if fromLE (b.drop 1) &&& 0x10 = 0x10 then do
        let (r, pos) ← need (pre ++ d) (pre.length + p) 2
        .ok ({ fl with restrictions := some (Restrictions.fromByte (UInt8.ofNat (fromLE (r.drop 1)))) }, pos)
      else .ok (fl, pre.length + p)) = shift pre.length (if fromLE (b.drop 1) &&& 0x10 = 0x10 then do
        let (r, pos) ← need d p 2
        .ok ({ fl with restrictions := some (Restrictions.fromByte (UInt8.ofNat (fromLE (r.drop 1)))) }, pos)
      else .ok (fl, p)) := by
      intro fl p
      split
      · rw [need_shift]
        apply bind_shift
        intro r p
        rfl
      · rfl
    by_cases hc : fromLE (b.drop 1) &&& 0x20 = 0x20
    · simp only [if_pos hc]
      rw [need_shift]
      cases h : need d p 6 with
      | error e => obtain ⟨e, q⟩ := e; rfl
      | ok x => obtain ⟨x, q⟩ := x; exact tail _ q
    · simp only [if_neg hc, ok_bind]
      exact tail _ p

theorem readExtHeader_shift (pre d : Bytes) (p : Nat) (v : Version) (fl : Flags) :
    (match readExtHeader (pre ++ d) (pre.length + p) v fl with
      | .ok (s, fl, q) => Except.ok ((s, fl), q)
      | .error e => .error e) = shift pre.length (match readExtHeader d p v fl with
      | .ok (s, fl, q) => .ok ((s, fl), q)
      | .error e => .error e) := by
  unfold readExtHeader
  cases v with
  | v2 => rfl
  | v4 =>
    simp only [need_shift]
    cases need d p 4 with
    | error e => obtain ⟨e, q⟩ := e; rfl
    | ok x =>
      obtain ⟨b, q⟩ := x
      simp only [shift, ok_bind, readExtended_shift]
      cases readExtended d q fl (unsynch (fromBE b)) with
      | error e => obtain ⟨e, q⟩ := e; rfl
      | ok x => obtain ⟨x, q⟩ := x; rfl
  | v3 =>
    simp only
    by_cases hu : fl.unsynchronisation = true
    · simp only [if_pos hu]
      have e1 : (pre ++ d).drop (pre.length + p) = d.drop p := by rw [← List.drop_drop, List.drop_left' rfl]
      have e2 : min (pre ++ d).length (pre.length + p + 8192) = pre.length + min d.length (p + 8192) := by
        simp only [List.length_append]; omega
      rw [e1, e2]
      cases need (Synchsafe.desync ((d.drop p).take 8192)) 0 4 with
      | error e => obtain ⟨e, q⟩ := e; rfl
      | ok x =>
        obtain ⟨b, q⟩ := x
        simp only [ok_bind]
        cases readExtended (Synchsafe.desync ((d.drop p).take 8192)) q fl (fromBE b) with
        | error e => obtain ⟨e, q⟩ := e; rfl
        | ok x => obtain ⟨x, q⟩ := x; rfl
    · simp only [if_neg hu, need_shift]
      cases need d p 4 with
      | error e => obtain ⟨e, q⟩ := e; rfl
      | ok x =>
        obtain ⟨b, q⟩ := x
        simp only [shift, ok_bind, readExtended_shift]
        cases readExtended d q fl (fromBE b) with
        | error e => obtain ⟨e, q⟩ := e; rfl
        | ok x => obtain ⟨x, q⟩ := x; rfl

theorem decodeHeader_shift (pre d h : Bytes) (p : Nat) :
    decodeHeader (pre ++ d) h (pre.length + p) = shift pre.length (decodeHeader d h p) := by
  unfold decodeHeader
  split
  · rfl
  · split
    · rfl
    · rename_i v _
      simp only
      split
      · rfl
      · split
        · have := readExtHeader_shift pre d p v (headerFlags v (h.getD 5 0))
          cases h1 : readExtHeader (pre ++ d) (pre.length + p) v (headerFlags v (h.getD 5 0)) with
          | error e1 =>
            cases h2 : readExtHeader d p v (headerFlags v (h.getD 5 0)) with
            | error e2 =>
              rw [h1, h2] at this
              obtain ⟨e2, q2⟩ := e2
              simp only [shift] at this
              rw [Except.error.inj this]
              rfl
            | ok x => rw [h1, h2] at this; cases this
          | ok x1 =>
            cases h2 : readExtHeader d p v (headerFlags v (h.getD 5 0)) with
            | error e2 => rw [h1, h2] at this; obtain ⟨e2, q2⟩ := e2; cases this
            | ok x2 =>
              rw [h1, h2] at this
              obtain ⟨s1, f1, q1⟩ := x1
              obtain ⟨s2, f2, q2⟩ := x2
              simp only [shift, Except.ok.injEq, Prod.mk.injEq] at this
              obtain ⟨⟨rfl, rfl⟩, rfl⟩ := this
              simp only [ok_bind]
              split <;> rfl
        · simp only [ok_bind]
          split <;> rfl

theorem parseHeader_shift (pre d : Bytes) (p : Nat) :
    parseHeader (pre ++ d) (pre.length + p) = shift pre.length (parseHeader d p) := by
  unfold parseHeader
  rw [need_shift]
  apply bind_shift
  intro h p
  exact decodeHeader_shift pre d h p

theorem findAt_shift (pre : Bytes) (d : Bytes) {r : Option (Header × Option Bytes)} {q : Nat}
    (h : findAt d 0 false = .ok (r, q)) : ∃ r', findAt (pre ++ d) pre.length false = .ok (r', pre.length + q) := by
  unfold findAt at h ⊢
  have := parseHeader_shift pre d 0
  rw [Nat.add_zero] at this
  rw [this]
  cases hp : parseHeader d 0 with
  | error e =>
    obtain ⟨e, p⟩ := e
    rw [hp] at h
    simp only at h
    split at h
    · cases h
    · obtain ⟨rfl, rfl⟩ := Prod.mk.inj (Except.ok.inj h)
      simp only [shift]
      rw [if_neg (by omega)]
      exact ⟨none, by congr 2; omega⟩
  | ok x =>
    obtain ⟨x, p⟩ := x
    rw [hp] at h
    simp only [Bool.false_eq_true, if_false] at h
    obtain ⟨rfl, rfl⟩ := Prod.mk.inj (Except.ok.inj h)
    simp only [shift, Bool.false_eq_true, if_false]
    refine ⟨some (x, none), ?_⟩
    congr 2
    split <;> omega

theorem findInJunk_none {d : Bytes} (h : NoMarker d) : findInJunk d = none := by
  induction d with
  | nil => rfl
  | cons b d ih =>
    rw [findInJunk, if_neg, ih]
    · rfl
    · intro a c hc
      exact h (b :: a) c (by rw [hc]; simp)
    · intro hc
      rw [id3_bytes] at hc
      exact h [] ((b :: d).drop 3) (by rw [← hc]; simp)

/-- C29: writing an ID3v2 tag over a tag written by the library replaces exactly that tag; with
no frames to write it removes it.  The search window must not be smaller than the marker. -/
theorem writeFile_tagged {old : Bytes} (h : Written old) (rest new : Bytes) (junk : Nat) (hj : 3 ≤ junk) :
    writeFile (old ++ rest) junk new = .ok (new ++ rest) := by
  obtain ⟨⟨r, h1⟩, h2, h3⟩ := findAt_written h rest
  unfold writeFile find
  have hs : findInJunk ((List.drop 0 (old ++ rest)).take junk) = some 0 := by
    rw [List.drop_zero]
    have ht : ((old ++ rest).take junk).take 3 = ascii "ID3" := by
      rw [List.take_take, Nat.min_eq_left hj, List.take_append_of_le_length (by omega), h2]
    cases hd : (old ++ rest).take junk with
    | nil => rw [hd] at ht; exact absurd ht (by decide)
    | cons b d => rw [findInJunk, if_pos (by rw [← hd]; exact ht)]
  simp only [hs]
  rw [h1, ok_bind]
  simp only [List.drop_left' rfl]

/-- C29: writing an ID3v2 tag to a file without marker in its first `junk` bytes puts the tag in
front of the unchanged file. -/
theorem writeFile_untagged (f new : Bytes) (junk : Nat) (h : NoMarker (f.take junk)) :
    writeFile f junk new = .ok (new ++ f) := by
  unfold writeFile find
  simp only [List.drop_zero, findInJunk_none h, ok_bind]

/-- C29: writing the same tag twice is the same as writing it once. -/
theorem writeFile_twice {f new g : Bytes} {junk : Nat} (hj : 3 ≤ junk) (hn : Written new)
    (h : writeFile f junk new = .ok g) : writeFile g junk new = .ok g := by
  unfold writeFile at h
  obtain ⟨x, _, h⟩ := bind_ok h
  rw [← Except.ok.inj h]
  exact writeFile_tagged hn _ new junk hj

/-- C29: junk in front of a tag written by the library is removed together with it (the library
documents this); what follows is unchanged.  The junk, together with the first two bytes of the
tag, contains no marker. -/
theorem writeFile_junk {old : Bytes} (h : Written old) (pre rest new : Bytes) (junk : Nat)
    (hp : NoMarker (pre ++ [0x49, 0x44])) (hj : pre.length + 3 ≤ junk) :
    writeFile (pre ++ (old ++ rest)) junk new = .ok (new ++ rest) := by
  obtain ⟨⟨r, h1⟩, h2, h3⟩ := findAt_written h rest
  obtain ⟨t, ht⟩ : ∃ t, old = [0x49, 0x44, 0x33] ++ t := ⟨old.drop 3, by rw [← id3_bytes, ← h2, List.take_append_drop]⟩
  have key : ∀ (pre : Bytes) (d : Bytes), (∀ a b, pre ++ [0x49, 0x44] ≠ a ++ ([0x49, 0x44, 0x33] ++ b)) →
      findInJunk (pre ++ ([0x49, 0x44, 0x33] ++ d)) = some pre.length := by
    intro pre d
    induction pre with
    | nil => intro _; simp [findInJunk, id3_bytes]
    | cons b pre ih =>
      intro hp
      rw [List.cons_append, findInJunk, if_neg, ih]
      · rfl
      · intro a c hc
        exact hp (b :: a) c (by simp only [List.cons_append, hc])
      · intro hc
        rw [id3_bytes] at hc
        cases pre with
        | nil => simp at hc
        | cons b2 pre =>
          cases pre with
          | nil => simp at hc
          | cons b3 pre =>
            simp at hc
            obtain ⟨rfl, rfl, rfl⟩ := hc
            exact hp [] (pre ++ [0x49, 0x44]) (by simp)
  unfold writeFile find
  simp only [List.drop_zero]
  have : (pre ++ (old ++ rest)).take junk = pre ++ ([0x49, 0x44, 0x33] ++ (t ++ rest).take (junk - pre.length - 3)) := by
    rw [ht, List.take_append, List.take_of_length_le (by omega), List.append_assoc, List.take_append]
    rw [List.take_of_length_le (l := [0x49, 0x44, 0x33]) (by simp; omega)]
    simp
  rw [this, key _ _ hp]
  simp only [Nat.zero_add]
  obtain ⟨r', h1'⟩ := findAt_shift pre _ h1
  rw [h1', ok_bind]
  simp only
  rw [← List.drop_drop, List.drop_left' rfl, List.drop_left' rfl]

/-- A small tag for the examples: one frame `TIT2`, padding 3. -/
def smallTag : Bytes := ((createTag ⟨false, false, false, false, none⟩ false (some 3) (ascii "TIT2" ++ [0, 0, 0, 2, 0, 0, 3, 65])).toOption).getD []

theorem smallTag_written : Written smallTag :=
  ⟨⟨⟨false, false, false, false, none⟩, false, some 3, ascii "TIT2" ++ [0, 0, 0, 2, 0, 0, 3, 65], rfl, rfl, by simp, by decide, by decide +kernel⟩⟩

example : smallTag.length = 25 ∧ writeFile (smallTag ++ [0xFF, 0xFB, 1, 2]) 1024 [] = .ok [0xFF, 0xFB, 1, 2] ∧
    writeFile ([7, 0x49, 0x44] ++ (smallTag ++ [0xFF, 0xFB, 1, 2])) 1024 [9] = .ok [9, 0xFF, 0xFB, 1, 2] ∧
    writeFile [0xFF, 0xFB, 1, 2] 1024 smallTag = .ok (smallTag ++ [0xFF, 0xFB, 1, 2]) := by decide +kernel

/-- Disagreement: if the letters `ID3` occur in the first bytes of a file that has no tag there,
writing a tag drops everything in front of them, audio or not. -/
theorem marker_in_audio_loses_data :
    writeFile ([0xFF, 0xFB, 1, 2] ++ (ascii "ID3" ++ [9, 9, 9, 9, 9, 9, 9, 9])) 1024 []
      = .ok (ascii "ID3" ++ [9, 9, 9, 9, 9, 9, 9, 9]) := by decide +kernel

/-- Disagreement: with a search window of less than three bytes, an existing tag is not found and
the new tag is put in front of it. -/
theorem small_window_duplicates :
    writeFile (smallTag ++ [0xFF]) 0 smallTag = .ok (smallTag ++ (smallTag ++ [0xFF])) := by decide +kernel

/-- Disagreement: a v2.4 tag with an extended header (here of six bytes): the six bytes are counted
twice, and six bytes of audio are dropped with the tag. -/
theorem extended_header_loses_audio :
    writeFile (ascii "ID3" ++ [4, 0, 0x40, 0, 0, 0, 8, 0, 0, 0, 6, 1, 0, 0, 0, 1, 2, 3, 4, 5, 6, 7, 8, 9]) 1024 []
      = .ok [7, 8, 9] := by decide +kernel

end Id3v2

namespace Ape

/-- What may stand in front of the audio: the search for an ID3v2 tag ends there. -/
def Leading (lead rest : Bytes) : Prop := ∃ r, Id3v2.find (lead ++ rest) 0 false none = .ok (r, lead.length)

theorem leading_nil {rest : Bytes} (h : rest.take 3 ≠ [0x49, 0x44, 0x33]) (hl : 10 ≤ rest.length) : Leading [] rest := by
  refine ⟨none, ?_⟩
  unfold Id3v2.find Id3v2.findAt Id3v2.parseHeader Id3v2.need
  simp only [List.nil_append, Nat.zero_add, if_pos hl, ok_bind, List.drop_zero]
  unfold Id3v2.decodeHeader
  rw [if_pos (by rw [List.take_take, Id3v2.id3_bytes]; exact h)]
  rfl

theorem leading_written {tag : Bytes} (h : Id3v2.Written tag) (rest : Bytes) : Leading tag rest :=
  (Id3v2.findAt_written h rest).1

/-- What may stand behind the APE tag: nothing, or an ID3v1 tag of 128 bytes. -/
inductive Trailing (front : Bytes) : Bytes → Prop
  | none (h : ¬ Id3v1.Tagged front) : Trailing front []
  | tag {v1 : Bytes} (hl : v1.length = 128) (ht : v1.take 3 = [0x54, 0x41, 0x47]) : Trailing front v1

theorem find_trailing {front v1 : Bytes} (h : Trailing front v1) :
    ∃ b, Id3v1.find false false (front ++ v1) = .ok (b, none, front.length) := by
  cases h with
  | none h => exact ⟨false, by rw [List.append_nil, Id3v1.find_untagged h]⟩
  | tag hl ht => exact ⟨true, (Id3v1.find_tagged hl ht).1⟩

theorem readTag_none {o : Opts} {f : Bytes} {pos : Nat} {footer : Bool} (hl : pos + 8 ≤ f.length)
    (h : (f.drop pos).take 8 ≠ ascii "APETAGEX") : readTag o f pos footer = .ok (none, none) := by
  unfold readTag readAt
  rw [if_pos hl, ok_bind]
  exact if_pos h

/-- The common part of the theorems below. -/
theorem writeTo_general (o : Opts) (lead audio old v1 new : Bytes) (t : Tag)
    (hlead : Leading lead (audio ++ (old ++ v1))) (hv : Trailing (lead ++ (audio ++ old)) v1)
    (hlen : 16 ≤ audio.length) (hlen2 : 32 ≤ lead.length + audio.length + old.length)
    (hhead : (audio.drop 8).take 8 ≠ ascii "APETAGEX")
    (hfoot : ∃ x, readTag o (lead ++ (audio ++ (old ++ v1))) (lead.length + audio.length + old.length - 32) true = .ok x ∧
      ((old = [] ∧ x = (none, none)) ∨ ∃ t0 n, x = (some t0, some ⟨old.length, n⟩)))
    (hnew : createTag t = .ok new) :
    writeTo o (lead ++ (audio ++ (old ++ v1))) t = .ok (lead ++ (audio ++ (new ++ v1))) := by
  obtain ⟨r, hr⟩ := hlead
  obtain ⟨b, hb⟩ := find_trailing hv
  have ef : lead ++ (audio ++ old) ++ v1 = lead ++ (audio ++ (old ++ v1)) := by simp
  rw [ef] at hb
  have el : (lead ++ (audio ++ old)).length = lead.length + audio.length + old.length := by
    simp only [List.length_append]; omega
  rw [el] at hb
  generalize hF : lead ++ (audio ++ (old ++ v1)) = F at *
  have hFl : F.length = lead.length + audio.length + old.length + v1.length := by
    rw [← hF]; simp only [List.length_append]; omega
  have hh : readTag o F (lead.length + 8) false = .ok (none, none) := by
    apply readTag_none (by omega)
    rw [← hF, ← List.drop_drop, List.drop_left' rfl, List.drop_append_of_le_length (by omega),
      List.take_append_of_le_length (by simp; omega)]
    exact hhead
  obtain ⟨x, hx, hcase⟩ := hfoot
  have hE : findExisting o F = .ok ⟨none, if old = [] ∧ x = (none, none) then none else
      some (lead.length + audio.length, lead.length + audio.length + old.length), lead.length + audio.length + old.length⟩ := by
    unfold findExisting
    rw [hr, ok_bind]
    simp only
    have : ∃ y, readAt F lead.length 8 = .ok y := ⟨_, by unfold readAt; rw [if_pos (by omega)]⟩
    obtain ⟨y, hy⟩ := this
    rw [hy, ok_bind, hh, ok_bind, hb, ok_bind]
    simp only
    rw [if_neg (by omega), if_neg (by omega), hx, ok_bind]
    rcases hcase with ⟨ho, rfl⟩ | ⟨t0, n, rfl⟩
    · simp [footRange, headRange, ho]
    · simp only [footRange, headRange]
      rw [if_neg (by omega), ok_bind, if_neg (by simp)]
      congr 4
      omega
  unfold writeTo
  rw [hE, ok_bind, hnew, ok_bind]
  unfold writeTag
  simp only
  have hs : splice F (lead.length + audio.length) (lead.length + audio.length + old.length) new
      = .ok (lead ++ (audio ++ (new ++ v1))) := by
    unfold splice
    rw [if_neg (by omega)]
    have e1 : F.take (lead.length + audio.length) = lead ++ audio := by
      rw [← hF, ← List.append_assoc, List.take_left' (by simp)]
    have e2 : F.drop (lead.length + audio.length + old.length) = v1 := by
      rw [← ef, List.drop_left' (by simp; omega)] at *
    rw [e1, e2]
    simp
  rcases hcase with ⟨ho, rfl⟩ | ⟨t0, n, rfl⟩
  · rw [if_pos ⟨ho, rfl⟩]
    simp only [Option.getD_none]
    rw [ho] at hs ⊢
    simp only [List.length_nil, Nat.add_zero] at hs ⊢
    rw [hs, ok_bind]
  · rw [if_neg (by simp)]
    simp only [Option.getD_some]
    rw [hs, ok_bind]

/-- C29: an APE tag written by the library is replaced by the new one (or removed, if the new one
has no items); ID3v2 tag, audio and ID3v1 tag stay as they are. -/
theorem writeTo_tagged (o : Opts) (ho : o.readTags = true) (lead audio old v1 new : Bytes) (t t0 : Tag)
    (hlead : Leading lead (audio ++ (old ++ v1))) (hv : Trailing (lead ++ (audio ++ old)) v1)
    (hlen : 16 ≤ audio.length) (hhead : (audio.drop 8).take 8 ≠ ascii "APETAGEX")
    (h0 : Good t0) (hold : createTag t0 = .ok old) (hsize : old.length < 2 ^ 32)
    (hnew : createTag t = .ok new) :
    writeTo o (lead ++ (audio ++ (old ++ v1))) t = .ok (lead ++ (audio ++ (new ++ v1))) := by
  have hlo : 64 ≤ old.length := by
    obtain ⟨body, h1, -⟩ := createTag_layout h0.nonempty hold
    omega
  refine writeTo_general o lead audio old v1 new t hlead hv hlen (by omega) hhead ?_ hnew
  have := (tag_rt h0 hold o.cover (lead ++ audio) v1).1
  obtain ⟨rt, cv⟩ := o
  simp only at ho
  subst ho
  simp only [List.append_assoc, List.length_append] at this
  refine ⟨_, this, .inr ⟨⟨false, t0.items.filter fun i => cv || !Picture.apePictureTypes.contains i.key⟩, t0.items.length, ?_⟩⟩
  rw [Nat.min_eq_left (by omega)]

/-- C29: without an APE tag the new one is put behind the audio, in front of the ID3v1 tag. -/
theorem writeTo_untagged (o : Opts) (lead audio v1 new : Bytes) (t : Tag)
    (hlead : Leading lead (audio ++ v1)) (hv : Trailing (lead ++ audio) v1)
    (hlen : 32 ≤ audio.length) (hhead : (audio.drop 8).take 8 ≠ ascii "APETAGEX")
    (hfoot : (audio.drop (audio.length - 32)).take 8 ≠ ascii "APETAGEX")
    (hnew : createTag t = .ok new) :
    writeTo o (lead ++ (audio ++ v1)) t = .ok (lead ++ (audio ++ (new ++ v1))) := by
  refine writeTo_general o lead audio [] v1 new t hlead (by simpa using hv) (by omega) (by simp; omega) hhead ?_ hnew
  refine ⟨_, readTag_none (by simp; omega) ?_, .inl ⟨rfl, rfl⟩⟩
  have e : lead.length + audio.length + ([] : Bytes).length - 32 = lead.length + (audio.length - 32) := by simp; omega
  rw [e, ← List.drop_drop, List.drop_left' rfl, List.drop_append_of_le_length (by omega),
    List.take_append_of_le_length (by simp; omega)]
  exact hfoot

/-- C29: writing the same APE tag twice is the same as writing it once. -/
theorem writeTo_twice (o : Opts) (ho : o.readTags = true) (lead audio v1 new : Bytes) (t : Tag) (hg : Good t)
    (hnew : createTag t = .ok new) (hsize : new.length < 2 ^ 32)
    (hlead : Leading lead (audio ++ (new ++ v1))) (hv : Trailing (lead ++ (audio ++ new)) v1)
    (hlen : 16 ≤ audio.length) (hhead : (audio.drop 8).take 8 ≠ ascii "APETAGEX") :
    writeTo o (lead ++ (audio ++ (new ++ v1))) t = .ok (lead ++ (audio ++ (new ++ v1))) :=
  writeTo_tagged o ho lead audio new v1 new t t hlead hv hlen hhead hg hnew hsize hnew

/-- C29: the tag a file was given is found there by the reader. -/
theorem writeTo_read (lead audio v1 new : Bytes) (t : Tag) (hg : Good t) (hnew : createTag t = .ok new)
    (hsize : new.length < 2 ^ 32) :
    readTag {} (lead ++ (audio ++ (new ++ v1))) ((lead ++ (audio ++ new)).length - 32) true
      = .ok (some ⟨false, t.items⟩, some ⟨new.length, t.items.length⟩) := by
  have := (tag_rt hg hnew true (lead ++ audio) v1).1
  simp only [List.append_assoc, List.length_append, ← Nat.add_assoc, Bool.true_or] at this ⊢
  have ef : t.items.filter (fun _ => true) = t.items := List.filter_eq_self.mpr fun _ _ => rfl
  rw [this, Nat.min_eq_left (by omega), ef]

/-- A file of forty bytes of audio, for the examples. -/
def someAudio : Bytes := (List.range 40).map fun n => UInt8.ofNat (n + 100)

/-- An ID3v1 tag of a title only. -/
def someV1 : Bytes := ascii "TAG" ++ ([65] ++ List.replicate 124 0)

example : ∃ old new, createTag exampleTag = .ok old ∧ createTag ⟨false, [⟨false, str "Album", .text (str "b")⟩]⟩ = .ok new ∧
    Leading Id3v2.smallTag (someAudio ++ (old ++ someV1)) ∧ Trailing (Id3v2.smallTag ++ (someAudio ++ old)) someV1 ∧
    writeTo {} (Id3v2.smallTag ++ (someAudio ++ (old ++ someV1))) ⟨false, [⟨false, str "Album", .text (str "b")⟩]⟩
      = .ok (Id3v2.smallTag ++ (someAudio ++ (new ++ someV1))) ∧
    writeTo {} (Id3v2.smallTag ++ (someAudio ++ (old ++ someV1))) ⟨false, []⟩
      = .ok (Id3v2.smallTag ++ (someAudio ++ someV1)) ∧
    writeTo {} (someAudio ++ someV1) exampleTag = .ok (someAudio ++ (old ++ someV1)) := by
  refine ⟨_, _, rfl, rfl, leading_written Id3v2.smallTag_written _, .tag (by decide +kernel) (by decide +kernel),
    ?_, ?_, ?_⟩ <;> decide +kernel

/-- A version 2 tag without header, as other programs write it. -/
def headerless : Bytes :=
  Item.write ⟨false, str "Title", .text (str "a")⟩ ++ headerBytes (15 + 32) 1 (2 ^ 30)

/-- Disagreement: the tag is assumed to have a header although its flags say that it has none, and
32 bytes of audio are dropped with it. -/
theorem headerless_tag_loses_audio :
    writeTo {} (someAudio ++ headerless) ⟨false, []⟩ = .ok (someAudio.take 8) ∧
      (readTag {} (someAudio ++ headerless) (40 + 15) true).map (·.1)
        = .ok (some ⟨false, [⟨false, str "Title", .text (str "a")⟩]⟩) := by decide +kernel

/-- Disagreement: an APE tag at the start of a file is not found when writing, although it is
documented to be moved to the end: writing an empty tag should remove it. -/
theorem leading_tag_kept : ∃ old, createTag exampleTag = .ok old ∧
    writeTo {} (old ++ someAudio) ⟨false, []⟩ = .ok (old ++ someAudio) := ⟨_, rfl, by decide +kernel⟩

/-- Disagreement: eight bytes in front of something that looks like an APE header: writing panics
(a range beyond the end of the file). -/
theorem write_panics :
    writeTo {} (List.replicate 8 1 ++ (headerBytes 32 0 0 ++ List.replicate 24 1)) ⟨false, []⟩ = .error .panic := by
  decide +kernel

/-- Disagreement: without `read_tags` in the parse options the existing tag is not found, and the
file then has two. -/
theorem unread_tag_duplicated : ∃ b, createTag exampleTag = .ok b ∧
    writeTo ⟨false, true⟩ (someAudio ++ b) exampleTag = .ok (someAudio ++ (b ++ b)) := ⟨_, rfl, by decide +kernel⟩

/-- Disagreement: read-only items of an existing tag are dropped although `respect_read_only` is on
by default. -/
theorem read_only_items_dropped : ∃ old new, createTag ⟨false, [⟨true, str "Title", .text (str "a")⟩]⟩ = .ok old ∧
    createTag ⟨false, [⟨false, str "Album", .text (str "b")⟩]⟩ = .ok new ∧
    writeTo {} (someAudio ++ old) ⟨false, [⟨false, str "Album", .text (str "b")⟩]⟩ = .ok (someAudio ++ new) ∧
    writeTo {} (someAudio ++ old) ⟨false, []⟩ = .ok someAudio := by
  refine ⟨_, _, rfl, rfl, ?_, ?_⟩ <;> decide +kernel

end Ape

end Lofty
