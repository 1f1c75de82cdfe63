import Verif.Model.Id3v2Tag
import Verif.Props.Id3v2Items
import Verif.Props.Id3v2Flags
import Verif.Props.Id3v2List
import Verif.Lemmas.Vorbis
import Verif.Lemmas.Id3v2Header
/-! Lemmas about frame headers and the frame reader. -/
namespace Lofty.Id3v2
open Lofty.Text (Encoding)

mutual

/-- Equality of frames is decidable (used by examples and witnesses). -/
def Frame.decEq : (a b : Frame) → Decidable (a = b)
  | .leaf f c, .leaf g d => decidable_of_iff (f = g ∧ c = d) (by simp)
  | .chapter f i t o l, .chapter g j u p m =>
    match framesDecEq l m with
    | isTrue h => decidable_of_iff (f = g ∧ i = j ∧ t = u ∧ o = p) (by simp [h])
    | isFalse h => isFalse (by simp [h])
  | .toc f i a b e l, .toc g j c d e' m =>
    match framesDecEq l m with
    | isTrue h => decidable_of_iff (f = g ∧ i = j ∧ a = c ∧ b = d ∧ e = e') (by simp [h])
    | isFalse h => isFalse (by simp [h])
  | .leaf .., .chapter .. | .leaf .., .toc .. | .chapter .., .leaf .. | .chapter .., .toc .. | .toc .., .leaf ..
  | .toc .., .chapter .. => isFalse nofun

/-- Equality of lists of frames. -/
def framesDecEq : (a b : List Frame) → Decidable (a = b)
  | [], [] => isTrue rfl
  | a :: l, b :: m =>
    match a.decEq b, framesDecEq l m with
    | isTrue h, isTrue h' => isTrue (by rw [h, h'])
    | isFalse h, _ => isFalse (by simp [h])
    | _, isFalse h => isFalse (by simp [h])
  | [], _ :: _ | _ :: _, [] => isFalse nofun

end

instance : DecidableEq Frame := Frame.decEq

/-- A frame id of four capital letters or digits. -/
def IdOk (s : Str) : Prop := s.length = 4 ∧ ∀ c ∈ s, idChar c = true

instance (s : Str) : Decidable (IdOk s) := by unfold IdOk; infer_instance

theorem idChar_range {c : Char} (h : idChar c = true) : 48 ≤ c.toNat ∧ c.toNat ≤ 90 := by
  have e1 : 'A'.toNat = 65 := by decide
  have e2 : 'Z'.toNat = 90 := by decide
  have e3 : '0'.toNat = 48 := by decide
  have e4 : '9'.toNat = 57 := by decide
  simp only [idChar, Bool.or_eq_true, Bool.and_eq_true, decide_eq_true_eq, e1, e2, e3, e4] at h
  omega

theorem newId {s : Str} (h : IdOk s) : FrameId.new s = .ok (.valid s) := by
  have : s.all idChar = true := List.all_eq_true.mpr h.2
  rw [FrameId.new, this]
  simp [h.1]

/-- Flags that need nothing but, perhaps, the group byte. -/
def PlainFlags (f : FrameFlags) : Prop :=
  f.compression = false ∧ f.encryption = none ∧ f.unsync = false ∧ f.dataLength = none

instance (f : FrameFlags) : Decidable (PlainFlags f) := by unfold PlainFlags; infer_instance

theorem flagsV24_rt (f : FrameFlags) : FrameFlags.parseV24 (UInt16.ofNat (fromBE (beBytes 2 f.asV24.toNat))) = f.kinds := by
  rw [fromBE_beBytes_of_lt (k := 2) f.asV24.toNat_lt, UInt16.ofNat_toNat, parseV24_asV24]

theorem flagsV23_rt {f : FrameFlags} (h : PlainFlags f) :
    FrameFlags.parseV23 (UInt16.ofNat (fromBE (beBytes 2 f.asV23.toNat))) = f.kinds := by
  rw [fromBE_beBytes_of_lt (k := 2) f.asV23.toNat_lt, UInt16.ofNat_toNat, parseV23_asV23]
  obtain ⟨a, b, c, g, k, e, u, d⟩ := f
  obtain ⟨rfl, rfl, rfl, rfl⟩ := h
  rfl

theorem utf8_idOk {s : Str} (h : IdOk s) : ∃ a b c d, utf8 s = [a, b, c, d] ∧ a ≠ 0 ∧ d ≠ 0 ∧ Text.utf8Decode [a, b, c, d] = .ok s := by
  have ha : ∀ c ∈ s, c.toNat ≤ 127 := fun c hc => by have := idChar_range (h.2 c hc); omega
  have hu : utf8 s = s.map fun c => UInt8.ofNat c.toNat := utf8_ascii s ha
  obtain ⟨hl, hc⟩ := h
  match s, hl, hc, hu with
  | [w, x, y, z], _, hc, hu =>
    have ne : ∀ c ∈ [w, x, y, z], UInt8.ofNat c.toNat ≠ 0 := by
      intro c hc' he
      have := idChar_range (hc c hc')
      have e := congrArg UInt8.toNat he
      simp [UInt8.toNat_ofNat'] at e
      omega
    refine ⟨UInt8.ofNat w.toNat, UInt8.ofNat x.toNat, UInt8.ofNat y.toNat, UInt8.ofNat z.toNat, by rw [hu]; rfl, ne w (by simp), ne z (by simp), ?_⟩
    have e : [UInt8.ofNat w.toNat, UInt8.ofNat x.toNat, UInt8.ofNat y.toNat, UInt8.ofNat z.toNat] = utf8 [w, x, y, z] := by rw [hu]; rfl
    rw [e]
    refine Vorbis.utf8Decode_utf8 _ ?_
    intro hz
    simp only [List.getLast?_cons_cons, List.getLast?_singleton, Option.some.injEq] at hz
    have := idChar_range (hc z (by simp))
    rw [hz] at this
    exact absurd this.1 (by decide)

/-- The id survives reading with these options. -/
def IdKept (v23 implicit : Bool) (s : Str) : Prop := v23 = true → implicit = true → upgradeV3 s = none

instance (a b : Bool) (s : Str) : Decidable (IdKept a b s) := by unfold IdKept; infer_instance

theorem list4 (n : Nat) : ∃ a b c d, beBytes 4 n = [a, b, c, d] := by
  have h : (beBytes 4 n).length = 4 := by simp
  match beBytes 4 n, h with
  | [a, b, c, d], _ => exact ⟨a, b, c, d, rfl⟩

theorem list2 (n : Nat) : ∃ a b, beBytes 2 n = [a, b] := by
  have h : (beBytes 2 n).length = 2 := by simp
  match beBytes 2 n, h with
  | [a, b], _ => exact ⟨a, b, rfl⟩

/-- The id under which the reader files what was written under an id. -/
def upId (v23 implicit : Bool) (s : Str) : Str := if v23 = true ∧ implicit = true then (upgradeV3 s).getD s else s

theorem upId_kept {v23 implicit : Bool} {s : Str} (h : IdKept v23 implicit s) : upId v23 implicit s = s := by
  unfold upId
  split
  · rename_i hc; rw [h hc.1 hc.2]; rfl
  · rfl

/-- **Frame headers** are read back. -/
theorem header_up (o : WriteOpts) (implicit : Bool) {name : Str} {len : Nat} {flags : FrameFlags} {h : Bytes} (rest : Bytes)
    (hid : IdOk name) (hid' : IdOk (upId o.v23 implicit name)) (hl : len < 2 ^ 32) (hp : PlainFlags flags)
    (hw : writeFrameHeader o.v23 name len flags = .ok h) :
    parseFrameHeader o.version implicit (h ++ rest) = .frame (.valid (upId o.v23 implicit name)) flags.kinds len rest := by
  obtain ⟨a, b, c, d, hu, ha, hd, hdec⟩ := utf8_idOk hid
  unfold writeFrameHeader at hw
  unfold WriteOpts.version
  cases hv : o.v23 with
  | true =>
    rw [hv] at hw
    simp only [if_true, Except.ok.injEq] at hw
    subst hw
    obtain ⟨s1, s2, s3, s4, hs⟩ := list4 len
    obtain ⟨f1, f2, hf⟩ := list2 flags.asV23.toNat
    have hlen := fromBE_beBytes_of_lt (k := 4) hl
    have hfl := flagsV23_rt hp
    rw [hs] at hlen
    rw [hf] at hfl
    rw [hu, hs, hf]
    simp only [if_true, parseFrameHeader, parseHeaderV34, List.cons_append, List.nil_append, if_neg ha, Bool.false_eq_true, if_false]
    rw [hlen, hfl]
    have : idV34 false implicit a b c d = .ok (.valid (upId true implicit name)) := by
      unfold idV34
      rw [if_neg (by simp [hd]), hdec]
      simp only [true_and]
      rw [hv] at hid'
      unfold upId at hid' ⊢
      simp only [true_and] at hid' ⊢
      exact newId hid'
    rw [this]; rfl
  | false =>
    rw [hv] at hw
    simp only [Bool.false_eq_true, if_false] at hw
    cases hsy : synch len with
    | none => rw [hsy] at hw; cases hw
    | some n =>
      rw [hsy] at hw
      simp only [Except.ok.injEq] at hw
      subst hw
      obtain ⟨hun, hn⟩ := unsynch_synch len n hl hsy
      obtain ⟨s1, s2, s3, s4, hs⟩ := list4 n
      obtain ⟨f1, f2, hf⟩ := list2 flags.asV24.toNat
      have hlen := fromBE_beBytes_of_lt (k := 4) hn
      have hfl := flagsV24_rt flags
      rw [hs] at hlen
      rw [hf] at hfl
      rw [hu, hs, hf]
      simp only [Bool.false_eq_true, if_false, parseFrameHeader, parseHeaderV34, List.cons_append, List.nil_append, if_neg ha, if_true]
      rw [hlen, hfl, hun]
      have : idV34 true implicit a b c d = .ok (.valid (upId false implicit name)) := by
        unfold idV34 upId
        rw [if_neg (by simp), hdec]
        simp [newId hid]
      rw [this]; rfl

theorem header_rt (o : WriteOpts) (implicit : Bool) {name : Str} {len : Nat} {flags : FrameFlags} {h : Bytes} (rest : Bytes)
    (hid : IdOk name) (hk : IdKept o.v23 implicit name) (hl : len < 2 ^ 32) (hp : PlainFlags flags)
    (hw : writeFrameHeader o.v23 name len flags = .ok h) :
    parseFrameHeader o.version implicit (h ++ rest) = .frame (.valid name) flags.kinds len rest := by
  have := header_up o implicit rest hid (by rwa [upId_kept hk]) hl hp hw
  rwa [upId_kept hk] at this

/-- What a plain frame's flag data look like. -/
theorem flagData_plain (f : FrameFlags) (hp : PlainFlags f) (size : Nat) (r : Bytes) (g : UInt8) :
    (f.grouping = none → flagData f.kinds size r = .ok (f, size, r))
    ∧ (f.grouping = some g → flagData f.kinds (size + 1) (g :: r) = .ok (f, size, r)) := by
  obtain ⟨a, b, c, gr, k, e, u, d⟩ := f
  obtain ⟨rfl, rfl, rfl, rfl⟩ := hp
  constructor
  · rintro rfl
    simp [flagData, flagData.encryptionSymbol, flagData.groupIdentifier, flagData.dataLengthIndicator, FrameFlags.kinds]
  · rintro rfl
    simp [flagData, flagData.encryptionSymbol, flagData.groupIdentifier, flagData.dataLengthIndicator, FrameFlags.kinds, readU8, Except.map]

/-- **One frame**: what `write_frame` writes is cut out again as the same id, flags and body, and the reader is
left behind the frame (unless the parser of the body stops early). -/
theorem readFrame_up (rc : Bytes → Except Err (List Frame × Bytes)) (o : WriteOpts) (po : ParseOpts) {name : Str}
    {flags : FrameFlags} {value b : Bytes} (rest : Bytes)
    (hid : IdOk name) (hid' : IdOk (upId o.v23 po.implicit name)) (hp : PlainFlags flags) (hne : value ≠ [])
    (hlen : value.length < 2 ^ 32) (hc : po.readCover = true ∨ upId o.v23 po.implicit name ≠ str "APIC") (hw : writeFrame o name flags value = .ok b) :
    readFrame rc po o.version false (b ++ rest) = parseFrame rc po o.version (.valid (upId o.v23 po.implicit name)) flags value rest := by
  have hv0 : 0 < value.length := List.length_pos_iff.mpr hne
  have key : ∀ (extra : Bytes) (size : Nat) (h : Bytes), size = extra.length + value.length → size < 2 ^ 32 →
      writeFrameHeader o.v23 name size flags = .ok h → flagData flags.kinds size (extra ++ value ++ rest) = .ok (flags, value.length, value ++ rest) →
      readFrame rc po o.version false (h ++ (extra ++ value) ++ rest) = parseFrame rc po o.version (.valid (upId o.v23 po.implicit name)) flags value rest := by
    intro extra size h hs hsl hh hf
    unfold readFrame
    rw [List.append_assoc h, header_up o po.implicit _ hid hid' hsl hp hh]
    simp only
    unfold readKnown
    have hcov : ¬ (po.readCover = false ∧ FrameId.valid (upId o.v23 po.implicit name) = .valid (str "APIC")) := by
      rintro ⟨h1, h2⟩
      rcases hc with hc | hc
      · rw [h1] at hc; cases hc
      · exact hc (FrameId.valid.inj h2)
    rw [if_neg hcov]
    simp only [Bool.false_and, Bool.false_eq_true, if_false]
    rw [if_neg (by omega), hf]
    simp only [ok_bind]
    unfold readBody
    rw [if_neg (by omega)]
    simp only [hp.2.2.1, Bool.false_eq_true, if_false, handleCompression, hp.1, ok_bind, hp.2.1, Option.isSome_none,
      List.take_left' rfl, List.drop_left' rfl]
  unfold writeFrame at hw
  rw [hp.2.1] at hw
  simp only [Nat.mod_eq_of_lt hlen] at hw
  cases hg : flags.grouping with
  | none =>
    rw [hg] at hw
    simp only at hw
    obtain ⟨h, hh, h2⟩ := bind_ok hw
    cases h2
    have := key [] value.length h (by simp) hlen hh (by
      simpa using (flagData_plain flags hp value.length (value ++ rest) 0).1 hg)
    simpa using this
  | some g =>
    rw [hg] at hw
    simp only at hw
    split at hw
    · cases hw
    · rename_i hlt
      obtain ⟨h, hh, h2⟩ := bind_ok hw
      cases h2
      have := key [g] (value.length + 1) h (by simp; omega) (by omega) hh (by
        simpa using (flagData_plain flags hp value.length (value ++ rest) g).2 hg)
      simpa using this

theorem readFrame_writeFrame (rc : Bytes → Except Err (List Frame × Bytes)) (o : WriteOpts) (po : ParseOpts) {name : Str}
    {flags : FrameFlags} {value b : Bytes} (rest : Bytes)
    (hid : IdOk name) (hk : IdKept o.v23 po.implicit name) (hp : PlainFlags flags) (hne : value ≠ [])
    (hlen : value.length < 2 ^ 32) (hc : po.readCover = true ∨ name ≠ str "APIC") (hw : writeFrame o name flags value = .ok b) :
    readFrame rc po o.version false (b ++ rest) = parseFrame rc po o.version (.valid name) flags value rest := by
  have := readFrame_up rc o po rest hid (by rwa [upId_kept hk]) hp hne hlen (by rwa [upId_kept hk]) hw
  rwa [upId_kept hk] at this

theorem writeFrame_length {o : WriteOpts} {name : Str} {flags : FrameFlags} {value b : Bytes} (hid : IdOk name)
    (hw : writeFrame o name flags value = .ok b) : 10 ≤ b.length := by
  have hh : ∀ {len : Nat} {h : Bytes}, writeFrameHeader o.v23 name len flags = .ok h → h.length = 10 := by
    intro len h hw
    obtain ⟨_, _, _, _, hu, _⟩ := utf8_idOk hid
    unfold writeFrameHeader at hw
    split at hw
    · cases hw; simp [hu]
    · split at hw
      · cases hw; simp [hu]
      · cases hw
  unfold writeFrame at hw
  split at hw
  · unfold writeEncrypted at hw
    split at hw
    · cases hw
    · split at hw
      · cases hw
      · split at hw
        · cases hw
        · obtain ⟨h, h1, h2⟩ := bind_ok hw
          obtain ⟨l, _, h3⟩ := bind_ok h2
          cases h3
          have := hh h1
          simp; omega
  · split at hw
    · obtain ⟨h, h1, h2⟩ := bind_ok hw
      cases h2
      have := hh h1
      simp; omega
    · split at hw
      · cases hw
      · obtain ⟨h, h1, h2⟩ := bind_ok hw
        cases h2
        have := hh h1
        simp; omega

theorem writeFrame_le {o : WriteOpts} {name : Str} {flags : FrameFlags} {value b : Bytes} (hp : PlainFlags flags)
    (hw : writeFrame o name flags value = .ok b) : value.length ≤ b.length := by
  unfold writeFrame at hw
  rw [hp.2.1] at hw
  simp only at hw
  split at hw
  · obtain ⟨h, h1, h2⟩ := bind_ok hw
    cases h2
    simp
  · split at hw
    · cases hw
    · obtain ⟨h, h1, h2⟩ := bind_ok hw
      cases h2
      simp; omega

theorem if_t_t {α} (c : Prop) [Decidable c] (a : α) : (if c then a else a) = a := by split <;> rfl

end Lofty.Id3v2
