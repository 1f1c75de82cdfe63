import Verif.Props.Id3v2Header
/-!
# C23: ID3v2.3 tags saved with the experimental flag
-/
namespace Lofty.Id3v2

theorem need_pos {d b : Bytes} {pos n p : Nat} (h : need d pos n = .ok (b, p)) : pos ≤ p := by
  unfold need at h
  split at h
  · cases h; omega
  · cases h

theorem need_err {d : Bytes} {pos n p : Nat} {e : Err} (h : need d pos n = .error (e, p)) : pos ≤ p := by
  unfold need at h
  split at h
  · cases h
  · cases h; omega

/-- Reading the extended header never moves back, whether it succeeds or not. -/
theorem readExtended_pos (d : Bytes) (pos : Nat) (fl : Flags) (size : Nat) :
    (∃ fl' p, pos ≤ p ∧ readExtended d pos fl size = .ok (fl', p)) ∨ ∃ e p, pos ≤ p ∧ readExtended d pos fl size = .error (e, p) := by
  unfold readExtended
  split
  · exact .inr ⟨_, _, Nat.le_refl _, rfl⟩
  · cases h1 : need d pos 2 with
    | error x => exact .inr ⟨x.1, x.2, need_err h1, rfl⟩
    | ok x =>
      obtain ⟨b, p1⟩ := x
      have l1 := need_pos h1
      rw [ok_bind]
      simp only
      by_cases c2 : fromLE (b.drop 1) &&& 0x20 = 0x20
      · simp only [c2, if_true]
        cases h2 : need d p1 6 with
        | error x => exact .inr ⟨x.1, x.2, Nat.le_trans l1 (need_err h2), rfl⟩
        | ok x =>
          have l2 := need_pos h2
          rw [ok_bind, ok_bind]
          split
          · cases h3 : need d x.2 2 with
            | error y => exact .inr ⟨y.1, y.2, by have := need_err h3; omega, rfl⟩
            | ok y => exact .inl ⟨_, y.2, by have := need_pos h3; omega, rfl⟩
          · exact .inl ⟨_, x.2, by omega, rfl⟩
      · simp only [c2, if_false]
        rw [ok_bind]
        split
        · cases h3 : need d p1 2 with
          | error y => exact .inr ⟨y.1, y.2, by have := need_err h3; omega, rfl⟩
          | ok y => exact .inl ⟨_, y.2, by have := need_pos h3; omega, rfl⟩
        · exact .inl ⟨_, p1, l1, rfl⟩

/-- C23: a version 2.3 header that announces an extended header is refused if the byte behind it is 16 or more (no size of an extended header
begins like that, but every frame does), and the reader is left behind the first four bytes of the contents. -/
theorem parseHeader_frame_first (pre rest : Bytes) (minor fl s0 s1 s2 s3 b0 b1 b2 b3 : UInt8) (h40 : fl &&& 0x40 = 0x40)
    (h80 : (fl &&& 0x80 == 0x80) = false) (hb : 16 ≤ b0.toNat) :
    ∃ e p, pre.length + 14 ≤ p ∧
      parseHeader (pre ++ [0x49, 0x44, 0x33, 3, minor, fl, s0, s1, s2, s3] ++ ([b0, b1, b2, b3] ++ rest)) pre.length = .error (e, p) := by
  have hn : ∀ d, d = pre ++ [0x49, 0x44, 0x33, 3, minor, fl, s0, s1, s2, s3] ++ ([b0, b1, b2, b3] ++ rest) →
      need d (pre.length + 10) 4 = .ok ([b0, b1, b2, b3], pre.length + 14) := by
    rintro d rfl
    have := need_append (pre ++ [0x49, 0x44, 0x33, 3, minor, fl, s0, s1, s2, s3]) [b0, b1, b2, b3] rest 4 rfl
    simpa using this
  unfold parseHeader
  have h10 := need_append pre [0x49, 0x44, 0x33, 3, minor, fl, s0, s1, s2, s3] ([b0, b1, b2, b3] ++ rest) 10 rfl
  rw [← List.append_assoc] at h10
  rw [h10, ok_bind]
  simp only
  generalize hd : pre ++ [0x49, 0x44, 0x33, 3, minor, fl, s0, s1, s2, s3] ++ ([b0, b1, b2, b3] ++ rest) = d at *
  have hn := hn d rfl
  unfold decodeHeader
  have hid : ascii "ID3" = [0x49, 0x44, 0x33] := by decide
  have hv : versionOf 3 = some .v3 := by decide
  simp only [List.take_succ_cons, List.take_zero, hid, List.getD_cons_succ, List.getD_cons_zero, hv, List.drop_succ_cons, List.drop_zero]
  rw [if_neg (by simp), if_neg (by rintro ⟨h, -⟩; cases h), if_pos ⟨by decide, h40⟩]
  unfold readExtHeader
  have hu : (headerFlags .v3 fl).unsynchronisation = false := h80
  simp only [hu, Bool.false_eq_true, if_false]
  rw [hn, ok_bind]
  simp only
  have hsz : unsynch (fromBE [s0, s1, s2, s3]) < 2 ^ 28 := by
    have hl : fromBE [s0, s1, s2, s3] < 2 ^ 32 := by
      have := fromBE_lt [s0, s1, s2, s3]
      simp only [List.length_cons, List.length_nil] at this
      omega
    rw [unsynch_eq _ hl]
    omega
  have hext : 2 ^ 28 ≤ fromBE [b0, b1, b2, b3] := by
    simp only [fromBE, List.reverse_cons, List.reverse_nil, List.nil_append, List.cons_append, fromLE]
    omega
  rcases readExtended_pos d (pre.length + 14) (headerFlags .v3 fl) (fromBE [b0, b1, b2, b3]) with ⟨f', p, hp, hr⟩ | ⟨e, p, hp, hr⟩
  · rw [hr, ok_bind]
    simp only
    rw [ok_bind]
    simp only
    rw [if_pos ⟨by omega, by omega⟩]
    exact ⟨_, p, hp, rfl⟩
  · rw [hr]
    exact ⟨e, p, hp, rfl⟩

/-- C23: the header of an ID3v2.3 tag that is saved with the experimental flag and begins with a frame is refused. -/
theorem v23_experimental_refused {fl : Flags} (hexp : fl.experimental = true) (hcrc : fl.crc = false) (hres : fl.restrictions = none)
    {padding : Option Nat} {b0 b1 b2 b3 : UInt8} {body tag : Bytes} (hb : 16 ≤ b0.toNat)
    (h : createTag fl true padding (b0 :: b1 :: b2 :: b3 :: body) = .ok tag) (pre rest : Bytes) :
    (∃ b more, tag = 0x49 :: 0x44 :: 0x33 :: b :: more) ∧
      ∃ e p, pre.length + 14 ≤ p ∧ parseHeader (pre ++ tag ++ rest) pre.length = .error (e, p) := by
  unfold createTag at h
  have hx : extHeader fl = .ok [] := by unfold extHeader; simp [hcrc, hres]
  rw [hx, ok_bind] at h
  simp only at h
  split at h
  · cases h
  · rename_i s hs
    rw [hcrc] at h
    simp only [Bool.false_eq_true, if_false, if_true] at h
    rw [ok_bind] at h
    have hbe : ∃ s0 s1 s2 s3, beBytes 4 s = [s0, s1, s2, s3] := by
      have hl : (beBytes 4 s).length = 4 := beBytes_length 4 s
      match hq : beBytes 4 s, hl with
      | [s0, s1, s2, s3], _ => exact ⟨s0, s1, s2, s3, rfl⟩
    obtain ⟨s0, s1, s2, s3, hbe⟩ := hbe
    have hid : ascii "ID3" = [0x49, 0x44, 0x33] := by decide
    have ht : ∃ more, tag = [0x49, 0x44, 0x33, 3, 0, fl.v23Byte, s0, s1, s2, s3] ++ ([b0, b1, b2, b3] ++ more) := by
      rw [hbe, hid] at h
      split at h
      · cases h
        exact ⟨_, by simp only [List.append_assoc, List.cons_append, List.nil_append]; rfl⟩
      · cases h
        exact ⟨_, by simp only [List.append_assoc, List.cons_append, List.nil_append]; rfl⟩
    obtain ⟨more, rfl⟩ := ht
    have h40 : fl.v23Byte &&& 0x40 = 0x40 := by
      unfold Flags.v23Byte
      rw [hexp]
      cases fl.footer <;> decide
    have h80 : (fl.v23Byte &&& 0x80 == 0x80) = false := by
      unfold Flags.v23Byte
      cases fl.experimental <;> cases fl.footer <;> decide
    obtain ⟨e, p, hp, hr⟩ := parseHeader_frame_first pre (more ++ rest) 0 fl.v23Byte s0 s1 s2 s3 b0 b1 b2 b3 h40 h80 hb
    have hd : pre ++ ([0x49, 0x44, 0x33, 3, 0, fl.v23Byte, s0, s1, s2, s3] ++ ([b0, b1, b2, b3] ++ more)) ++ rest
        = pre ++ [0x49, 0x44, 0x33, 3, 0, fl.v23Byte, s0, s1, s2, s3] ++ ([b0, b1, b2, b3] ++ (more ++ rest)) := by
      simp only [List.append_assoc]
    rw [← hd] at hr
    exact ⟨⟨_, _, rfl⟩, e, p, hp, hr⟩

/-- C23, a disagreement: **no ID3v2.3 tag that is saved with the experimental flag and begins with a frame is found again**: the flag is written
into the bit that announces an extended header, the identifier of the first frame is taken for its size, and the search for the audio goes on
inside of the tag. -/
theorem v23_experimental_lost {fl : Flags} (hexp : fl.experimental = true) (hcrc : fl.crc = false) (hres : fl.restrictions = none)
    {padding : Option Nat} {b0 b1 b2 b3 : UInt8} {body tag : Bytes} (hb : 16 ≤ b0.toNat)
    (h : createTag fl true padding (b0 :: b1 :: b2 :: b3 :: body) = .ok tag) (pre rest : Bytes) (read : Bool) :
    ∃ p, pre.length + 4 ≤ p ∧ find (pre ++ tag ++ rest) pre.length read none = .ok (none, p) := by
  obtain ⟨-, e, p, hp, hr⟩ := v23_experimental_refused hexp hcrc hres hb h pre rest
  refine ⟨p - 10, by omega, ?_⟩
  unfold find findAt
  simp only
  rw [hr]
  simp only
  rw [if_neg (by omega)]

/-- A title in an experimental tag: the search ends inside of the tag, and no tag was found. -/
example : (createTag ⟨false, true, false, false, none⟩ true none (ascii "TIT2" ++ [0, 0, 0, 2, 0, 0, 0, 65])).toOption.map
    (fun t => (find (t ++ [0xFF, 0xFB, 0x90, 0x64]) 0 true none).toOption.map fun r => (r.1.isSome, r.2))
      = some (some (false, 6)) := by
  decide +kernel

/-- The same tag without the flag is found. -/
example : (createTag ⟨false, false, false, false, none⟩ true none (ascii "TIT2" ++ [0, 0, 0, 2, 0, 0, 0, 65])).toOption.map
    (fun t => (find (t ++ [0xFF, 0xFB, 0x90, 0x64]) 0 true none).toOption.map fun r => (r.1.isSome, r.2))
      = some (some (true, 22)) := by
  decide +kernel

end Lofty.Id3v2
