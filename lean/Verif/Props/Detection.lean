import Verif.Props.Save
import Verif.Lemmas.FileLayout
import Verif.Props.IffFiles
import Verif.Props.Mp4Create
/-!
# C68: saving tags does not change the type of a file

The type is always determined from the content, so a file that is no longer recognised, or is recognised as something else,
could not be opened or saved any more.
-/
namespace Lofty.Save
open Item FileType FileType.Spec Probe

theorem verified_iff {f : Bytes} {t : FileType} : verified f = .ok t ↔ guessInner f 0 1024 = .ok (some t, 0) := by
  unfold verified guessFileType
  simp only [Option.getD_none]
  obtain ⟨o, h⟩ := guess_total f 0 1024
  rw [h]
  cases o <;> simp

/-- The search for frames depends on what is behind the position and is not disturbed by more data. -/
theorem checkFrames_ext {f pre rest : Bytes} {pos junk p : Nat} {t : FileType} (h : checkFrames f pos junk = .ok (some t, p)) :
    checkFrames (pre ++ (f ++ rest)) (pre.length + pos) junk = .ok (some t, pre.length + p) := by
  unfold checkFrames at h ⊢
  cases hs : Mpeg.searchSync ((f.drop pos).take junk) with
  | none => rw [hs] at h; simp at h
  | some i =>
    rw [hs] at h
    simp only at h
    have hp : pos ≤ f.length := by
      by_contra hc
      rw [List.drop_eq_nil_of_le (by omega)] at hs
      simp [Mpeg.searchSync] at hs
    rw [FileTags.drop_ext _ _ _ _ hp]
    have e : (f.drop pos ++ rest).take junk = (f.drop pos).take junk ++ rest.take (junk - (f.drop pos).length) := List.take_append
    rw [e, FileTags.searchSync_append _ hs]
    simp only
    cases hr : readAt f (pos + i + 2 - 2) 2 with
    | error e => rw [hr] at h; cases h
    | ok b =>
      rw [hr] at h
      have := FileTags.readAt_ext (pre := pre) (suf := rest) hr
      rw [show pre.length + pos + i + 2 - 2 = pre.length + (pos + i + 2 - 2) by omega, this]
      simp only [Except.ok.injEq, Prod.mk.injEq] at h ⊢
      exact ⟨h.1, by omega⟩

/-- **Data behind** a file of any type do not change the type. -/
theorem verified_append {f : Bytes} {t : FileType} (hl : 36 ≤ f.length) (hid : ¬ At f 0 "ID3") (h : verified f = .ok t) (rest : Bytes) :
    verified (f ++ rest) = .ok t := by
  rw [verified_iff] at h ⊢
  unfold guessInner at h ⊢
  simp only [List.drop_zero] at h ⊢
  rw [List.take_append_of_le_length hl]
  cases hg : fromBufferInner (f.take 36) with
  | error e => rw [hg] at h; cases h
  | ok g =>
    rw [hg] at h
    cases g with
    | none => simp at h
    | some g =>
      cases g with
      | determined t' => exact h
      | afterId3 n =>
        exfalso
        apply hid
        unfold fromBufferInner at hg
        split at hg
        · cases hg
        split at hg
        · cases hg
        · cases hg
        · simp only [Except.ok.injEq, Option.some.injEq] at hg
          unfold guessUndetermined at hg
          split at hg
          · rename_i hc
            have h2 := hc.2
            rw [List.take_take, Nat.min_eq_left (by omega)] at h2
            exact h2
          · cases hg
      | afterJunk =>
        simp only at h ⊢
        cases hc : checkFrames f 0 1024 with
        | error e => rw [hc] at h; cases h
        | ok r =>
          obtain ⟨o, p⟩ := r
          rw [hc] at h
          simp only [Except.ok.injEq, Prod.mk.injEq] at h
          obtain ⟨rfl, -⟩ := h
          have := checkFrames_ext (pre := []) (rest := rest) hc
          simp only [List.nil_append, List.length_nil, Nat.zero_add] at this
          rw [this]

/-- The bytes of a synchsafe number are not 0xFF. -/
theorem synchsafe_ne {n s : BitVec 32} (h : Synchsafe.synch32 n = some s) : ∀ b ∈ beBytes 4 s.toNat, b ≠ 0xFF := by
  have ht := (Synchsafe.synch32_roundtrip n s h).2
  have hb : ∀ k, k < 32 → k % 8 = 7 → s.toNat / 2 ^ k % 2 = 0 := by
    intro k hk h7
    have := ht k hk h7
    rw [BitVec.getLsbD, Nat.testBit_eq_decide_div_mod_eq] at this
    simpa using this
  have h0 := hb 7 (by decide) (by decide)
  have h1 := hb 15 (by decide) (by decide)
  have h2 := hb 23 (by decide) (by decide)
  have h3 := hb 31 (by decide) (by decide)
  intro b hm hc
  subst hc
  simp only [beBytes, leBytes, List.reverse_cons, List.reverse_nil, List.nil_append, List.cons_append, List.mem_cons, List.not_mem_nil, or_false] at hm
  have hv : ∀ m : Nat, (0xFF : UInt8) = UInt8.ofNat m → m % 256 = 255 := by
    intro m hm
    have := congrArg UInt8.toNat hm
    rw [UInt8.toNat_ofNat'] at this
    simpa using this.symm
  rcases hm with hm | hm | hm | hm <;> replace hm := hv _ hm <;> omega

/-- A tag written by the library is made of a header and content; a footer repeats the header. -/
theorem tag_shape {fl : Id3v2.Flags} {v23 : Bool} {padding : Option Nat} {body tag : Bytes} (hcrc : fl.crc = false)
    (hres : fl.restrictions = none) (hsize : body.length + padding.getD 0 < 2 ^ 32)
    (h : Id3v2.createTag fl v23 padding body = .ok tag) :
    ∃ major flags s content, flags.toNat % 16 = 0 ∧ (major ≠ 0xFF ∧ flags ≠ 0xFF) ∧ content.length < 2 ^ 28 ∧
      Synchsafe.synch32 (BitVec.ofNat 32 content.length) = some s ∧ tag = tagBytes major 0 flags s content ++
        (if fl.footer then ascii "3DI" ++ ([major, 0, flags] ++ beBytes 4 s.toNat) else []) := by
  unfold Id3v2.createTag at h
  have hx : Id3v2.extHeader fl = .ok [] := by rw [Id3v2.extHeader, hcrc, hres]; rfl
  rw [hx, ok_bind] at h
  simp only [List.length_nil, Nat.zero_add, List.append_nil, hcrc, Bool.false_eq_true, if_false] at h
  have hpad : (if fl.footer = true then 0 else padding.getD 0) ≤ padding.getD 0 := by split <;> omega
  generalize hp : (if fl.footer = true then 0 else padding.getD 0) = pad at h hpad
  rw [Nat.mod_eq_of_lt (by omega)] at h
  cases hs : Id3v2.synch (body.length + pad) with
  | none => rw [hs] at h; cases h
  | some s =>
    rw [hs] at h
    simp only [ok_bind] at h
    have hlt := (Id3v2.synch_isSome _ (by omega)).mp ⟨s, hs⟩
    unfold Id3v2.synch at hs
    cases hb : Synchsafe.synch32 (BitVec.ofNat 32 (body.length + pad)) with
    | none => rw [hb] at hs; cases hs
    | some b =>
      rw [hb] at hs
      obtain rfl := (Option.some.injEq _ _).mp hs
      refine ⟨(if v23 then 3 else 4), (if v23 then fl.v23Byte else fl.v24Byte), b, body ++ List.replicate pad 0, ?_, ⟨?_, ?_⟩, by simpa using hlt, by simpa using hb, ?_⟩
      · unfold Id3v2.Flags.v23Byte Id3v2.Flags.v24Byte
        cases v23 <;> cases fl.experimental <;> cases fl.unsynchronisation <;> cases fl.footer <;> cases fl.crc <;> cases fl.restrictions <;> decide
      · cases v23 <;> decide
      · unfold Id3v2.Flags.v23Byte Id3v2.Flags.v24Byte
        cases v23 <;> cases fl.experimental <;> cases fl.unsynchronisation <;> cases fl.footer <;> cases fl.crc <;> cases fl.restrictions <;> decide
      · cases hfoot : fl.footer with
        | false =>
          rw [hfoot] at h
          simp only [Bool.false_eq_true, if_false] at h
          obtain rfl := (Except.ok.injEq _ _).mp h
          unfold tagBytes
          simp only [Bool.false_eq_true, if_false, List.append_assoc, List.append_nil]
        | true =>
          rw [hfoot] at h hp
          simp only [if_true] at h hp
          subst hp
          obtain rfl := (Except.ok.injEq _ _).mp h
          unfold tagBytes
          simp only [if_true, List.append_assoc, List.replicate_zero, List.append_nil]
          congr 5

/-- Data with a Musepack signature are not undetermined. -/
theorem mpc_determined {r : Bytes} (hm : startsWith (77 :: r) (ascii "MPCK") = true ∨ startsWith (77 :: r) (ascii "MP+") = true) :
    quickGuess (77 :: r) ≠ .ok none := by
  intro h
  change quickGuessBy 77 (r.headD 0) (77 :: r) = _ at h
  unfold quickGuessBy at h
  split at h
  · cases h
  split at h
  · rename_i hc; exact absurd hc.1 (by decide)
  split at h
  · rename_i hc; exact absurd hc.1 (by decide)
  split at h
  · rename_i hc; exact absurd hc.1 (by decide)
  split at h
  · cases h
  split at h
  · rename_i hc; exact absurd hc.1 (by decide)
  split at h
  · cases h
  unfold guessOther at h
  split at h
  · cases h
  · first | cases h | (rw [if_pos hm] at h; cases h)

/-- Undetermined data have none of the signatures looked for behind a tag. -/
theorem undetermined {d : Bytes} (h : quickGuess d = .ok none) :
    ¬ At d 0 "MAC" ∧ ¬ At d 0 "fLaC" ∧ ¬ At d 0 "MPCK" ∧ ¬ At d 0 "MP+" := by
  refine ⟨fun hm => ?_, fun hm => ?_, fun hm => ?_, fun hm => ?_⟩
  · rw [quickGuess_magic (t := .ape) hm ⟨nofun, nofun⟩ nofun] at h
    cases h
  · rw [quickGuess_magic (t := .flac) hm ⟨nofun, nofun⟩ nofun] at h
    cases h
  · obtain ⟨r, rfl⟩ := at_head hm (c := 77) rfl
    exact mpc_determined (.inl (startsWith_iff.mpr hm)) h
  · obtain ⟨r, rfl⟩ := at_head hm (c := 77) rfl
    exact mpc_determined (.inr (startsWith_iff.mpr hm)) h

/-- The formats that may have an ID3v2 tag in front. -/
def behindId3 : List FileType := [.mpeg, .aac, .ape, .mpc, .flac]

theorem magic_append {t : FileType} {f : Bytes} (hl : 36 ≤ f.length) (h : Magic t f) (rest : Bytes) : Magic t (f ++ rest) := by
  rw [← magic_take] at h ⊢
  rwa [List.take_append_of_le_length hl]

/-- A frame sync at the beginning is found there. -/
theorem checkFrames_first {b : UInt8} {r : Bytes} (hb : 0xE0 ≤ b.toNat) :
    checkFrames (0xFF :: b :: r) 0 1024 = .ok (some (adtsOrMpeg b), 2) := by
  have hv : Mpeg.verifySync 0xFF b = true := by
    have : ∀ n : Fin 256, 0xE0 ≤ (UInt8.ofNat n.val).toNat → Mpeg.verifySync 0xFF (UInt8.ofNat n.val) = true := by decide +kernel
    have := this ⟨b.toNat, b.toNat_lt⟩
    simpa using this (by simpa using hb)
  unfold checkFrames
  have hs : Mpeg.searchSync (((0xFF :: b :: r).drop 0).take 1024) = some 0 := by
    simp only [List.drop_zero, List.take_succ_cons, Mpeg.searchSync, Mpeg.searchFrom, hv, if_true]
  rw [hs]
  rfl

/-- **An ID3v2 tag in front** of a file of one of these formats does not change the type, whatever is in the tag. -/
theorem verified_behind {f : Bytes} {t : FileType} (ht : t ∈ behindId3) (hl : 36 ≤ f.length) (hid : ¬ At f 0 "ID3")
    (h : verified f = .ok t) {major flags : UInt8} {content : Bytes} {s : BitVec 32} (hf : flags.toNat % 16 = 0)
    (hn : content.length < 2 ^ 28) (hs : Synchsafe.synch32 (BitVec.ofNat 32 content.length) = some s) (rest : Bytes) :
    verified (tagBytes major 0 flags s content ++ (f ++ rest)) = .ok t := by
  have hlt : (tagBytes major 0 flags s content).length = 10 + content.length := by
    unfold tagBytes
    simp [beBytes_length, ascii]
    omega
  have hframes : ∀ p, checkFrames f 0 1024 = .ok (some t, p) → ¬ At f 0 "MAC" → ¬ At f 0 "fLaC" → ¬ At f 0 "MPCK" → ¬ At f 0 "MP+" →
      verified (tagBytes major 0 flags s content ++ (f ++ rest)) = .ok t := by
    intro p hc h1 h2 h3 h4
    rw [verified_iff]
    unfold guessInner
    simp only [List.drop_zero]
    rw [fromBuffer_tag hn hs hf]
    simp only
    unfold guessAfterId3
    simp only [Nat.zero_add]
    have hd : (tagBytes major 0 flags s content ++ (f ++ rest)).drop (10 + content.length) = f ++ rest := List.drop_left' hlt
    have hat : ∀ x : String, x.length ≤ 4 → ¬ At f 0 x → ¬ At ((tagBytes major 0 flags s content ++ (f ++ rest)).drop (10 + content.length)) 0 x := by
      intro x hx hn' ha
      apply hn'
      rw [hd] at ha
      unfold At at ha ⊢
      rwa [List.drop_zero, List.take_append_of_le_length (by omega)] at ha
    have hg : guessIdent (tagBytes major 0 flags s content ++ (f ++ rest)) (identAt (tagBytes major 0 flags s content ++ (f ++ rest)) (10 + content.length))
        (10 + content.length) 1024 = checkFrames (tagBytes major 0 flags s content ++ (f ++ rest)) (10 + content.length) 1024 := by
      unfold guessIdent
      rw [if_neg, if_neg, if_neg]
      · rintro (he | he)
        · exact hat "MPCK" (by decide) h3 (ident_at (s := "MPCK") (by decide) (by decide) (by rw [he]; rfl))
        · exact hat "MP+" (by decide) h4 (ident_at (s := "MP+") (by decide) (by decide) he)
      · intro he
        exact hat "fLaC" (by decide) h2 (ident_at (s := "fLaC") (by decide) (by decide) (by rw [he]; rfl))
      · intro he
        exact hat "MAC" (by decide) h1 (ident_at (s := "MAC") (by decide) (by decide) he)
    rw [hg, ← hlt]
    have := checkFrames_ext (pre := tagBytes major 0 flags s content) (rest := rest) hc
    rw [Nat.add_zero] at this
    rw [this]
  have h0 := h
  rw [verified_iff] at h
  unfold guessInner at h
  simp only [List.drop_zero] at h
  cases hg : fromBufferInner (f.take 36) with
  | error e => rw [hg] at h; cases h
  | ok g =>
    rw [hg] at h
    unfold fromBufferInner at hg
    split at hg
    · cases hg; simp at h
    split at hg
    · cases hg
    · rename_i t' hq
      obtain rfl := ((Except.ok.injEq _ _).mp hg)
      simp only [Except.ok.injEq, Prod.mk.injEq, and_true, Option.some.injEq] at h
      subst h
      have hm := magic_take.mp (quickGuess_sound hq)
      have hm2 := magic_append hl hm rest
      have three : t' = .flac ∨ t' = .ape ∨ t' = .mpc → verified (tagBytes major 0 flags s content ++ (f ++ rest)) = .ok t' := by
        intro h3
        rw [verified_iff]
        have := guess_id3 (major := major) (revision := 0) hn hs (body := content) rfl hf hm2 h3 [] 1024
        simpa using this
      have two : ∀ b r, f = 0xFF :: b :: r → 0xE0 ≤ b.toNat → adtsOrMpeg b = t' → verified (tagBytes major 0 flags s content ++ (f ++ rest)) = .ok t' := by
        rintro b r rfl hb hab
        refine hframes 2 (by rw [checkFrames_first hb, hab]) ?_ ?_ ?_ ?_
        all_goals exact not_at_of_head rfl (by decide)
      simp only [behindId3, List.mem_cons, List.not_mem_nil, or_false] at ht
      rcases ht with rfl | rfl | rfl | rfl | rfl
      · obtain ⟨b, r, h1, h2, h3⟩ := hm
        rcases adtsOrMpeg_eq h2 with h4 | h4
        · exact absurd h4.2 h3
        · exact two b r h1 h2 h4.1
      · obtain ⟨b, r, h1, h2⟩ := hm
        have h5 := ((adts_iff b).mpr h2).2.2
        rcases adtsOrMpeg_eq h5 with h4 | h4
        · exact two b r h1 h5 h4.1
        · exact absurd h2 h4.2
      · exact three (.inr (.inl rfl))
      · exact three (.inr (.inr rfl))
      · exact three (.inl rfl)
    · rename_i hq
      obtain rfl := ((Except.ok.injEq _ _).mp hg)
      obtain ⟨u1, u2, u3, u4⟩ := undetermined hq
      rw [at_take (by decide)] at u1 u2 u3 u4
      have hu : guessUndetermined (f.take 36) = .afterJunk := by
        unfold guessUndetermined
        rw [if_neg]
        rintro ⟨-, hc⟩
        apply hid
        rw [List.take_take, Nat.min_eq_left (by omega)] at hc
        exact hc
      rw [hu] at h
      simp only at h
      cases hc : checkFrames f 0 1024 with
      | error e => rw [hc] at h; cases h
      | ok r =>
        obtain ⟨o, p⟩ := r
        rw [hc] at h
        simp only [Except.ok.injEq, Prod.mk.injEq, and_true] at h
        subst h
        exact hframes p hc u1 u2 u3 u4

/-- Bytes that are not 0xFF are passed over by the search for frames. -/
theorem searchSync_skip : ∀ (pre : Bytes), (∀ b ∈ pre, b ≠ 0xFF) → ∀ (b : UInt8) (r : Bytes), 0xE0 ≤ b.toNat →
    Mpeg.searchSync (pre ++ 0xFF :: b :: r) = some pre.length := by
  have hv : ∀ b : UInt8, 0xE0 ≤ b.toNat → Mpeg.verifySync 0xFF b = true := by
    intro b hb
    have : ∀ n : Fin 256, 0xE0 ≤ (UInt8.ofNat n.val).toNat → Mpeg.verifySync 0xFF (UInt8.ofNat n.val) = true := by decide +kernel
    have := this ⟨b.toNat, b.toNat_lt⟩
    simpa using this (by simpa using hb)
  have hn : ∀ a b : UInt8, a ≠ 0xFF → Mpeg.verifySync a b = false := by
    intro a b ha
    simp [Mpeg.verifySync, ha]
  have go : ∀ (pre : Bytes) (a : UInt8) (i : Nat), a ≠ 0xFF → (∀ b ∈ pre, b ≠ 0xFF) → ∀ (b : UInt8) (r : Bytes), 0xE0 ≤ b.toNat →
      Mpeg.searchFrom a (pre ++ 0xFF :: b :: r) i = some (i + pre.length + 1) := by
    intro pre
    induction pre with
    | nil =>
      intro a i ha _ b r hb
      rw [List.nil_append, Mpeg.searchFrom, hn a _ ha, Mpeg.searchFrom, hv b hb]
      simp
    | cons c pre ih =>
      intro a i ha hp b r hb
      rw [List.cons_append, Mpeg.searchFrom, hn a _ ha]
      simp only [Bool.false_eq_true, if_false]
      rw [ih c (i + 1) (hp c (by simp)) (fun b hb => hp b (by simp [hb])) b r hb]
      simp
      omega
  intro pre hp b r hb
  cases pre with
  | nil =>
    rw [List.nil_append, Mpeg.searchSync, Mpeg.searchFrom, hv b hb]
    rfl
  | cons a pre =>
    rw [List.cons_append, Mpeg.searchSync, go pre a 0 (hp a (by simp)) (fun b hb => hp b (by simp [hb])) b r hb]
    simp

/-- **An ID3v2 tag with a footer in front** of MPEG or AAC frames does not change the type. -/
theorem verified_footer {f : Bytes} {t : FileType} (ht : t = .mpeg ∨ t = .aac) (hm : Magic t f) {major flags : UInt8}
    {content : Bytes} {s : BitVec 32} (hf : flags.toNat % 16 = 0) (hff : major ≠ 0xFF ∧ flags ≠ 0xFF)
    (hn : content.length < 2 ^ 28) (hs : Synchsafe.synch32 (BitVec.ofNat 32 content.length) = some s) (rest : Bytes) :
    verified (tagBytes major 0 flags s content ++ ((ascii "3DI" ++ ([major, 0, flags] ++ beBytes 4 s.toNat)) ++ (f ++ rest))) = .ok t := by
  have hlt : (tagBytes major 0 flags s content).length = 10 + content.length := by
    unfold tagBytes
    simp [beBytes_length, ascii]
    omega
  obtain ⟨b, r, rfl, hb, hab⟩ : ∃ b r, f = 0xFF :: b :: r ∧ 0xE0 ≤ b.toNat ∧ adtsOrMpeg b = t := by
    rcases ht with rfl | rfl
    · obtain ⟨b, r, h1, h2, h3⟩ := hm
      rcases adtsOrMpeg_eq h2 with h4 | h4
      · exact absurd h4.2 h3
      · exact ⟨b, r, h1, h2, h4.1⟩
    · obtain ⟨b, r, h1, h2⟩ := hm
      have h5 := ((adts_iff b).mpr h2).2.2
      rcases adtsOrMpeg_eq h5 with h4 | h4
      · exact ⟨b, r, h1, h5, h4.1⟩
      · exact absurd h2 h4.2
  have hfoot : ∀ x ∈ ascii "3DI" ++ ([major, 0, flags] ++ beBytes 4 s.toNat), x ≠ 0xFF := by
    intro x hx
    simp only [List.mem_append, List.mem_cons, List.not_mem_nil, or_false] at hx
    rcases hx with hx | (rfl | rfl | rfl) | hx
    · revert x; decide
    · exact hff.1
    · decide
    · exact hff.2
    · exact synchsafe_ne hs x hx
  have hl10 : (ascii "3DI" ++ ([major, 0, flags] ++ beBytes 4 s.toNat)).length = 10 := by simp [ascii, beBytes_length]
  have h3 : (ascii "3DI" ++ ([major, 0, flags] ++ beBytes 4 s.toNat)).take 4 = ascii "3DI" ++ [major] := rfl
  generalize ascii "3DI" ++ ([major, 0, flags] ++ beBytes 4 s.toNat) = foot at hfoot hl10 h3 ⊢
  rw [verified_iff]
  unfold guessInner
  simp only [List.drop_zero]
  rw [fromBuffer_tag hn hs hf]
  simp only
  unfold guessAfterId3
  simp only [Nat.zero_add]
  have hd : (tagBytes major 0 flags s content ++ (foot ++ (0xFF :: b :: r ++ rest))).drop (10 + content.length) = foot ++ (0xFF :: b :: (r ++ rest)) :=
    List.drop_left' hlt
  generalize tagBytes major 0 flags s content ++ (foot ++ (0xFF :: b :: r ++ rest)) = file at hd
  have hident : identAt file (10 + content.length) = ascii "3DI" ++ [major] := by
    unfold identAt
    rw [hd, List.take_append_of_le_length (by omega), h3]
    rfl
  rw [hident]
  have hg : guessIdent file (ascii "3DI" ++ [major]) (10 + content.length) 1024 = checkFrames file (10 + content.length) 1024 := by
    unfold guessIdent
    have e3 : (ascii "3DI" ++ [major]).take 3 = ascii "3DI" := rfl
    rw [e3, if_neg (by decide), if_neg (by intro h; cases h), if_neg]
    rintro (h | h)
    · cases h
    · revert h; decide
  rw [hg]
  unfold checkFrames
  have hsync : Mpeg.searchSync ((file.drop (10 + content.length)).take 1024) = some 10 := by
    rw [hd, List.take_append, hl10, List.take_of_length_le (by omega)]
    have := searchSync_skip foot hfoot b ((r ++ rest).take 1012) hb
    rw [hl10] at this
    exact this
  rw [hsync]
  simp only
  have hr : readAt file (10 + content.length + 10 + 2 - 2) 2 = .ok [0xFF, b] := by
    have e : file.drop (10 + content.length + 10) = 0xFF :: b :: (r ++ rest) := by
      rw [← List.drop_drop, hd, List.drop_left' hl10]
    have hlen := congrArg List.length e
    rw [List.length_drop] at hlen
    simp only [List.length_cons] at hlen
    unfold readAt
    rw [Nat.add_sub_cancel, e, if_pos (by omega)]
    rfl
  rw [hr]
  simp only
  rw [← hab]
  rfl

/-! ## Files with tags around the audio -/

/-- The ID3v2 tag after some saves is one of those saved. -/
theorem last_id3v2 (o : FileTags.Opts) (l : List FileTags.Save) : ∀ (t : FileTags.Tags) (x : FileTags.Id3Tag),
    (l.foldl (FileTags.Tags.after o) t).id3v2 = some x → t.id3v2 = some x ∨ ∃ w p, .id3v2 x.flags w p x.frames ∈ l := by
  induction l with
  | nil => intro t x h; exact .inl h
  | cons s l ih =>
    intro t x h
    rw [List.foldl_cons] at h
    rcases ih _ x h with h | ⟨w, p, h⟩
    · cases s with
      | id3v2 fl w p fs =>
        simp only [FileTags.Tags.after] at h
        split at h
        · cases h
        · cases h
          exact .inr ⟨w, p, by simp⟩
      | ape a => exact .inl h
      | id3v1 b a => exact .inl h
    · exact .inr ⟨w, p, by simp [h]⟩

/-- **Saving tags to MPEG, AAC, Monkey's Audio, Musepack and WavPack files** does not change the type: whatever tags are saved to
audio of a recognised type, in any order, the file is recognised as before.  ID3v2 tags are saved only to files of formats that
may have them, and with a footer only if the audio begins with an MPEG or AAC frame (see `footer_hides`). -/
theorem audio_type_partial {o : FileTags.Opts} {audio g : Bytes} (ha : FileTags.Audio o audio) {t : FileType} (hv : verified audio = .ok t)
    (l : List FileTags.Save) (hl : ∀ s ∈ l, s.Ok o audio)
    (hfoot : ∀ fl w p fs, .id3v2 fl w p fs ∈ l → fl.footer = false ∧ t ∈ behindId3 ∨ (t = .mpeg ∨ t = .aac) ∧ Magic t audio) (hg : FileTags.runAll o.junk l audio = .ok g) :
    verified g = .ok t := by
  have hlay := FileTags.runAll_layout ha l audio g _ hl (FileTags.layout_plain ha) hg
  have hlong := ha.long
  have hid : ¬ At audio 0 "ID3" := FileTags.noMarker_take3 ha.noId3v2 ha.junk.1
  have hlast := last_id3v2 o l ⟨none, none, none⟩
  generalize l.foldl (FileTags.Tags.after o) ⟨none, none, none⟩ = tags at hlay hlast
  obtain ⟨lead, ape, v1, x, y, z, hx, -, -, -⟩ := hlay
  cases hx with
  | none => exact verified_append (by omega) hid hv (ape ++ v1)
  | tag fl padding body fs b hcrc hres hun hsize hb hr =>
    rcases hlast _ rfl with h | ⟨w, p, h⟩
    · cases h
    · obtain ⟨major, flags, s, content, c1, c0, c2, c3, rfl⟩ := tag_shape hcrc hres hsize hb
      have plain : t ∈ behindId3 → verified (tagBytes major 0 flags s content ++ (audio ++ (ape ++ v1))) = .ok t :=
        fun h2 => verified_behind h2 (by omega) hid hv c1 c2 c3 (ape ++ v1)
      rcases hfoot _ _ _ _ h with ⟨h1, h2⟩ | ⟨h1, h2⟩
      · rw [h1]
        simpa using plain h2
      · cases hfl : fl.footer with
        | false => simpa using plain (by rcases h1 with rfl | rfl <;> decide)
        | true => simpa using verified_footer h1 h2 c1 c0 c2 c3 (ape ++ v1)

/-! ## FLAC files -/

/-- **Saving comments to a FLAC file** does not change the type. -/
theorem flac_type (si audio : Bytes) (bs : List Flac.Spec.MBlock) (tag : Vorbis.Tag) (preferred : Option Nat)
    (vendor : Str) (new : List Flac.Spec.MBlock) (hsi : si.length < 2 ^ 24) (hsi2 : 2 ≤ si.length) (hv : ∀ b ∈ bs, b.Valid)
    (hvendor : Flac.scanVendor tag.vendor bs = .ok vendor) (hnew : Flac.tagBlocks vendor tag = .ok new) :
    ∃ g, Flac.writeTo (Flac.stream [] ((0, si) :: bs) audio) tag preferred = .ok g ∧ verified g = .ok .flac := by
  refine ⟨_, Flac.writeTo_stream [] si audio bs tag preferred vendor new Flac.skipped_nil hsi hsi2 hv hvendor hnew, ?_⟩
  have key : ∀ bl, verified (Flac.stream [] bl audio) = .ok .flac := by
    intro bl
    rw [verified_iff]
    refine guess_magic (t := .flac) ?_ ⟨nofun, nofun⟩ nofun 1024
    show At _ 0 "fLaC"
    unfold At Flac.stream
    rfl
  split
  · exact key _
  · exact key _

/-! ## MP4 files -/

/-- A file that begins with an `ftyp` atom of less than 16 megabytes is an MP4 file. -/
theorem ftyp_verified {before : Mp4Write.Forest} {c : Bytes} {rest : Mp4Write.Forest} (h : before = .leaf (ascii "ftyp") c rest)
    (hc : c.length + 8 < 2 ^ 24) (fs : Mp4Write.Forest) : verified (before.append fs).bytes = .ok .mp4 := by
  subst h
  have e : (Mp4Write.Forest.append (.leaf (ascii "ftyp") c rest) fs).bytes =
      beBytes 4 (8 + c.length) ++ (ascii "ftyp" ++ (c ++ (rest.append fs).bytes)) := by
    rw [Mp4Write.append_bytes, Mp4Write.append_bytes, Mp4Write.Forest.bytes, Ilst.box]
    simp only [List.append_assoc]
  rw [verified_iff, e]
  have hb : beBytes 4 (8 + c.length) = 0 :: (beBytes 4 (8 + c.length)).drop 1 := by
    have : (8 + c.length) / 256 / 256 / 256 = 0 := by omega
    simp [beBytes, leBytes, this]
  refine guess_magic (t := .mp4) ?_ ⟨fun _ b r hd => ?_, nofun⟩ nofun 1024
  · show At _ 4 "ftyp"
    unfold At
    rw [List.drop_zero, List.drop_left' (beBytes_length _ _)]
    exact List.take_left' rfl
  · rw [List.drop_zero, hb] at hd
    cases hd
    decide

/-- **Saving an `ilst` to an MP4 file that has one**, or removing it, does not change the type. -/
theorem mp4_type (x : Mp4Write.File) (hx : x.Ok) (t : Ilst.Tag) (mode : Mode) (pad : Option Nat) (new : Bytes)
    (hb : Ilst.build t = .ok new) (hpad : ∀ k, pad = some k → 8 ≤ k)
    (hsz : 2 * x.bytes.length + new.length + pad.getD 0 < 2 ^ 32) (hbrand : ∀ c rest, x.before = .leaf (ascii "ftyp") c rest → c.length + 8 < 2 ^ 24) :
    ∃ g, Mp4Write.writeTo x.bytes t mode pad = .ok g ∧ verified g = .ok .mp4 := by
  obtain ⟨region, s, h, -⟩ := Mp4Write.offsets_follow_partial x hx t mode pad new hb hpad hsz
  obtain ⟨c, rest, hc, -⟩ := hx.brand
  exact ⟨_, h, ftyp_verified hc (hbrand c rest hc) _⟩

/-- **Saving an `ilst` to an MP4 file without one** does not change the type. -/
theorem mp4_type_create {before kids after : Mp4Write.Forest} (h : Mp4Write.Plain before kids after) (hu : ascii "udta" ∉ kids.top)
    (t : Ilst.Tag) (mode : Mode) (pad : Option Nat) (new : Bytes) (hb : Ilst.build t = .ok new)
    (hsz : (before.append (.node (ascii "moov") kids after)).bytes.length + new.length + 64 < 2 ^ 32)
    (hbrand : ∀ c rest, before = .leaf (ascii "ftyp") c rest → c.length + 8 < 2 ^ 24) :
    ∃ g, Mp4Write.writeTo (before.append (.node (ascii "moov") kids after)).bytes t mode pad = .ok g ∧ verified g = .ok .mp4 := by
  obtain ⟨c, rest, hc, -⟩ := h.brand
  refine ⟨_, Mp4Write.create_udta h hu t mode pad new hb hsz, ?_⟩
  split <;> exact ftyp_verified hc (hbrand c rest hc) _

/-! ## OGG files -/

/-- The type of a file of a format. -/
def oggType : OggWrite.Format → FileType
  | .opus => .opus
  | .vorbis => .vorbis
  | .speex => .speex

/-- **Saving comments to an OGG file** does not change the type.  The identification header has its signature and fits into one
segment (that of Opus, Vorbis and Speex has 19 to 274, 30 and 80 bytes). -/
theorem ogg_type {fmt : OggWrite.Format} {t : Vorbis.Tag} {f g ident comment rest junk r : Bytes} {others : List Bytes} {qs : List Ogg.Page}
    (h : OggWrite.write fmt t f = .ok g) (hh : OggWrite.Headed fmt f (ident :: comment :: others) rest) (hq : OggWrite.Paged rest qs junk)
    (hi : ident = fmt.head ++ r) (h8 : 8 ≤ ident.length) (h255 : ident.length < 255) : verified g = .ok (oggType fmt) := by
  obtain ⟨first, d1, c, vendor, new, heads, h1, h2, h3, h4, h5, rfl⟩ := OggWrite.save_file h hh hq
  have hne : ident ≠ [] := by rintro rfl; simp at h8
  obtain ⟨q, heads', rfl, hqc, hqs⟩ : ∃ q heads', heads = q :: heads' ∧ q.content = ident ∧ q.header.segments = [UInt8.ofNat ident.length] := by
    rw [Ogg.paginate_eq] at h5
    obtain rfl := (Except.ok.injEq _ _).mp h5
    rw [Ogg.pagesOf_closed]
    have hp : Ogg.piecesOf ident = [Ogg.pieceAt true 0 ident 0] := by
      rw [Ogg.piecesOf_closed ident hne, show ident.length / 8160 = 0 by omega]
      rfl
    rw [List.flatMap_cons, hp, List.singleton_append, List.mapIdx_cons]
    have hfor := Ogg.finalPage_for first.serial 0 Ogg.firstPageFlag (Ogg.pieceAt true 0 ident 0 :: List.flatMap Ogg.piecesOf (new :: others)).length
      0 (Ogg.pieceAt true 0 ident 0) (Ogg.header_read_ok h1).2.2.2.2.1 (by decide)
    have hd : (Ogg.pieceAt true 0 ident 0).data = ident := by
      simp only [Ogg.pieceAt, Nat.mul_zero, List.drop_zero]
      exact List.take_of_length_le (by omega)
    refine ⟨_, _, rfl, hfor.content.trans hd, hfor.segs.trans ?_⟩
    rw [hd, Ogg.pieceSegments, if_neg (by omega), show ident.length / 255 = 0 by omega, Nat.mod_eq_of_lt h255]
    rfl
  have e : ∃ mid tail, mid.length = 24 ∧ OggWrite.run 0 (q :: heads' ++ qs) = ascii "OggS" ++ (mid ++ (ident ++ tail)) := by
    refine ⟨[0] ++ [q.header.flag] ++ leBytes 8 q.header.abgp ++ leBytes 4 q.header.serial ++ leBytes 4 0 ++
      leBytes 4 (OggWrite.numbered 0 q).genCrc.header.checksum ++ [1] ++ [UInt8.ofNat ident.length], OggWrite.run 1 (heads' ++ qs), by simp [leBytes_length], ?_⟩
    rw [List.cons_append, OggWrite.run, Ogg.Page.asBytes]
    have e1 : (OggWrite.numbered (0 % 2 ^ 32) q).genCrc.header.segments = [UInt8.ofNat ident.length] := hqs
    have e2 : (OggWrite.numbered (0 % 2 ^ 32) q).genCrc.content = ident := hqc
    rw [e1, e2]
    simp only [List.append_assoc]
    rfl
  obtain ⟨mid, tail, hm, e⟩ := e
  have hat : ∀ n, (OggWrite.run 0 (q :: heads' ++ qs)).drop (28 + n) = (ident ++ tail).drop n := by
    intro n
    rw [e, ← List.append_assoc, ← List.drop_drop, List.drop_left' (by simp [ascii, hm])]
  have hlen : 36 ≤ (OggWrite.run 0 (q :: heads' ++ qs)).length := by
    rw [e]
    simp [hm, ascii]
    omega
  have h0 : At (OggWrite.run 0 (q :: heads' ++ qs)) 0 "OggS" := by
    rw [e]
    exact List.take_left' rfl
  rw [verified_iff]
  cases fmt with
  | opus =>
    refine guess_magic (f := OggWrite.run 0 (q :: heads' ++ qs)) (start := 0) (t := .opus) ⟨h0, ?_⟩ ⟨nofun, nofun⟩ nofun 1024
    show (((OggWrite.run 0 (q :: heads' ++ qs)).drop (28 + 0)).take 8) = _
    rw [hat, hi]
    rfl
  | speex =>
    refine guess_magic (f := OggWrite.run 0 (q :: heads' ++ qs)) (start := 0) (t := .speex) ⟨h0, ?_⟩ ⟨nofun, nofun⟩ nofun 1024
    show (((OggWrite.run 0 (q :: heads' ++ qs)).drop (28 + 0)).take 8) = _
    rw [hat, hi]
    rfl
  | vorbis =>
    refine guess_magic (f := OggWrite.run 0 (q :: heads' ++ qs)) (start := 0) (t := .vorbis) ⟨h0, ?_⟩ ⟨nofun, nofun⟩ (fun _ => by omega) 1024
    show (((OggWrite.run 0 (q :: heads' ++ qs)).drop (28 + 1)).take 6) = _
    rw [hat, hi]
    rfl

/-! ## WAV and AIFF files -/

/-- **Saving tags to a WAV file**, any number of them, does not change the type. -/
theorem wav_type_partial {o : FileTags.Opts} {cs : List Iff.Chunk} {t : IffFiles.WavTags} {l : List IffFiles.WavSave} {g : Bytes}
    (h : IffFiles.WavHas o cs t) (hsz : (Iff.wav cs).length < 2 ^ 32) (hl : IffFiles.WavOk o l (Iff.wav cs))
    (hr : IffFiles.runWav l (Iff.wav cs) = .ok g) : verified g = .ok .wav := by
  obtain ⟨cs', rfl, -⟩ := IffFiles.runWav_has l cs t g h hl hsz hr
  rw [verified_iff]
  refine guess_magic (f := Iff.wav cs') (start := 0) (t := .wav) ⟨?_, ?_⟩ ⟨nofun, nofun⟩ nofun 1024
  · show List.take 4 (Iff.wav cs') = _
    rfl
  · show List.take 4 (List.drop 8 (Iff.wav cs')) = _
    unfold Iff.wav
    rw [← List.append_assoc, List.drop_left' (by simp [leBytes_length, ascii])]
    rfl

/-- **Saving tags to an AIFF file**, any number of them, does not change the type. -/
theorem aiff_type_partial {o : FileTags.Opts} {form : Bytes} {cs : List Iff.Chunk} {t : IffFiles.AiffTags} {l : List IffFiles.AiffSave} {g : Bytes}
    (hform : form = ascii "AIFF" ∨ form = ascii "AIFC") (h : IffFiles.AiffHas o cs t) (hl : IffFiles.AiffOk o l (Iff.aiff form cs))
    (hr : IffFiles.runAiff l (Iff.aiff form cs) = .ok g) : verified g = .ok .aiff := by
  obtain ⟨cs', rfl, -⟩ := IffFiles.runAiff_has hform l cs t g h hl hr
  rw [verified_iff]
  refine guess_magic (f := Iff.aiff form cs') (start := 0) (t := .aiff) ⟨?_, ?_⟩ ⟨nofun, nofun⟩ nofun 1024
  · show List.take 4 (Iff.aiff form cs') = _
    rfl
  · have : List.take 4 (List.drop 8 (Iff.aiff form cs')) = form := by
      unfold Iff.aiff
      rw [← List.append_assoc, List.drop_left' (by simp [beBytes_length, ascii])]
      exact List.take_left' (by rcases hform with rfl | rfl <;> rfl)
    rcases hform with rfl | rfl
    · exact .inl this
    · exact .inr this

/-! ## Examples -/

/-- An ID3v1 tag, an ID3v2 tag and an APE tag are saved to MPEG frames, and one of them is replaced. -/
example : ∃ g, FileTags.runAll 100 FileTags.someSaves FileTags.threeFrames = .ok g ∧ verified g = .ok .mpeg := by
  have hs : (FileTags.runAll 100 FileTags.someSaves FileTags.threeFrames).toOption.isSome = true := by decide +kernel
  rcases hg : FileTags.runAll 100 FileTags.someSaves FileTags.threeFrames with e | g
  · rw [hg] at hs; simp [Except.toOption] at hs
  refine ⟨g, rfl, audio_type_partial (FileTags.threeFrames_audio true true) (t := .mpeg) (by decide +kernel) _ (FileTags.someSaves_ok true true) ?_ hg⟩
  intro fl w p fs h
  exact .inr ⟨.inl rfl, _, _, rfl, by decide, by unfold Adts; decide⟩

example : ∃ g, Flac.writeTo (Flac.stream [] [(0, List.replicate 34 7), (2, [1, 2]), (4, [1, 0, 0, 0, 0x76, 0, 0, 0, 0]), (6, [9]), (1, [0])]
      [0xFF, 0xF8]) Vorbis.exampleTag (some 4) = .ok g ∧ verified g = .ok .flac := by
  have h1 : (Flac.tagBlocks (str "v") Vorbis.exampleTag).toOption.isSome := by decide +kernel
  cases h : Flac.tagBlocks (str "v") Vorbis.exampleTag with
  | error e => rw [h] at h1; cases h1
  | ok new =>
    exact flac_type (List.replicate 34 7) [0xFF, 0xF8] [(2, [1, 2]), (4, [1, 0, 0, 0, 0x76, 0, 0, 0, 0]), (6, [9]), (1, [0])] Vorbis.exampleTag (some 4) (str "v")
      new (by decide) (by decide) (by
        intro b hb
        simp only [List.mem_cons, List.not_mem_nil, or_false] at hb
        rcases hb with rfl | rfl | rfl | rfl <;> exact ⟨by decide, by decide⟩) (by decide +kernel) h

example : ∃ g, Mp4Write.writeTo (Mp4Write.file []).bytes Mp4Write.sample .bestAttempt none = .ok g ∧ verified g = .ok .mp4 :=
  mp4_type _ (Mp4Write.file_ok _ (.inl rfl)) _ _ none _ rfl nofun (by decide +kernel) (fun c rest h => by cases h; decide)

example : ∃ g, Mp4Write.writeTo Mp4Write.bare.bytes Mp4Write.sample .bestAttempt none = .ok g ∧ verified g = .ok .mp4 :=
  mp4_type_create Mp4Write.bare_plain (by decide) _ _ none _ rfl (by decide +kernel) (fun c rest h => by cases h; decide)

example : ∃ g, OggWrite.write .opus OggWrite.newTag OggWrite.opus = .ok g ∧ verified g = .ok .opus :=
  ⟨_, OggWrite.opus_saved, ogg_type (r := OggWrite.ident.drop 8) OggWrite.opus_saved OggWrite.opus_headed OggWrite.audio_paged
    (by decide) (by decide) (by decide)⟩

example : ∃ g, IffFiles.runWav IffFiles.wavSaves (Iff.wav IffFiles.exWav) = .ok g ∧ verified g = .ok .wav := by
  have h0 : IffFiles.WavHas (FileTags.exOpts true true) IffFiles.exWav ⟨[], none⟩ := by
    refine ⟨fun d hd => ⟨?_, ?_⟩, .inl ⟨by decide, rfl⟩, .inl ⟨by decide, rfl⟩⟩
    · simp only [IffFiles.exWav, List.mem_cons, List.not_mem_nil, or_false] at hd
      rcases hd with rfl | rfl <;> exact IffFiles.ok_fourcc (by simp) (by decide)
    · revert d; decide
  have hs : (IffFiles.runWav IffFiles.wavSaves (Iff.wav IffFiles.exWav)).toOption.isSome = true := by decide +kernel
  rcases hg : IffFiles.runWav IffFiles.wavSaves (Iff.wav IffFiles.exWav) with e | g
  · rw [hg] at hs; cases hs
  · exact ⟨g, rfl, wav_type_partial h0 (by decide) (IffFiles.wavSaves_ok _ _) hg⟩

example : ∃ g, IffFiles.runAiff IffFiles.aiffSaves (Iff.aiff (ascii "AIFF") IffFiles.exAiff) = .ok g ∧ verified g = .ok .aiff := by
  have h0 : IffFiles.AiffHas (FileTags.exOpts true true) IffFiles.exAiff ⟨⟨none, none, none, none, none⟩, none⟩ := by
    refine ⟨fun d hd => ?_, ⟨IffFiles.exComm, by decide, rfl⟩, ⟨⟨none, none, none, none, none⟩, by decide, ?_, ?_, by decide⟩, .inl ⟨by decide, rfl⟩⟩
    · simp only [IffFiles.exAiff, List.mem_cons, List.not_mem_nil, or_false] at hd
      rcases hd with rfl | rfl <;> exact IffFiles.ok_fourcc (by simp) (by decide)
    · unfold Iff.Aiff.Fits; decide +kernel
    · unfold Iff.Aiff.Clean Iff.Comment.Ok Iff.EvenInit; decide +kernel
  have hs : (IffFiles.runAiff IffFiles.aiffSaves (Iff.aiff (ascii "AIFF") IffFiles.exAiff)).toOption.isSome = true := by decide +kernel
  rcases hg : IffFiles.runAiff IffFiles.aiffSaves (Iff.aiff (ascii "AIFF") IffFiles.exAiff) with e | g
  · rw [hg] at hs; cases hs
  · exact ⟨g, rfl, aiff_type_partial (.inl rfl) h0 (IffFiles.aiffSaves_ok _ _) hg⟩

/-! ## Where the type is lost -/

/-- An MPEG file with 1018 bytes of junk in front. -/
def junky : Bytes := List.replicate 1018 0 ++ FileTags.threeFrames

/-- **A footer can make a file unrecognisable**: the search for the first frame begins at the footer, which is not part of the size
of the tag, and ends ten bytes early; the file can be opened before the tag is saved to it and not afterwards.  Without footer it
can be opened. -/
theorem footer_hides : verified junky = .ok .mpeg ∧
    (∃ g, (Own.id3v2 ⟨false, false, true, false, none⟩ Id3v2.sample).saveTo exOptions junky = .ok g ∧ verified g = .error .parse) ∧
    (∃ g, (Own.id3v2 ⟨false, false, false, false, none⟩ Id3v2.sample).saveTo exOptions junky = .ok g ∧ verified g = .ok .mpeg) := by
  refine ⟨by decide +kernel, ?_, ?_⟩
  · have h : (((Own.id3v2 ⟨false, false, true, false, none⟩ Id3v2.sample).saveTo exOptions junky).toOption.map verified) = some (.error .parse) := by decide +kernel
    rcases hg : (Own.id3v2 ⟨false, false, true, false, none⟩ Id3v2.sample).saveTo exOptions junky with e | g
    · rw [hg] at h; cases h
    · rw [hg] at h
      exact ⟨g, rfl, (Option.some.injEq _ _).mp h⟩
  · have h : (((Own.id3v2 ⟨false, false, false, false, none⟩ Id3v2.sample).saveTo exOptions junky).toOption.map verified) = some (.ok .mpeg) := by decide +kernel
    rcases hg : (Own.id3v2 ⟨false, false, false, false, none⟩ Id3v2.sample).saveTo exOptions junky with e | g
    · rw [hg] at h; cases h
    · rw [hg] at h
      exact ⟨g, rfl, (Option.some.injEq _ _).mp h⟩

end Lofty.Save
