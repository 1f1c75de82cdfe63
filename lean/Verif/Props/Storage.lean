import Verif.Lemmas.Storage
import Verif.Props.Save
import Verif.Props.IffFiles
import Verif.Props.Id3v1
/-!
# C87: what is in the file when a save fails
-/
namespace Lofty.Storage
open Item Save

/-- **C87, success.** A save on a device with space for the new file succeeds exactly if the tag can be saved, and leaves what
`Save` says (C60, C64, C67, C69 and others). -/
theorem saved (o : Options) (x : Own) {cap : Nat} {f g : Bytes} (hf : f.length ≤ cap) :
    save o x cap f = (.ok (), g) ↔ x.saveTo o f = .ok g ∧ g.length ≤ cap :=
  ⟨(save_faithful o x hf).2.1 g, fun h => (save_faithful o x hf).1 g h.1 h.2⟩

/-- **C87, refused saves.** If the library refuses to save a tag of any kind to a file of any kind (the file is broken, the tag cannot
be encoded, it is too large, the format does not support it, …), the file is left exactly as it was. -/
theorem refused_partial (o : Options) (x : Own) {cap : Nat} {f g : Bytes} {e : Err} (hf : f.length ≤ cap)
    (h : save o x cap f = (.error (.lib e), g)) (he : e ≠ .panic) : g = f ∧ x.saveTo o f = .error e :=
  have hs := (save_faithful o x hf).2.2 e g h
  ⟨hs.2 he, hs.1⟩

/-- **C87, panics.** The same for panics, except for ID3v2 tags in WAV and AIFF files and Vorbis comments in OGG files. -/
theorem panicked_partial (o : Options) (x : Own) {cap : Nat} {f g : Bytes} {e : Err} {ft : FileType} (hf : f.length ≤ cap)
    (hv : verified f = .ok ft) (h1 : x.type = .id3v2 → ft ≠ .wav ∧ ft ≠ .aiff)
    (h2 : x.type = .vorbisComments → ft ≠ .opus ∧ ft ≠ .vorbis ∧ ft ≠ .speex)
    (h : save o x cap f = (.error (.lib e), g)) : g = f := by
  unfold save at h
  rw [contents_bind, hv, check_ok] at h
  have done : ∀ r, onto cap f r = (.error (.lib e), g) → g = f := by
    intro r hr
    cases r with
    | error e' => exact ((Prod.mk.injEq _ _ _ _).mp hr).2.symm
    | ok k =>
      unfold onto at hr
      simp only at hr
      split at hr <;> simp at hr
  have place : ∀ r, inPlace cap f r = (.error (.lib e), g) → g = f := by
    intro r hr
    cases r with
    | error e' => exact ((Prod.mk.injEq _ _ _ _).mp hr).2.symm
    | ok k =>
      unfold inPlace at hr
      simp only at hr
      split at hr <;> simp at hr
  by_cases hw : (!(ft.tagSupport x.type).writable && !x.isEmpty) = true
  · rw [if_pos hw] at h
    exact done (.error .unsupported) h
  · rw [if_neg hw] at h
    cases x with
    | ape t => exact done _ ((writeApe_eq t cap f).symm.trans h)
    | id3v1 t => exact done _ ((writeId3v1_eq o.lossy t hf).symm.trans h)
    | id3v2 fl fs =>
      obtain ⟨n1, n2⟩ := h1 rfl
      have h : writeId3v2 o ft fl fs cap f = _ := h
      unfold writeId3v2 at h
      split at h
      · exact absurd rfl n1
      · exact absurd rfl n2
      · exact done _ ((writeFront_eq o fl fs cap f).symm.trans h)
    | mp4Ilst t => exact done _ ((writeMp4_eq o t hf).symm.trans h)
    | vorbisComments t =>
      obtain ⟨n1, n2, n3⟩ := h2 rfl
      have h : writeVorbis o ft t cap f = _ := h
      unfold writeVorbis at h
      split at h
      · exact place _ ((writeFlac_eq t o.padding hf).symm.trans h)
      · exact absurd rfl n1
      · exact absurd rfl n2
      · exact absurd rfl n3
      · exact done (.error .panic) h
    | riffInfo t => exact done _ ((writeInfo_eq _ t cap f).symm.trans h)
    | aiffText t => exact done _ ((writeAiff_eq _ t cap f).symm.trans h)

/-- **C87, OGG files.** Saving comments to an OGG file never panics (for files and comments below 64 GiB): whatever the library
refuses, the file is left as it was. -/
theorem ogg_refused (o : Options) (t : Vorbis.Tag) {cap : Nat} {f g : Bytes} {e : Err} {ft : FileType} {fmt : OggWrite.Format}
    (hf : f.length ≤ cap) (hv : verified f = .ok ft)
    (hft : (ft, fmt) ∈ [(FileType.opus, OggWrite.Format.opus), (.vorbis, .vorbis), (.speex, .speex)]) (hl : f.length < 2 ^ 36)
    (hn : ∀ v new, Vorbis.createPacket { t with vendor := v } fmt.sig fmt.framing = .ok new → new.length < 2 ^ 36)
    (h : save o (.vorbisComments t) cap f = (.error (.lib e), g)) : g = f := by
  have hs := (save_faithful o (.vorbisComments t) hf).2.2 e g h
  refine hs.2 fun he => ?_
  have hr := hs.1
  unfold Own.saveTo at hr
  rw [hv, he] at hr
  simp only at hr
  split at hr
  · cases hr
  · have hp := OggWrite.save_no_panic fmt t f hl hn
    simp only [List.mem_cons, Prod.mk.injEq, List.not_mem_nil, or_false] at hft
    rcases hft with ⟨rfl, rfl⟩ | ⟨rfl, rfl⟩ | ⟨rfl, rfl⟩ <;> exact hp hr

/-! ## Full devices -/

/-- **C87, full devices, Vorbis comments of FLAC files.** If there is no space for the new file, the old one is still there, with
zeros behind it. -/
theorem flac_kept (o : Options) (t : Vorbis.Tag) {cap : Nat} {f g : Bytes} (hf : f.length ≤ cap) (hv : verified f = .ok .flac)
    (h : save o (.vorbisComments t) cap f = (.error .full, g)) : g = f ++ List.replicate (cap - f.length) 0 := by
  unfold save at h
  rw [contents_bind, hv, check_ok] at h
  split at h
  · simp [check] at h
  · have h := (writeFlac_eq t o.padding hf).symm.trans h
    unfold inPlace at h
    split at h
    · simp at h
    · split at h
      · simp at h
      · exact ((Prod.mk.injEq _ _ _ _).mp h).2.symm

/-- **C87, full devices, ID3v1 tags.** If there is no space for the tag, the file is still there, with the front of the tag behind
it. -/
theorem id3v1_kept (o : Options) (t : Id3v1.Tag) {cap : Nat} {f g : Bytes} (hf : f.length ≤ cap)
    (h : save o (.id3v1 t) cap f = (.error .full, g)) : f <+: g := by
  unfold save at h
  rw [contents_bind] at h
  cases hv : verified f with
  | error e =>
    rw [hv, check_error] at h
    simp at h
  | ok ft =>
    rw [hv, check_ok] at h
    split at h
    · simp [check] at h
    · have h := (writeId3v1_eq o.lossy t hf).symm.trans h
      cases hw : Id3v1.write o.lossy f t with
      | error e =>
        rw [hw] at h
        simp [onto] at h
      | ok k =>
        rw [hw] at h
        unfold onto at h
        simp only at h
        split at h
        · simp at h
        · next hk =>
          have hg := ((Prod.mk.injEq _ _ _ _).mp h).2
          unfold Id3v1.write at hw
          obtain ⟨⟨found, y, pos⟩, h1, hw⟩ := bind_ok hw
          simp only at hw
          split at hw
          · rw [← (Except.ok.injEq _ _).mp hw] at hk
            simp only [truncate, List.length_take] at hk
            omega
          · obtain ⟨b, h2, hw⟩ := bind_ok hw
            have hk' := (Except.ok.injEq _ _).mp hw
            have hb := (Id3v1.parse_encode (strict := false) h2).1
            have hpos : pos = f.length ∨ (128 ≤ f.length ∧ pos = f.length - 128) := by
              unfold Id3v1.find at h1
              split at h1
              · simp only [Except.ok.injEq, Prod.mk.injEq] at h1
                exact .inl h1.2.2.symm
              · obtain ⟨u, _, h1⟩ := bind_ok h1
                split at h1
                · simp only [Except.ok.injEq, Prod.mk.injEq] at h1
                  exact .inl h1.2.2.symm
                · simp only [Bool.false_eq_true, if_false, Except.ok.injEq, Prod.mk.injEq] at h1
                  exact .inr ⟨by omega, h1.2.2.symm⟩
            rcases hpos with hp | ⟨hl, hp⟩
            · rw [hp, writeAt_end] at hk'
              rw [← hg, ← hk', List.take_append, List.take_of_length_le hf]
              exact List.prefix_append _ _
            · rw [← hk', length_writeAt] at hk
              omega

/-- **C87, full devices, everything else** (but ID3v2 tags of WAV and AIFF files): what is left is the front of the new file.  The rest
of it, which is the end of the audio in all formats that have their tags in front of it, is lost. -/
theorem cut_short (o : Options) (x : Own) {cap : Nat} {f g : Bytes} {ft : FileType} (hf : f.length ≤ cap) (hv : verified f = .ok ft)
    (h1 : x.type = .id3v2 → ft ≠ .wav ∧ ft ≠ .aiff) (h2 : x.type = .vorbisComments → ft ≠ .flac)
    (h3 : x.saveTo o f ≠ .error .panic) :
    save o x cap f = (.error .full, g) ↔ ∃ new, x.saveTo o f = .ok new ∧ cap < new.length ∧ g = new.take cap := by
  unfold save
  unfold Own.saveTo at h3 ⊢
  rw [contents_bind, hv, check_ok]
  rw [hv] at h3
  simp only at h3 ⊢
  by_cases hw : (!(ft.tagSupport x.type).writable && !x.isEmpty) = true
  · rw [if_pos hw, if_pos hw]
    simp [check]
  · rw [if_neg hw] at h3
    rw [if_neg hw, if_neg hw, write_onto o hf h1 h2 h3]
    cases hr : x.write o ft f with
    | error e => simp [onto]
    | ok k =>
      unfold onto
      simp only
      constructor
      · intro h
        split at h
        · simp at h
        · exact ⟨k, rfl, by omega, ((Prod.mk.injEq _ _ _ _).mp h).2.symm⟩
      · rintro ⟨new, hn, hl, rfl⟩
        obtain rfl := (Except.ok.injEq _ _).mp hn
        rw [if_neg (by omega)]

/-! ## All tags of a file -/

/-- **C87, several tags.** If one of the tags of a file is refused, the tags before it have been saved and the ones behind it have not:
the file is as if the tags before had been saved alone. -/
theorem all_partial (o : Options) : ∀ (xs : List Own) {cap : Nat} {f g : Bytes} {e : Err}, f.length ≤ cap →
    saveAll o xs cap f = (.error (.lib e), g) → e ≠ .panic →
    ∃ front y back, xs = front ++ y :: back ∧ saveAll o front cap f = (.ok (), g) ∧ saveOwn o front f = (.ok (), g) ∧
      y.saveTo o g = .error e
  | [], cap, f, g, e, hf, h, he => by
    have h : ((.ok () : Except Failure Unit), f) = (.error (.lib e), g) := h
    simp at h
  | x :: xs, cap, f, g, e, hf, h, he => by
    rw [saveAll] at h
    have hs : (∃ f', save o x cap f = (.ok (), f')) ∨ ∃ e' f', save o x cap f = (.error e', f') := by
      generalize save o x cap f = r
      obtain ⟨a, b⟩ := r
      cases a with
      | ok u => exact .inl ⟨b, rfl⟩
      | error e' => exact .inr ⟨e', b, rfl⟩
    rcases hs with ⟨f', hs⟩ | ⟨e', f', hs⟩
    · rw [bind_ran hs] at h
      obtain ⟨hx, hl⟩ := (saved o x hf).mp hs
      obtain ⟨front, y, back, rfl, h1, h2, h3⟩ := all_partial o xs hl h he
      refine ⟨x :: front, y, back, rfl, ?_, ?_, h3⟩
      · rw [saveAll, bind_ran hs, h1]
      · rw [saveOwn, hx]
        exact h2
    · rw [bind_failed hs] at h
      have h := (Prod.mk.injEq _ _ _ _).mp h
      rw [(Except.error.injEq _ _).mp h.1, h.2] at hs
      obtain ⟨rfl, hr⟩ := refused_partial o x hf hs he
      exact ⟨[], x, xs, rfl, rfl, rfl, hr⟩

/-! ## Examples and disagreements -/

/-- Options that refuse text that does not fit. -/
def exact' : Options := { exOptions with lossy := false }

/-- An ID3v2 tag. -/
def exId3v2 : Own := .id3v2 noFlags [Id3v2.tit2 "x"]

/-- An ID3v1 tag that cannot be encoded. -/
def exId3v1 : Own := .id3v1 { Id3v1.Tag.empty with title := some (str "日") }

/-- The example for `saved` and `refused_partial`. -/
example : (save exact' exId3v2 1000 mp3).1 = .ok () ∧ save exact' exId3v1 1000 mp3 = (.error (.lib .encode), mp3) := by
  decide +kernel

/-- The comment of the examples. -/
def exComments : Own := .vorbisComments ⟨[], [(str "TITLE", str "abc")], []⟩

/-- The example for `flac_kept`: 64 bytes that have to become 82, on a device with 70. -/
example : save exact' exComments 70 flacFile = (.error .full, flacFile ++ [0, 0, 0, 0, 0, 0]) ∧
    (save exact' exComments 82 flacFile).1 = .ok () := by
  decide +kernel

/-- The example for `id3v1_kept`: of the tag only its name is written. -/
example : save exact' (.id3v1 Id3v1.sample) 219 mp3 = (.error .full, mp3 ++ ascii "TAG") := by decide +kernel

/-- The example for `ogg_refused`: a file that ends after 90 bytes. -/
example : verified (OggWrite.opus.take 90) = .ok .opus ∧
    save exact' exComments 1000 (OggWrite.opus.take 90) = (.error (.lib .eof), OggWrite.opus.take 90) := by
  decide +kernel

/-- The example for `cut_short`. -/
example : save exact' exId3v2 216 mp3 = (.error .full, ((exId3v2.saveTo exact' mp3).toOption.getD []).take 216) := by decide +kernel

/-- Disagreement: **a save that fails because the device is full destroys the file.**  The file is truncated before it is written anew,
so an MPEG file on a device without space for another tag loses the end of its audio (the bytes that the tag takes). -/
theorem audio_lost : mp3.length = 216 ∧ (save exact' exId3v2 216 mp3).1 = .error .full ∧
    (∀ a b, (save exact' exId3v2 216 mp3).2 ≠ a ++ mp3 ++ b) ∧
    (save exact' exId3v2 216 mp3).2.drop 30 = mp3.take 186 := by
  refine ⟨by decide +kernel, by decide +kernel, fun a b h => ?_, by decide +kernel⟩
  have h1 : (save exact' exId3v2 216 mp3).2.length = 216 := by decide +kernel
  have h2 : mp3.length = 216 := by decide +kernel
  have h3 : (save exact' exId3v2 216 mp3).2 ≠ mp3 := by decide +kernel
  have hl := congrArg List.length h
  rw [h1] at hl
  simp only [List.length_append, h2] at hl
  have ha : a = [] := List.length_eq_zero_iff.mp (by omega)
  have hb : b = [] := List.length_eq_zero_iff.mp (by omega)
  rw [ha, hb, List.nil_append, List.append_nil] at h
  exact h3 h

/-- Disagreement: **an error can leave half of the tags saved.**  The ID3v2 tag of this file is saved, then the ID3v1 tag is refused
and an error returned. -/
theorem half_saved : (saveAll exact' [exId3v2, exId3v1] 1000 mp3).1 = .error (.lib .encode) ∧
    saveAll exact' [exId3v2] 1000 mp3 = (.ok (), (saveAll exact' [exId3v2, exId3v1] 1000 mp3).2) ∧
    (saveAll exact' [exId3v2, exId3v1] 1000 mp3).2 ≠ mp3 := by
  decide +kernel

/-- A WAV file with a short ID3v2 tag at its end. -/
def exTagged : Bytes := ((Own.id3v2 noFlags IffFiles.exShort).saveTo exOptions (Iff.wav IffFiles.exWav)).toOption.getD []

/-- Disagreement: **a longer ID3v2 tag is written to a WAV file before its size is computed.**  The computation panics, the file has
been changed (210 bytes), and its header still has the old size (94 + 8). -/
theorem grown_damages : exTagged.length = 102 ∧
    (save exOptions (.id3v2 noFlags Id3v2.sample) 1000 exTagged).1 = .error (.lib .panic) ∧
    (save exOptions (.id3v2 noFlags Id3v2.sample) 1000 exTagged).2.length = 210 ∧
    ((save exOptions (.id3v2 noFlags Id3v2.sample) 1000 exTagged).2.drop 4).take 4 = [94, 0, 0, 0] := by
  decide +kernel

/-- The full statement is false. -/
theorem not_all_kept : ¬ ∀ (o : Options) (x : Own) (cap : Nat) (f g : Bytes) (e : Failure), f.length ≤ cap →
    save o x cap f = (.error e, g) → f <+: g := by
  intro h
  obtain ⟨h1, h2, h3, _⟩ := audio_lost
  have hs : save exact' exId3v2 216 mp3 = (.error .full, (save exact' exId3v2 216 mp3).2) := by rw [← h2]
  obtain ⟨b, hb⟩ := h exact' exId3v2 216 mp3 _ .full (by omega) hs
  exact h3 [] b hb.symm

end Lofty.Storage
