import Verif.Lemmas.Position
import Verif.Props.Save
import Verif.Props.OggWrite
/-!
# C84: saving does not depend on where the cursor of the file is

`TagExt::save_to` is given an open file, and the caller may have read from it before.  `save o x p f` saves the tag `x` to the
file with the bytes `f` and the cursor at `p`; saving at `0` is saving to a file just opened.
-/
namespace Lofty.Position
open Item Save

/-- Saving to a file just opened is what the other properties are about. -/
theorem just_opened (o : Options) (x : Own) (f : Bytes) : save o x 0 f = x.saveTo o f := save_zero o x f

/-- Where the file looks like the same format, the cursor does not matter for ID3v1 tags. -/
theorem id3v1_anywhere_partial {o : Options} {t : Id3v1.Tag} {f : Bytes} {p q : Nat} {ft : FileType}
    (hp : verified f p = .ok ft) (hq : verified f q = .ok ft) :
    save o (.id3v1 t) p f = save o (.id3v1 t) q f := by
  unfold save; rw [hp, hq]; rfl

/-- ... nor for the comments of FLAC files. -/
theorem flac_anywhere_partial {o : Options} {t : Vorbis.Tag} {f : Bytes} {p q : Nat}
    (hp : verified f p = .ok .flac) (hq : verified f q = .ok .flac) :
    save o (.vorbisComments t) p f = save o (.vorbisComments t) q f := by
  unfold save; rw [hp, hq]; rfl

/-- ... nor for the tags of MP4 files, if they can be saved at all. -/
theorem mp4_anywhere_partial {o : Options} {t : Ilst.Tag} {f g g' : Bytes} {p q : Nat}
    (hp : save o (.mp4Ilst t) p f = .ok g) (hq : save o (.mp4Ilst t) q f = .ok g') : g = g' := by
  have key : ∀ {p g}, save o (.mp4Ilst t) p f = .ok g →
      (do
        let (atoms, _, _) ← Mp4Write.readAtoms o.mode (f.length + 1) (Mp4.Rd.new f) f.length
        match Mp4Write.findTop atoms (ascii "moov") with
        | none => .error .parse
        | some moov => do
          let ilst ← Ilst.build t
          Mp4Write.writeMoov f atoms moov ilst o.mode o.padding : Except Err Bytes) = .ok g := by
    intro p g h
    unfold save at h
    split at h
    · cases h
    · split at h
      · cases h
      · change writeMp4 f p t o.mode o.padding = .ok g at h
        unfold writeMp4 at h
        obtain ⟨_, _, h⟩ := bind_ok h
        exact h
  have h1 := key hp
  rw [key hq] at h1
  exact ((Except.ok.injEq _ _).mp h1).symm

/-- ... nor for APE tags, if no APE tag follows in front of the audio: `a` and `b` are the places behind the ID3v2 tags at the
two places of the cursor, if there are such tags. -/
theorem ape_anywhere_partial {o : Options} {t : Ape.Tag} {f : Bytes} {p q a b : Nat} {ft : FileType}
    {h h' : Option (Id3v2.Header × Option Bytes)}
    (hp : verified f p = .ok ft) (hq : verified f q = .ok ft)
    (ha : Id3v2.find f p false none = .ok (h, a)) (hb : Id3v2.find f q false none = .ok (h', b))
    (la : a + 16 ≤ f.length) (lb : b + 16 ≤ f.length)
    (na : (f.drop (a + 8)).take 8 ≠ ascii "APETAGEX") (nb : (f.drop (b + 8)).take 8 ≠ ascii "APETAGEX") :
    save o (.ape t) p f = save o (.ape t) q f := by
  have r : ∀ k, k + 8 ≤ f.length → readAt f k 8 = .ok ((f.drop k).take 8) := fun k hk => by
    unfold readAt; rw [if_pos hk]
  have e := findApe_eq ha (r a (by omega)) (r (a + 8) (by omega)) na hb (r b (by omega)) (r (b + 8) (by omega)) nb
  unfold save
  rw [hp, hq]
  simp only [write, writeApe, e]

/-- At the end of the file nothing is recognised: the file has to be rewound after it was read. -/
theorem at_end_refused {o : Options} {x : Own} {f : Bytes} {p : Nat} (hp : f.length ≤ p) : save o x p f = .error .parse := by
  unfold save
  rw [verified_drop, List.drop_eq_nil_of_le hp]
  rfl

/-- Saving to an Ogg file is saving to what is behind the cursor: everything in front of it is lost. -/
theorem ogg_from_cursor {o : Options} {t : Vorbis.Tag} {f : Bytes} {p : Nat} {ft : FileType}
    (hp : verified f p = .ok ft) (hft : ft = .opus ∨ ft = .vorbis ∨ ft = .speex) :
    save o (.vorbisComments t) p f = (Own.vorbisComments t).saveTo o (f.drop p) := by
  unfold save Own.saveTo
  rw [← verified_drop, hp]
  rcases hft with rfl | rfl | rfl <;> rfl

/-- Saving an ID3v2 tag puts it in front of what is behind the cursor: the `p` bytes in front of the cursor are lost. -/
theorem id3v2_from_cursor {o : Options} {fl : Id3v2.Flags} {fs : List Id3v2.Frame} {f g : Bytes} {p : Nat} {ft : FileType}
    (hp : verified f p = .ok ft) (hft : ft ≠ .wav ∧ ft ≠ .aiff)
    (hj : Id3v2.findInJunk ((f.drop p).take o.junk) = none)
    (h : save o (.id3v2 fl fs) p f = .ok g) :
    ∃ d, (Own.id3v2 fl fs).dump o = .ok d ∧ g = d ++ f.drop p := by
  unfold save at h
  rw [hp] at h
  simp only at h
  split at h
  · cases h
  · have hw : saveId3v2 fl o.frames o.padding o.junk fs f p = .ok g := by
      cases ft <;> first | exact h | exact absurd rfl hft.1 | exact absurd rfl hft.2
    unfold saveId3v2 at hw
    obtain ⟨new, h1, h2⟩ := bind_ok hw
    obtain ⟨⟨x, q⟩, h3, h2⟩ := bind_ok h2
    have : (none, p) = (x, q) := by
      unfold Id3v2.find at h3
      simp only [hj] at h3
      exact (Except.ok.injEq _ _).mp h3
    obtain ⟨rfl, rfl⟩ := Prod.mk.injEq .. ▸ this
    exact ⟨new, h1, ((Except.ok.injEq _ _).mp h2).symm⟩

/-! ## Cases -/

/-- The three frames of an MPEG file of 216 bytes, with the cursor at the second frame. -/
theorem second_frame : verified mp3 72 = .ok .mpeg ∧ verified mp3 0 = .ok .mpeg := by decide +kernel

/-- The cursor does matter: saving an ID3v2 tag with the cursor at the second frame removes the first frame. -/
theorem frame_lost :
    (save exOptions (.id3v2 noFlags (frames exOptions (titled .id3v2))) 72 mp3).toOption.map (fun g => g.drop (g.length - 144) == mp3.drop 72 && g.length < 216)
      = some true ∧
    (save exOptions (.id3v2 noFlags (frames exOptions (titled .id3v2))) 0 mp3).toOption.map (fun g => g.drop (g.length - 216) == mp3)
      = some true := by
  decide +kernel

/-- So saving is not the same wherever the cursor is. -/
theorem not_anywhere : ¬ ∀ (o : Options) (x : Own) (f : Bytes) (p q : Nat) (ft : FileType),
    verified f p = .ok ft → verified f q = .ok ft → save o x p f = save o x q f := by
  intro h
  have h1 := h exOptions (.id3v2 noFlags (frames exOptions (titled .id3v2))) mp3 72 0 .mpeg second_frame.1 second_frame.2
  obtain ⟨k1, k2⟩ := frame_lost
  rw [h1] at k1
  cases hs : save exOptions (.id3v2 noFlags (frames exOptions (titled .id3v2))) 0 mp3 with
  | error e => rw [hs] at k2; cases k2
  | ok g =>
    rw [hs] at k1 k2
    simp only [Except.toOption, Option.map_some, Option.some.injEq, Bool.and_eq_true, decide_eq_true_eq] at k1 k2
    have e1 := congrArg List.length (eq_of_beq k2)
    have e2 : mp3.length = 216 := by decide +kernel
    rw [List.length_drop, e2] at e1
    omega

/-- Two Opus streams, one behind the other, and the cursor at the second: the first is lost. -/
theorem stream_lost : (save exOptions (.vorbisComments OggWrite.newTag) OggWrite.opus.length (OggWrite.opus ++ OggWrite.opus)).toOption
      = ((Own.vorbisComments OggWrite.newTag).saveTo exOptions OggWrite.opus).toOption ∧
    ((Own.vorbisComments OggWrite.newTag).saveTo exOptions OggWrite.opus).toOption.isSome = true := by
  have hv : verified (OggWrite.opus ++ OggWrite.opus) OggWrite.opus.length = .ok .opus := by
    rw [verified_drop, List.drop_left]; decide +kernel
  refine ⟨?_, by decide +kernel⟩
  rw [ogg_from_cursor hv (.inl rfl), List.drop_left]

example : save exOptions (.id3v1 Id3v1.sample) 72 mp3 = (Own.id3v1 Id3v1.sample).saveTo exOptions mp3 := by
  rw [← just_opened]; exact id3v1_anywhere_partial second_frame.1 second_frame.2

/-- A FLAC file behind an empty ID3v2 tag. -/
def taggedFlac : Bytes := ascii "ID3" ++ [4, 0, 0, 0, 0, 0, 0] ++ flacFile

example : verified taggedFlac 10 = .ok .flac ∧ verified taggedFlac 0 = .ok .flac ∧
    (save exOptions (.vorbisComments OggWrite.newTag) 10 taggedFlac).toOption.isSome = true := by decide +kernel

/-- An MP4 file with a second file type atom at its end. -/
def twoTypes : Bytes := mp4File ++ mp4File.take (fromBE (mp4File.take 4))

example : (save exOptions (.mp4Ilst []) mp4File.length twoTypes).toOption.isSome = true ∧
    (save exOptions (.mp4Ilst []) 0 twoTypes).toOption.isSome = true := by decide +kernel

example : save exOptions (.ape Ape.exampleTag) 72 mp3 = save exOptions (.ape Ape.exampleTag) 0 mp3 :=
  ape_anywhere_partial (h := none) (h' := none) (a := 72) (b := 0) second_frame.1 second_frame.2
    (by decide +kernel) (by decide +kernel) (by decide +kernel) (by decide +kernel) (by decide +kernel) (by decide +kernel)

example : (save exOptions (.ape Ape.exampleTag) 72 mp3).toOption.isSome = true := by decide +kernel

example : save exOptions (.id3v1 Id3v1.sample) 216 mp3 = .error .parse := at_end_refused (by decide +kernel)

end Lofty.Position
