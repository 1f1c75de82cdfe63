import Verif.Lemmas.SafeIff
import Verif.Lemmas.SafeVorbis
import Verif.Lemmas.SafeMp4
import Verif.Props.Save
/-!
# C71: opening a file neither panics nor goes on for ever

`openFile` gives `.error .panic` where the code would panic (an index out of range, or a difference below zero in a build with overflow
checks), and `.error .diverge` where a loop or recursion is cut off.  The theorems say for all bytes whatsoever, and for all options, when this can be:
`Trap o f ft` names the shapes of files of each type for which it may happen, and each of them is shown to happen.  MP3, AAC, Musepack, WAV and AIFF
files have none.
-/
namespace Lofty.Safe
open Lofty.FileTags Lofty.Opened Lofty.Save

/-- The footers of APE tags in `f`: at the end, or in front of an ID3v1 tag.  `FooterAt f q n`: it ends at `q` and claims `n` bytes. -/
def Footer (f : Bytes) (q n : Nat) : Prop := (q = f.length ∨ q + 128 = f.length) ∧ FooterAt f q n

/-- Files that opening may not survive:
* MP4 files with odd atoms (see `Plain`), or of 4 GiB and more;
* APE files with the footer of an APE tag that claims, with its header, more than what is between the ID3v2 tag and its end;
* WavPack files with the footer of an APE tag that claims, with its header, more than there is in front of its end;
* FLAC files, and Ogg files whose comments, hold a `COVERART` field of less than eight bytes, when covers are read. -/
def Trap (o : ReadOptions) (f : Bytes) : FileType → Prop
  | .mp4 => ¬ Plain f ∨ 2 ^ 32 ≤ f.length + 8
  | .ape => ∃ q n, Footer f q n ∧ q < leading f + n + 32
  | .wavPack => ∃ q n, Footer f q n ∧ q < n + 32
  | .flac => o.cover = true ∧ ¬ NoShort f
  | .opus => o.cover = true ∧ ∃ hd, OggProps.readHeaders f OggWrite.Format.opus.head OggWrite.Format.opus.sig 2 true = .ok hd ∧ ¬ NoShort hd.comment
  | .vorbis => o.cover = true ∧ ∃ hd, OggProps.readHeaders f OggWrite.Format.vorbis.head OggWrite.Format.vorbis.sig 3 true = .ok hd ∧ ¬ NoShort hd.comment
  | .speex => o.cover = true ∧ ∃ hd, OggProps.readHeaders f OggWrite.Format.speex.head OggWrite.Format.speex.sig 2 true = .ok hd ∧ ¬ NoShort hd.comment
  | _ => False

/-- Neither of the two, unless `D`. -/
theorem openAs_fine (o : ReadOptions) (f : Bytes) (ft : FileType) (h : ¬ Trap o f ft) : Fine (Deep o.files f.length) (openAs o f ft) (fun _ => True) := by
  cases ft with
  | aac => exact (aac_fine o.files rfl f).map fun _ _ => trivial
  | aiff => exact (aiff_fine o.files rfl f).map fun _ _ => trivial
  | ape =>
    refine (mac_fine o.files rfl f fun q n hq hf => ?_).map fun _ _ => trivial
    refine Nat.le_of_not_lt fun hlt => h ⟨q, n, ⟨hq, hf⟩, hlt⟩
  | flac => exact flac_fine o f fun hc => Classical.byContradiction fun hn => h ⟨hc, hn⟩
  | mpeg => exact (mpeg_fine o.files rfl f).map fun _ _ => trivial
  | opus => exact (ogg_fine .opus o.comments f fun hc hd hh => Classical.byContradiction fun hn => h ⟨hc, hd, hh, hn⟩).map fun _ _ => trivial
  | vorbis => exact (ogg_fine .vorbis o.comments f fun hc hd hh => Classical.byContradiction fun hn => h ⟨hc, hd, hh, hn⟩).map fun _ _ => trivial
  | speex => exact (ogg_fine .speex o.comments f fun hc hd hh => Classical.byContradiction fun hn => h ⟨hc, hd, hh, hn⟩).map fun _ _ => trivial
  | wav => exact (wav_fine o.files rfl f).map fun _ _ => trivial
  | mp4 =>
    have hp : Plain f := Classical.byContradiction fun hn => h (.inl hn)
    have hl : f.length + 8 < 2 ^ 32 := Nat.lt_of_not_le fun hn => h (.inr hn)
    exact (mp4_fine hp hl o.mp4 rfl).map fun _ _ => trivial
  | mpc => exact (mpc_fine o.files f).map fun _ _ => trivial
  | wavPack =>
    refine (wavPack_fine o.files f fun q n hq hf => ?_).map fun _ _ => trivial
    refine Nat.le_of_not_lt fun hlt => h ⟨q, n, ⟨hq, hf⟩, hlt⟩

theorem verified_fine (f : Bytes) : Fine D (verified f) (fun _ => True) := by
  unfold verified Probe.guessFileType
  obtain ⟨g, hg⟩ := Probe.guess_total f 0 1024
  have : Probe.guessInner f 0 ((none : Option Nat).getD 1024) = .ok (g, 0) := hg
  dsimp only
  rw [this]
  dsimp only
  split
  · exact .ok trivial
  · exact .err

/-- **C71.** Opening a file panics only for the shapes of files named by `Trap`, whatever the bytes and the options.  (That it does not for
any file is false; see below.) -/
theorem opening_panics_partial (o : ReadOptions) (f : Bytes) (h : openFile o f = .error .panic) : ∃ ft, verified f = .ok ft ∧ Trap o f ft := by
  unfold openFile at h
  have hv := verified_fine (D := False) f
  revert hv h
  cases verified f with
  | error e => intro h hv; cases h; exact absurd rfl (hv.safe _ rfl).1
  | ok ft =>
    intro h _
    exact ⟨ft, rfl, Classical.byContradiction fun hn => ((openAs_fine o f ft hn).safe _ h).1 rfl⟩

/-- **C71.** Opening a file ends, except for the shapes of files named by `Trap`, if as many levels of chapters may be nested as the file has bytes
and decompressed frames are not longer than compressed ones. -/
theorem opening_ends_partial (o : ReadOptions) (f : Bytes) (hd : f.length < o.depth) (hz : ∀ c d, o.inflate c = some d → d.length ≤ c.length)
    (h : openFile o f = .error .diverge) : ∃ ft, verified f = .ok ft ∧ Trap o f ft := by
  unfold openFile at h
  have hv := verified_fine (D := False) f
  revert hv h
  cases verified f with
  | error e => intro h hv; cases h; exact ((hv.safe _ rfl).2 rfl).elim
  | ok ft =>
    intro h _
    refine ⟨ft, rfl, Classical.byContradiction fun hn => ?_⟩
    rcases ((openAs_fine o f ft hn).safe _ h).2 rfl with h1 | h1
    · exact h1 hz
    · have : f.length < o.files.depth := hd
      omega

/-- **C71.** MP3, AAC, Musepack, WAV and AIFF files are opened without panic, whatever they hold. -/
theorem opening_never_panics (o : ReadOptions) (f : Bytes) (ft : FileType) (hf : verified f = .ok ft)
    (ht : ft = .mpeg ∨ ft = .aac ∨ ft = .mpc ∨ ft = .wav ∨ ft = .aiff) : openFile o f ≠ .error .panic := by
  intro h
  obtain ⟨ft', h1, h2⟩ := opening_panics_partial o f h
  rw [hf] at h1
  cases h1
  rcases ht with rfl | rfl | rfl | rfl | rfl <;> exact h2

/-- **C71.** Without covers, FLAC and Ogg files are opened without panic, whatever they hold. -/
theorem opening_without_covers (o : ReadOptions) (f : Bytes) (ft : FileType) (hf : verified f = .ok ft) (hc : o.cover = false)
    (ht : ft = .flac ∨ ft = .opus ∨ ft = .vorbis ∨ ft = .speex) : openFile o f ≠ .error .panic := by
  intro h
  obtain ⟨ft', h1, h2⟩ := opening_panics_partial o f h
  rw [hf] at h1
  cases h1
  rcases ht with rfl | rfl | rfl | rfl <;> exact absurd (hc.symm.trans h2.1) Bool.false_ne_true

/-! ## The traps -/

/-- Default options, without decompression and with `depth` levels of chapters. -/
def exOpen (depth : Nat) : ReadOptions := ⟨.bestAttempt, 1024, true, true, 16777216, fun _ => none, depth, Rating.default⟩

/-- The footer of an APE tag that claims `n` bytes and no items. -/
def apeFooter (n : Nat) : Bytes := ascii "APETAGEX" ++ leBytes 4 2000 ++ leBytes 4 n ++ leBytes 4 0 ++ leBytes 4 0 ++ List.replicate 8 0

/-- A WavPack file with the footer of a tag that would start in front of the file (36 bytes, and 32 for its header, of 36), and an ID3v1 tag. -/
def wavPackTrap : Bytes := ascii "wvpk" ++ apeFooter 36 ++ ascii "TAG" ++ List.replicate 125 0

/-- A file of Monkey's Audio with the footer of a tag that would start within the ID3v2 tag. -/
def macTrap : Bytes := ascii "ID3" ++ [4, 0, 0, 0, 0, 0, 60] ++ List.replicate 60 0 ++ ascii "MAC " ++ [1] ++ apeFooter 60

/-- A FLAC file with a `COVERART` of three bytes. -/
def flacTrap : Bytes := Flac.stream [] [(0, List.replicate 34 7), (4, leBytes 4 0 ++ leBytes 4 1 ++ leBytes 4 13 ++ ascii "COVERART=AAAA")] [0xFF, 0xF8]

/-- An MP4 file whose `moov` has a length of 64 bits, and that ends with an `mdat` without length. -/
def mp4Trap : Bytes :=
  beBytes 4 16 ++ ascii "ftypM4A " ++ beBytes 4 0 ++ (beBytes 4 1 ++ ascii "moov" ++ beBytes 8 24 ++ (beBytes 4 8 ++ ascii "free")) ++
    (beBytes 4 0 ++ ascii "mdat" ++ List.replicate 20 5)

/-- An MP4 file with a `meta` of a `udta` that has been cut off. -/
def metaTrap : Bytes :=
  beBytes 4 16 ++ ascii "ftypM4A " ++ beBytes 4 0 ++ (beBytes 4 29 ++ ascii "moov" ++ (beBytes 4 21 ++ ascii "udta" ++ (beBytes 4 13 ++ ascii "meta" ++ beBytes 4 0 ++ ascii "h"))) ++
    ascii "dlr" ++ List.replicate 20 5

/-- **C71 fails** for WavPack files, those of Monkey's Audio, FLAC files and MP4 files (wavpack/read.rs, ape/read.rs: `stream_length -= ...`;
picture/mod.rs: `bytes[..8]`; mp4/atom_info.rs: `end - pos`). -/
theorem opening_panics :
    openFile (exOpen 300) wavPackTrap = .error .panic ∧ openFile (exOpen 300) macTrap = .error .panic ∧
    openFile (exOpen 300) flacTrap = .error .panic ∧ openFile (exOpen 300) mp4Trap = .error .panic ∧ openFile (exOpen 300) metaTrap = .error .panic := by
  decide +kernel

/-! ## Cases that meet the hypotheses -/

/-- Odd atoms are in the file, if anywhere. -/
theorem plain_of {f : Bytes} (h1 : ∀ p < f.length, ¬ ((f.drop p).take 4 = [0, 0, 0, 1] ∧ ((f.drop (p + 4)).take 4).all Mp4.validByte = true))
    (h2 : ∀ p < f.length, (f.drop p).take 4 = [0, 0, 0, 0] →
      (f.drop (p + 4)).take 4 ∉ [ascii "hdlr", ascii "ilst", ascii "mhdr", ascii "ctry", ascii "lang", ascii "----"])
    (h3 : ∀ p < f.length, (f.drop p).take 4 = ascii "----" → (f.drop (p + 4)).take 4 ≠ [0, 0, 0, 0])
    (h4 : ∀ p < f.length, (f.drop (p + 4)).take 4 = ascii "mean" → (f.drop (p + fromBE ((f.drop p).take 4))).take 4 ≠ [0, 0, 0, 0]) : Plain f := by
  have key : ∀ (p : Nat) (b : Bytes), b ≠ [] → (f.drop p).take 4 = b → p < f.length := by
    intro p b hb h
    refine Nat.lt_of_not_le fun hn => hb ?_
    rw [← h, List.drop_eq_nil_of_le hn, List.take_nil]
  refine ⟨fun p hw => h1 p (key p _ (by decide) hw.1) ⟨hw.1, hw.2.2⟩, fun p h => h2 p (key p _ (by decide) h) h, fun p h => h3 p (key p _ (by decide) h) h,
    fun p h => h4 p ?_ h⟩
  have := key (p + 4) _ (by decide) h
  omega

/-- An MP4 file with a tag, in which nothing is odd. -/
theorem mp4File_plain : Plain mp4File := plain_of (by decide +kernel) (by decide +kernel) (by decide +kernel) (by decide +kernel)

/-- A WavPack file with an ID3v1 tag and the footer of an APE tag of the right size. -/
def wavPackFine : Bytes := ascii "wvpk" ++ List.replicate 60 0 ++ apeFooter 32 ++ ascii "TAG" ++ List.replicate 125 0

example : verified mp4File = .ok .mp4 ∧ ¬ Trap (exOpen 300) mp4File .mp4 ∧ openFile (exOpen 300) mp4File ≠ .error .panic ∧ mp4File.length < 300 := by
  have h : ¬ Trap (exOpen 300) mp4File .mp4 := fun h => h.elim (fun h => h mp4File_plain) (by decide +kernel)
  refine ⟨by decide +kernel, h, fun hp => ?_, by decide +kernel⟩
  obtain ⟨ft, h1, h2⟩ := opening_panics_partial _ _ hp
  have : verified mp4File = .ok .mp4 := by decide +kernel
  rw [this] at h1
  cases h1
  exact h h2

example : verified wavPackFine = .ok .wavPack ∧ ¬ Trap (exOpen 300) wavPackFine .wavPack ∧ ∃ q n, Footer wavPackFine q n ∧ n = 32 := by
  have hl : wavPackFine.length = 224 := by decide +kernel
  refine ⟨by decide +kernel, ?_, 96, 32, ⟨.inr (by rw [hl]), by unfold FooterAt; decide +kernel⟩, rfl⟩
  rintro ⟨q, n, ⟨h1 | h1, h2⟩, h3⟩
  · rw [hl] at h1
    subst h1
    exact absurd h2.2.1 (by decide +kernel)
  · rw [hl] at h1
    obtain rfl : q = 96 := by omega
    have : n = 32 := h2.2.2.trans (by decide +kernel)
    omega

example : verified mp3 = .ok .mpeg ∧ mp3.length < 300 := by decide +kernel

end Lofty.Safe
