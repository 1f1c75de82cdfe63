import Verif.Lemmas.DumpFormats
import Verif.Props.Save
import Verif.Props.Mp4Create
import Verif.Props.IffFiles
import Mathlib.Data.List.Infix
/-!
# C82: what is dumped is what is saved

`d <:+: g`: the bytes `d` occur, in one piece, in `g`.
-/
namespace Lofty.Save
open Item FileType FileType.Spec

theorem written_of_saved {o : Options} {x : Own} {f g : Bytes} (h : x.saveTo o f = .ok g) : ∃ ft, verified f = .ok ft ∧ x.write o ft f = .ok g := by
  unfold Own.saveTo at h
  cases hv : verified f with
  | error e => rw [hv] at h; cases h
  | ok ft =>
    rw [hv] at h
    simp only at h
    split at h
    · cases h
    · exact ⟨ft, rfl, h⟩

/-- **A tag that is around the audio or in chunks** can be dumped once it has been saved, and the file then contains the dump.
An APE tag must not be put into a file that has one eight bytes behind its ID3v2 tags, and an ID3v2 tag with
a footer not into a WAV or AIFF file, where footers are left out (`footer_not_saved`). -/
theorem saved_contains_dump_partial {o : Options} {x : Own} {f g : Bytes} (hne : x.isEmpty = false)
    (htype : x.type ≠ .vorbisComments ∧ x.type ≠ .mp4Ilst)
    (hlead : x.type = .ape → ∀ i p, Id3v2.find f 0 false none = .ok (i, p) → (f.drop (p + 8)).take 8 ≠ ascii "APETAGEX")
    (hfoot : ∀ fl fs, x = .id3v2 fl fs → fl.footer = true → verified f ≠ .ok .wav ∧ verified f ≠ .ok .aiff)
    (h : x.saveTo o f = .ok g) : ∃ d, x.dump o = .ok d ∧ d <:+: g := by
  obtain ⟨ft, hv, hw⟩ := written_of_saved h
  cases x with
  | ape t => exact written_ape (hlead rfl) hw
  | id3v1 t => exact written_id3v1 hne hw
  | id3v2 fl fs =>
    by_cases hft : ft = .wav ∨ ft = .aiff
    · refine written_id3v2_iff hft ?_ hw
      cases hf : fl.footer with
      | false => rfl
      | true =>
        obtain ⟨h1, h2⟩ := hfoot fl fs rfl hf
        rcases hft with rfl | rfl
        · exact absurd hv h1
        · exact absurd hv h2
    · exact written_id3v2 ⟨fun e => hft (.inl e), fun e => hft (.inr e)⟩ hw
  | mp4Ilst t => exact absurd rfl htype.2
  | vorbisComments t => exact absurd rfl htype.1
  | riffInfo t => exact written_riff hw
  | aiffText t => exact written_aiff hw

/-- **FLAC files.** The saved file contains the comments as they are dumped with the vendor that the file names, and every picture
in the form of a FLAC block.  Missing: the vendor of the tag (`vendor_not_saved`), and its pictures in the
form they are dumped in, which is that of a comment. -/
theorem flac_contains_dump_partial {o : Options} {t : Vorbis.Tag} {f g : Bytes} (hne : t.items ≠ []) (hf : verified f = .ok .flac)
    (h : (Own.vorbisComments t).saveTo o f = .ok g) :
    (∃ v d, (Own.vorbisComments { t with vendor := v, pictures := [] }).dump o = .ok d ∧ d <:+: g) ∧
    ∀ p ∈ t.pictures, Picture.asFlacBytes p.1 p.2 false <:+: g := by
  obtain ⟨ft, hv, hw⟩ := written_of_saved h
  rw [hf] at hv
  obtain rfl := (Except.ok.injEq _ _).mp hv
  exact written_flac hne hw

open Lofty.OggWrite in
/-- **Opus, Vorbis and Speex files.** The comment packet of the saved file is the dump with the vendor that the file names, between
the signature and the framing bit of the format.  Missing: the vendor of the tag (`vendor_not_saved`). -/
theorem ogg_contains_dump_partial {o : Options} {fmt : Format} {t : Vorbis.Tag} {f g ident comment rest : Bytes} {others : List Bytes}
    (hf : (verified f, fmt) ∈ [(.ok .opus, .opus), (.ok .vorbis, .vorbis), (.ok .speex, Format.speex)])
    (h : (Own.vorbisComments t).saveTo o f = .ok g) (hh : Headed fmt f (ident :: comment :: others) rest) (hi : ident ≠ [])
    (ho : ∀ p ∈ others, p ≠ []) :
    ∃ v d rest', (Own.vorbisComments { t with vendor := v }).dump o = .ok d ∧
      Headed fmt g (ident :: (fmt.sig ++ d ++ if fmt.framing then [1] else []) :: others) rest' := by
  obtain ⟨ft, hv, hw⟩ := written_of_saved h
  rw [hv] at hf
  have : OggWrite.write fmt t f = .ok g := by
    simp only [List.mem_cons, Prod.mk.injEq, Except.ok.injEq, List.not_mem_nil, or_false] at hf
    rcases hf with ⟨rfl, rfl⟩ | ⟨rfl, rfl⟩ | ⟨rfl, rfl⟩ <;> exact hw
  exact written_ogg this hh hi ho

open Lofty.Mp4Write in
/-- **MP4 files** that have a tag already. -/
theorem mp4_contains_dump_partial {o : Options} (x : File) (hx : x.Ok) {t : Ilst.Tag} {d g : Bytes} (hd : (Own.mp4Ilst t).dump o = .ok d)
    (hn : d ≠ []) (hpad : ∀ k, o.padding = some k → 8 ≤ k) (hsz : 2 * x.bytes.length + d.length + o.padding.getD 0 < 2 ^ 32)
    (h : (Own.mp4Ilst t).saveTo o x.bytes = .ok g) : d <:+: g := by
  obtain ⟨ft, _, hw⟩ := written_of_saved h
  exact written_mp4 x hx hd hn hpad hsz hw

open Lofty.Mp4Write in
/-- **MP4 files without user data.** -/
theorem mp4_new_contains_dump_partial {o : Options} {before kids after : Forest} (hp : Plain before kids after) (hu : ascii "udta" ∉ kids.top)
    {t : Ilst.Tag} {d g : Bytes} (hne : t ≠ []) (hd : (Own.mp4Ilst t).dump o = .ok d)
    (hsz : (before.append (.node (ascii "moov") kids after)).bytes.length + d.length + 64 < 2 ^ 32)
    (h : (Own.mp4Ilst t).saveTo o (before.append (.node (ascii "moov") kids after)).bytes = .ok g) : d <:+: g := by
  obtain ⟨ft, _, hw⟩ := written_of_saved h
  have hw : Mp4Write.writeTo (before.append (.node (ascii "moov") kids after)).bytes t o.mode o.padding = .ok g := hw
  rw [create_udta hp hu t o.mode o.padding d hd hsz, if_neg hne] at hw
  rw [← (Except.ok.injEq _ _).mp hw]
  refine infix_append (infix_node (infix_node (infix_leaf ?_)))
  rw [newMeta, ← List.append_assoc]
  exact ⟨_, [], by rw [List.append_nil]⟩

/-- **A generic tag** is dumped like the tag of the format that it is saved as. -/
theorem generic_dump {o : Options} {t : Tag} {f : Bytes} {ft : FileType} (hf : verified f = .ok ft) (ht : (t.type, false) ∈ documented ft) :
    dump o t = (asOwn o t).bind (Own.dump o) ∧ saveTo o t f = (asOwn o t).bind fun x => x.saveTo o f := by
  refine ⟨?_, accepts hf o t ht⟩
  unfold dump asOwn
  cases t.type <;> try rfl
  cases vorbisTag t <;> rfl

/-- **Empty tags** of the other formats are dumped as nothing at all. -/
theorem empty_dump {o : Options} {x : Own} (he : x.isEmpty = true) (htype : x.type ≠ .id3v1 ∧ x.type ≠ .vorbisComments) : x.dump o = .ok [] := by
  cases x with
  | ape t => obtain ⟨r, items⟩ := t; cases items with | nil => rfl | cons a b => cases he
  | id3v1 t => exact absurd rfl htype.1
  | id3v2 fl fs => cases fs with | nil => rfl | cons a b => cases he
  | mp4Ilst t => cases t with | nil => rfl | cons a b => cases he
  | vorbisComments t => exact absurd rfl htype.2
  | riffInfo t => cases t with | nil => rfl | cons a b => cases he
  | aiffText t =>
    obtain ⟨a, b, c, d, e⟩ := t
    simp only [Own.isEmpty, Bool.and_eq_true, Option.isNone_iff_eq_none] at he
    obtain ⟨⟨⟨⟨rfl, rfl⟩, rfl⟩, rfl⟩, rfl⟩ := he
    rfl

/-! ## Examples -/

/-- Saving worked, and the file contains the dump. -/
def contained (o : Options) (x : Own) (f : Bytes) : Option Bool := do
  let g ← (x.saveTo o f).toOption
  let d ← (x.dump o).toOption
  return !d.isEmpty && decide (d <:+: g)

example : ∃ g d, (Own.id3v2 noFlags Id3v2.sample).saveTo exOptions mp3 = .ok g ∧ (Own.id3v2 noFlags Id3v2.sample).dump exOptions = .ok d ∧ d <:+: g := by
  have hs : ((Own.id3v2 noFlags Id3v2.sample).saveTo exOptions mp3).toOption.isSome = true := by decide +kernel
  rcases hg : (Own.id3v2 noFlags Id3v2.sample).saveTo exOptions mp3 with e | g
  · rw [hg] at hs; cases hs
  · obtain ⟨d, h1, h2⟩ := saved_contains_dump_partial rfl ⟨by decide, by decide⟩ (fun e => by cases e)
      (fun fl fs e hf => by cases e; cases hf) hg
    exact ⟨g, d, rfl, h1, h2⟩

example : contained exOptions (.riffInfo [(str "INAM", str "x")]) (Iff.wav IffFiles.exWav) = some true := by decide +kernel
example : contained exOptions (.ape ⟨false, [⟨false, str "Title", .text (str "x")⟩]⟩) mp3 = some true := by decide +kernel
example : contained exOptions (.id3v1 Id3v1.sample) mp3 = some true := by decide +kernel

/-- An AIFF file, and a chunk. -/
example : contained exOptions (.aiffText ⟨some (str "x"), none, none, none, none⟩) (Iff.aiff (ascii "AIFF") IffFiles.exAiff) = some true := by
  decide +kernel

example : contained exOptions (.mp4Ilst Mp4Write.sample) (Mp4Write.file []).bytes = some true ∧
    contained exOptions (.mp4Ilst Mp4Write.sample) Mp4Write.bare.bytes = some true := by decide +kernel

example : ∃ v d g, (Own.vorbisComments ⟨str "me", [(str "TITLE", str "x")], []⟩).saveTo exOptions flacFile = .ok g ∧
    (Own.vorbisComments ⟨v, [(str "TITLE", str "x")], []⟩).dump exOptions = .ok d ∧ d <:+: g := by
  have hs : ((Own.vorbisComments ⟨str "me", [(str "TITLE", str "x")], []⟩).saveTo exOptions flacFile).toOption.isSome = true := by decide +kernel
  rcases hg : (Own.vorbisComments ⟨str "me", [(str "TITLE", str "x")], []⟩).saveTo exOptions flacFile with e | g
  · rw [hg] at hs; cases hs
  · obtain ⟨⟨v, d, h1, h2⟩, _⟩ := flac_contains_dump_partial (by simp) flac_verified hg
    exact ⟨v, d, g, rfl, h1, h2⟩

open OggWrite in
example : ∃ g v d rest, (Own.vorbisComments newTag).saveTo exOptions opus = .ok g ∧ (Own.vorbisComments { newTag with vendor := v }).dump exOptions = .ok d ∧
    Headed .opus g [ident, OggProps.opusTags ++ d] rest := by
  have hs : ((Own.vorbisComments newTag).saveTo exOptions opus).toOption.isSome = true := by decide +kernel
  rcases hg : (Own.vorbisComments newTag).saveTo exOptions opus with e | g
  · rw [hg] at hs; cases hs
  · obtain ⟨v, d, r, h1, h2⟩ := ogg_contains_dump_partial (by rw [opus_verified]; simp) hg opus_headed (by decide) (by simp)
    exact ⟨g, v, d, r, rfl, h1, by simpa [Format.framing, Format.sig] using h2⟩

example : dump exOptions (titled .id3v1) = (asOwn exOptions (titled .id3v1)).bind (Own.dump exOptions) :=
  (generic_dump mp3_verified (by decide)).1

/-! ## Where it goes wrong -/

/-- **The vendor is that of the file**, not that of the tag: a FLAC and an Opus file do not contain the dump. -/
theorem vendor_not_saved : contained exOptions (.vorbisComments ⟨str "me", [(str "TITLE", str "x")], []⟩) flacFile = some false ∧
    contained exOptions (.vorbisComments ⟨str "v", [(str "TITLE", str "x")], []⟩) flacFile = some true ∧
    contained exOptions (.vorbisComments ⟨str "me", [(str "TITLE", str "x")], []⟩) OggWrite.opus = some false ∧
    contained exOptions (.vorbisComments ⟨str "libopus", [(str "TITLE", str "x")], []⟩) OggWrite.opus = some true := by decide +kernel

/-- **Footers** are left out in WAV files. -/
theorem footer_not_saved : contained exOptions (.id3v2 ⟨false, false, true, false, none⟩ Id3v2.sample) (Iff.wav IffFiles.exWav) = some false ∧
    contained exOptions (.id3v2 noFlags Id3v2.sample) (Iff.wav IffFiles.exWav) = some true := by decide +kernel

/-- **An empty ID3v1 tag** is dumped as 128 bytes; they are appended to a file without such a tag, while saving the tag again removes
them.  An empty set of comments is dumped as a vendor and a count. -/
theorem empty_id3v1_dump : (Own.id3v1 (Convert.id3v1Ref (Tag.new .id3v1))).isEmpty = true ∧
    ((Own.id3v1 (Convert.id3v1Ref (Tag.new .id3v1))).dump exOptions).toOption.map List.length = some 128 ∧
    contained exOptions (.id3v1 (Convert.id3v1Ref (Tag.new .id3v1))) mp3 = some true ∧
    ((Own.id3v1 (Convert.id3v1Ref (Tag.new .id3v1))).saveTo exOptions mp3).bind (Own.saveTo exOptions (.id3v1 (Convert.id3v1Ref (Tag.new .id3v1)))) =
      .ok mp3 ∧
    ((Own.vorbisComments ⟨[], [], []⟩).dump exOptions).toOption.map List.length = some 8 := by decide +kernel

end Lofty.Save
