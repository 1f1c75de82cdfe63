import Verif.Spec.Save
import Verif.Props.FileType
import Verif.Props.FileTags
import Verif.Props.OggWrite
import Verif.Props.Mp4Read
import Verif.Props.AudioFiles
import Verif.Props.Flac
import Verif.Props.TagFiles
/-!
# C67: what becomes of a tag that is saved
-/
namespace Lofty.Save
open Item FileType FileType.Spec

theorem writable_doc {ft : FileType} {t : TagType} (h : (t, false) ∈ documented ft) : (ft.tagSupport t).writable = true :=
  (support_documented ft t).2.mpr h

theorem not_writable_doc {ft : FileType} {t : TagType} (h : (t, false) ∉ documented ft) : (ft.tagSupport t).writable = false := by
  cases hw : (ft.tagSupport t).writable with
  | false => rfl
  | true => exact absurd ((support_documented ft t).2.mp hw) h

theorem readable_doc {ft : FileType} {t : TagType} (h : t ∈ (documented ft).map (·.1)) : (ft.tagSupport t).readable = true :=
  (support_documented ft t).1.mpr h

theorem not_readable_doc {ft : FileType} {t : TagType} (h : t ∉ (documented ft).map (·.1)) : (ft.tagSupport t).readable = false := by
  cases hw : (ft.tagSupport t).readable with
  | false => rfl
  | true => exact absurd ((support_documented ft t).1.mp hw) h

/-- **Tags that a format does not have are rejected**, generic ones and those of a format. -/
theorem rejects {f : Bytes} {ft : FileType} (hf : verified f = .ok ft) (o : Options) :
    (∀ t : Tag, (t.type, false) ∉ documented ft → (t.items ≠ [] ∨ t.pictures ≠ []) → saveTo o t f = .error .unsupported) ∧
    (∀ x : Own, (x.type, false) ∉ documented ft → x.isEmpty = false → x.saveTo o f = .error .unsupported) := by
  constructor
  · intro t ht hne
    unfold saveTo
    rw [hf]
    simp only [not_writable_doc ht, Bool.not_false, Bool.true_and]
    rw [if_pos]
    rcases hne with h | h
    · cases hi : t.items with
      | nil => exact absurd hi h
      | cons => simp
    · cases hi : t.pictures with
      | nil => exact absurd hi h
      | cons => simp
  · intro x hx hne
    unfold Own.saveTo
    rw [hf]
    simp only [not_writable_doc hx, hne, Bool.not_false, Bool.and_self, if_true]

/-- **Tags that a format has are saved**: a generic tag is saved as the tag of the format that it stands for. -/
theorem accepts {f : Bytes} {ft : FileType} (hf : verified f = .ok ft) (o : Options) (t : Tag) (ht : (t.type, false) ∈ documented ft) :
    saveTo o t f = (asOwn o t).bind fun x => x.saveTo o f := by
  unfold saveTo Own.saveTo
  rw [hf]
  simp only [writable_doc ht, Bool.not_true, Bool.false_and, Bool.false_eq_true, if_false]
  obtain ⟨ty, pics, items, c⟩ := t
  simp only at ht
  have key : ∀ (x : Own), x.type = ty → (if (!(ft.tagSupport x.type).writable && !x.isEmpty) = true then .error .unsupported
      else x.write o ft f) = x.write o ft f := by
    intro x hx
    rw [hx, writable_doc ht]
    simp
  unfold asOwn
  cases ty with
  | vorbisComments =>
    simp only
    have hw : writeTag o ft ⟨.vorbisComments, pics, items, c⟩ f =
        (vorbisTag ⟨.vorbisComments, pics, items, c⟩).bind fun v => writeVorbis o ft v f := by
      cases ft <;> first | rfl | (exact absurd ht (by decide))
    rw [hw]
    cases vorbisTag ⟨.vorbisComments, pics, items, c⟩ with
    | error e => rfl
    | ok v => exact (key (.vorbisComments v) rfl).symm
  | mp4Ilst =>
    refine Eq.trans ?_ (key (.mp4Ilst _) rfl).symm
    cases ft <;> first | rfl | (exact absurd ht (by decide))
  | ape =>
    refine Eq.trans ?_ (key (.ape _) rfl).symm
    cases ft <;> first | rfl | (exact absurd ht (by decide))
  | id3v1 =>
    refine Eq.trans ?_ (key (.id3v1 _) rfl).symm
    cases ft <;> first | rfl | (exact absurd ht (by decide))
  | id3v2 =>
    refine Eq.trans ?_ (key (.id3v2 _ _) rfl).symm
    cases ft <;> first | rfl | (exact absurd ht (by decide))
  | riffInfo =>
    refine Eq.trans ?_ (key (.riffInfo _) rfl).symm
    cases ft <;> first | rfl | (exact absurd ht (by decide))
  | aiffText =>
    refine Eq.trans ?_ (key (.aiffText _) rfl).symm
    cases ft <;> first | rfl | (exact absurd ht (by decide))

/-- The order of no frames. -/
theorem order_nil {o : Options} (ho : o.Fair) : o.order [] = [] := List.perm_nil.mp (ho [])

/-- **Removing a tag** is saving the default tag of its type, for all tags that a format has, read-only ones included. -/
theorem removes {f : Bytes} {ft : FileType} (hf : verified f = .ok ft) {o : Options} (ho : o.Fair) {t : TagType}
    (ht : t ∈ (documented ft).map (·.1)) : removeFrom o t f = (emptyOwn t).saveTo o f := by
  unfold removeFrom Own.saveTo
  rw [hf]
  simp only [readable_doc ht, Bool.not_true, Bool.false_eq_true, if_false]
  have key : (if (!(ft.tagSupport (emptyOwn t).type).writable && !(emptyOwn t).isEmpty) = true then .error .unsupported
      else (emptyOwn t).write o ft f) = (emptyOwn t).write o ft f := by
    have : (emptyOwn t).isEmpty = true := by cases t <;> rfl
    rw [this]
    simp
  rw [key]
  have hfr : frames o (Tag.new .id3v2) = [] := by
    unfold frames
    have : Convert.fromTag o.custom false (Tag.new .id3v2).items = [] := rfl
    rw [this, order_nil ho]
    rfl
  have hw : ∀ ft, strippable ft = false → writeAs o ft (Tag.new .id3v2) f .id3v2 = writeId3v2 o ft noFlags [] f := by
    intro ft hs
    unfold writeAs
    simp only [hs, hfr, Bool.false_eq_true, if_false]
  cases t with
  | id3v2 =>
    cases ft <;> first | (exact absurd ht (by decide)) | rfl | skip
    all_goals first | exact hw .aac rfl | exact hw .aiff rfl | exact hw .mpeg rfl | exact hw .mpc rfl | exact hw .wav rfl
  | aiffText =>
    cases ft <;> first | (exact absurd ht (by decide)) | rfl
  | vorbisComments => cases ft <;> first | (exact absurd ht (by decide)) | rfl
  | mp4Ilst => cases ft <;> first | (exact absurd ht (by decide)) | rfl
  | ape => cases ft <;> first | (exact absurd ht (by decide)) | rfl
  | id3v1 => cases ft <;> first | (exact absurd ht (by decide)) | rfl
  | riffInfo => cases ft <;> first | (exact absurd ht (by decide)) | rfl

/-- Other tags cannot be removed. -/
theorem remove_rejects {f : Bytes} {ft : FileType} (hf : verified f = .ok ft) (o : Options) {t : TagType}
    (ht : t ∉ (documented ft).map (·.1)) : removeFrom o t f = .error .unsupported := by
  unfold removeFrom
  rw [hf]
  simp only [not_readable_doc ht, Bool.not_false, if_true]

/-- **Saving an empty generic tag** of a type that the format has, even read-only, removes that tag. -/
theorem empty_removes {f : Bytes} {ft : FileType} (hf : verified f = .ok ft) (o : Options) {t : Tag}
    (ht : t.type ∈ (documented ft).map (·.1)) (hi : t.items = []) (hp : t.pictures = []) : saveTo o t f = removeFrom o t.type f := by
  unfold saveTo removeFrom
  rw [hf]
  simp only [hi, hp, List.isEmpty_nil, Bool.and_self, Bool.not_true, Bool.and_false, Bool.false_eq_true, if_false,
    readable_doc ht]
  obtain ⟨ty, pics, items, c⟩ := t
  simp only at hi hp ht ⊢
  subst hi
  subst hp
  cases ft <;> cases ty <;> rfl

/-- **Saving a whole file** is saving its tags one after the other, except those that the format does not have or has
read-only. -/
theorem saves_all (o : Options) (ft : FileType) (ts : List Tag) (f : Bytes) :
    saveAll o ft ts f = (ts.filter fun t => (t.type, false) ∈ documented ft).foldlM (fun g t => saveTo o t g) f := by
  induction ts generalizing f with
  | nil => rfl
  | cons t ts ih =>
    unfold saveAll
    by_cases h : (t.type, false) ∈ documented ft
    · rw [writable_doc h, List.filter_cons_of_pos (by simpa using h), List.foldlM_cons]
      simp only [Bool.not_true, Bool.false_eq_true, if_false]
      cases saveTo o t f with
      | error e => rfl
      | ok g => exact ih g
    · rw [not_writable_doc h, List.filter_cons_of_neg (by simpa using h)]
      exact ih f

/-! ## Examples -/

/-- Default options. -/
def exOptions : Options := ⟨some 8, false, true, false, true, 1024, .bestAttempt, Rating.default, id, false⟩

theorem exFair : exOptions.Fair := fun l => List.Perm.refl l

/-- A title. -/
def titled (t : TagType) : Tag := ⟨t, [], [TagItem.new .TrackTitle (.text (str "x"))], false⟩

/-- An MPEG file. -/
def mp3 : Bytes := FileTags.threeFrames

/-- A FLAC file with the comment `A=b`. -/
def flacFile : Bytes := Flac.stream [] [(0, List.replicate 34 7), (4, [1, 0, 0, 0, 0x76, 1, 0, 0, 0, 3, 0, 0, 0, 65, 61, 98])] [0xFF, 0xF8]

/-- An MP4 file with a tag. -/
def mp4File : Bytes := Mp4Read.headless.bytes

theorem mp3_verified : verified mp3 = .ok .mpeg := by decide +kernel
theorem flac_verified : verified flacFile = .ok .flac := by decide +kernel
theorem opus_verified : verified OggWrite.opus = .ok .opus := by decide +kernel
theorem mp4_verified : verified mp4File = .ok .mp4 := by decide +kernel
theorem mac_verified : verified FileTags.macFile = .ok .ape := by decide +kernel

example : saveTo exOptions (titled .vorbisComments) mp3 = .error .unsupported ∧
    (Own.id3v2 noFlags [.leaf {} (.comment ⟨.utf8, (101, 110, 103), [], str "x"⟩)]).saveTo exOptions flacFile = .error .unsupported :=
  ⟨(rejects mp3_verified exOptions).1 _ (by decide) (.inl (by decide)),
    (rejects flac_verified exOptions).2 _ (by decide) rfl⟩

example : ∃ x, asOwn exOptions (titled .id3v1) = .ok x ∧ saveTo exOptions (titled .id3v1) mp3 = x.saveTo exOptions mp3 ∧
    (x.saveTo exOptions mp3).isOk = true :=
  have h : asOwn exOptions (titled .id3v1) = .ok (.id3v1 (Convert.id3v1Ref (titled .id3v1))) := rfl
  ⟨_, h, by rw [accepts mp3_verified exOptions (titled .id3v1) (by decide), h]; exact ok_bind _ _, by decide +kernel⟩

example : removeFrom exOptions .id3v2 flacFile = (Own.id3v2 noFlags []).saveTo exOptions flacFile ∧
    removeFrom exOptions .id3v1 flacFile = .error .unsupported ∧ saveTo exOptions (Tag.new .id3v2) flacFile = removeFrom exOptions .id3v2 flacFile :=
  ⟨removes flac_verified exFair (by decide), remove_rejects flac_verified exOptions (by decide),
    empty_removes flac_verified exOptions (by decide) rfl rfl⟩

example : (saveAll exOptions .mpeg [titled .id3v1, titled .vorbisComments] mp3).isOk = true ∧
    saveAll exOptions .mpeg [titled .id3v1, titled .vorbisComments] mp3 = saveTo exOptions (titled .id3v1) mp3 := by
  decide +kernel

/-! ## Where it goes wrong -/

/-- **Empty tags of a type that the format does not have** pass the check.  Saving one to a FLAC file ends in
`unreachable!()`. -/
theorem empty_panics : saveTo exOptions (Tag.new .ape) flacFile = .error .panic := by decide +kernel

/-- The comments of an Opus file, and the tag of an MP4 file. -/
def comments (f : Bytes) : Option (List Vorbis.Item) := (OggWrite.read .opus ⟨.strict, true, true⟩ f).toOption.map (·.items)

/-- Saving an empty APE tag to an Opus file removes its comments. -/
theorem empty_erases_comments : comments OggWrite.opus = some [(str "TITLE", str "x")] ∧
    (saveTo exOptions (Tag.new .ape) OggWrite.opus).toOption.bind comments = some [] := by decide +kernel

/-- Saving an empty APE tag to an MP4 file removes its tag; so does an empty tag of any type. -/
theorem empty_erases_ilst (t : TagType) : Mp4Read.summary Mp4Read.exCfg mp4File = .ok (some Mp4Read.oldTag, 1) ∧
    saveTo exOptions (Tag.new t) mp4File = removeFrom exOptions .mp4Ilst mp4File := by
  refine ⟨by decide +kernel, ?_⟩
  unfold saveTo removeFrom
  rw [mp4_verified]
  cases t <;> rfl

/-- Saving empty comments of their own type to an MP3 file panics. -/
theorem empty_comments_panic : (Own.vorbisComments ⟨[], [], []⟩).saveTo exOptions mp3 = .error .panic := by decide +kernel

/-- `FlacFile::save_to` does not check the type of the file: any other than FLAC and OGG ends in a panic. -/
theorem flac_to_other_panics : saveFlac exOptions none (some ⟨[], [(str "A", str "b")], []⟩) [] mp3 = .error .panic := by
  decide +kernel

/-- A FLAC file with a picture. -/
def pictured : Bytes := ((Flac.writeTo flacFile Vorbis.exampleTag none).toOption).getD []

/-- The pictures and comments of a FLAC file that is saved without any stay as they are. -/
theorem flac_keeps_pictures : pictured ≠ [] ∧ saveFlac exOptions none none [] pictured = .ok pictured := by decide +kernel

/-- **The file of a format with a read-only tag is saved halfway**: a Monkey's Audio file with an ID3v2 tag in front cannot be
saved as it was read; the ID3v1 tag is written, the APE tag is not. -/
theorem saved_halfway :
    let v1 : Own := .id3v1 (Convert.id3v1Ref (titled .id3v1))
    let v2 : Own := .id3v2 noFlags [.leaf {} (.comment ⟨.utf8, (101, 110, 103), [], str "x"⟩)]
    let ape : Own := .ape ⟨false, [⟨false, str "Album", .text (str "y")⟩]⟩
    ∃ g, v1.saveTo exOptions FileTags.macFile = .ok g ∧ g ≠ FileTags.macFile ∧
      saveOwn exOptions [v1, v2, ape] FileTags.macFile = (.error .unsupported, g) :=
  ⟨((Own.id3v1 (Convert.id3v1Ref (titled .id3v1))).saveTo exOptions FileTags.macFile).toOption.getD [], by decide +kernel⟩

/-- **Other tags are not removed**: `remove_others` has no effect. -/
theorem others_stay (o : Options) (b : Bool) (t : Tag) (f : Bytes) : saveTo { o with removeOthers := b } t f = saveTo o t f := rfl

/-- An MP3 file with an ID3v1 and an APE tag. -/
def tagged : Bytes := mp3 ++ (FileTags.apeOf (str "y") ++ Ape.someV1)

/-- Saving another ID3v1 tag with that option leaves the APE tag where it is. -/
theorem others_stay_file : ∃ v1, saveTo { exOptions with removeOthers := true } (titled .id3v1) tagged =
    .ok (mp3 ++ (FileTags.apeOf (str "y") ++ v1)) ∧ v1 ≠ Ape.someV1 ∧ FileTags.apeOf (str "y") ≠ [] :=
  ⟨(Id3v1.encode true (Convert.id3v1Ref (titled .id3v1))).toOption.getD [], by decide +kernel⟩

end Lofty.Save
