import Verif.Props.Wanted
import Verif.Props.Untagged
import Verif.Props.AudioFiles
import Verif.Props.EndToEnd
import Verif.Props.Mp4Audio
/-!
# C75 and C76: files that meet the hypotheses, and files that do not

What is compared in the examples is a digest of what is read: for each tag its type and the number of its items and pictures, and the
generic properties.
-/
namespace Lofty.Opened
open Item Lofty.Save Lofty.FileTags Lofty.Iff Lofty.IffFiles

/-- The types, numbers of items and numbers of pictures of the tags, and the properties. -/
def digest (x : Except Err Shown) : Except Err (List (TagType × Nat × Nat) × Generic) := do
  let (ts, p) ← x
  .ok (ts.map fun t => (t.type, t.items.length, t.pictures.length), p)

/-! ## Files that meet the hypotheses -/

theorem digest_ok {x : Except Err Shown} {l : List (TagType × Nat × Nat)} {p : Generic} (h : digest x = .ok (l, p)) :
    ∃ ts, x = .ok (ts, p) ∧ ts.map (fun t => (t.type, t.items.length, t.pictures.length)) = l := by
  unfold digest at h
  obtain ⟨⟨ts, q⟩, h1, h⟩ := bind_ok h
  cases h
  exact ⟨ts, h1, rfl⟩

/-- An MPEG file with an APE tag. -/
theorem taggedMpeg : digest (wholeAs exRead ⟨true, true⟩ (threeFrames ++ apeOf (str "x")) .mpeg) =
    .ok ([(.ape, 1, 0)], ⟨216, some 10, some 8, some 8000, none, some 1, some 4⟩) := by
  decide +kernel

/-- C75 for it. -/
example : ∃ ts, wholeAs exRead ⟨true, true⟩ (threeFrames ++ apeOf (str "x")) .mpeg = .ok (ts, ⟨216, some 10, some 8, some 8000, none, some 1, some 4⟩) ∧
    wholeAs exRead ⟨true, false⟩ (threeFrames ++ apeOf (str "x")) .mpeg = .ok (ts, unread .mpeg) ∧ ts.length = 1 := by
  obtain ⟨ts, h, hl⟩ := digest_ok taggedMpeg
  refine ⟨ts, h, without_properties_partial exRead true (by decide) h, ?_⟩
  have := congrArg List.length hl
  rwa [List.length_map] at this

/-- An Opus file. -/
theorem taggedOpus : digest (wholeAs exRead ⟨true, true⟩ OggWrite.opus .opus) =
    .ok ([(.vorbisComments, 2, 0)], ⟨34, some 40, some 28, some 48000, none, some 2, some 3⟩) := by
  decide +kernel

/-- C76 for it: a tag is shown all the same. -/
example : ∃ t, wholeAs exRead ⟨false, true⟩ OggWrite.opus .opus = .ok ([t], ⟨34, some 40, some 28, some 48000, none, some 2, some 3⟩) ∧ Bare t ∧
    t.pictures = [] := by
  obtain ⟨ts, h, -⟩ := digest_ok taggedOpus
  obtain ⟨ts', h1, h2, h3⟩ := without_tags_partial exRead true (by decide) (by decide) (fun h => absurd h (by decide)) (fun h => absurd h (by decide)) h
  rcases h3 with rfl | ⟨-, h3, h4⟩ | ⟨h3, -⟩
  · exact absurd h1 (by decide +kernel)
  · match ts', h3 with
    | [t], _ => exact ⟨t, h1, h2 t (by simp), h4 t (by simp)⟩
  · cases h3

/-- A WavPack file with an APE tag. -/
theorem taggedWavPack : digest (wholeAs exRead ⟨true, true⟩ (wvFile ++ apeOf (str "x")) .wavPack) =
    .ok ([(.ape, 1, 0)], ⟨10000, some 0, some 0, some 44100, some 16, some 2, some 3⟩) := by
  decide +kernel

/-- C76 for it. -/
example : wholeAs exRead ⟨false, true⟩ (wvFile ++ apeOf (str "x")) .wavPack = .ok ([], ⟨10000, some 0, some 0, some 44100, some 16, some 2, some 3⟩) := by
  obtain ⟨ts, h, -⟩ := digest_ok taggedWavPack
  obtain ⟨ts', h1, -, h3⟩ := without_tags_partial exRead true (by decide) (by decide) (fun h => absurd h (by decide)) (fun h => absurd h (by decide)) h
  rcases h3 with rfl | ⟨h3, -⟩ | ⟨h3, -⟩
  · exact h1
  · exact absurd h3 (by decide)
  · cases h3

/-- A WAV file with a RIFF INFO list. -/
theorem taggedWav : digest (wholeAs exRead ⟨true, true⟩ (wav wavTagged) .wav) =
    .ok ([(.riffInfo, 1, 0)], ⟨2000, some 0, some 0, some 8, some 8, some 1, none⟩) := by
  decide +kernel

/-- C76 for it. -/
example : wholeAs exRead ⟨false, true⟩ (wav wavTagged) .wav = .ok ([], ⟨2000, some 0, some 0, some 8, some 8, some 1, none⟩) := by
  obtain ⟨ts, h, -⟩ := digest_ok taggedWav
  refine wav_without_tags_partial exRead true (its := fun _ => [(str "IART", str "a")]) ?_ (by decide +kernel) h
  intro d hd
  simp only [wavTagged, exWav, List.mem_append, List.mem_cons, List.not_mem_nil, or_false] at hd
  rcases hd with (rfl | rfl) | rfl
  · exact ⟨ok_fourcc (by simp) (by decide), by decide, fun h => absurd h (by decide)⟩
  · exact ⟨ok_fourcc (by simp) (by decide), by decide, fun h => absurd h (by decide)⟩
  · refine ⟨ok_fourcc (by simp) (by decide), fun _ => by decide, fun _ => ⟨[], by decide +kernel, by decide, ?_⟩⟩
    intro i hi
    rw [List.mem_singleton] at hi
    subst hi
    exact ⟨(validFourcc_iff (by decide)).mp (by decide), by decide, by decide⟩

/-- An MP4 file with two tracks, one of them of sound, and a tag. -/
def taggedMp4 : Bytes :=
  (Mp4Read.whole Mp4Write.ftyp (Mp4Props.aacTracks.append (.node (ascii "udta") (Mp4Write.Forest.nil.append (.leaf (ascii "meta")
    ([0, 0, 0, 0] ++ (Mp4Write.boxes [Mp4Write.hdlr] ++ (Ilst.box (ascii "ilst") (Mp4Read.oldTag.flatMap Ilst.atomBox) ++ Mp4Write.boxes []))) .nil)) .nil))
    (.leaf (ascii "mdat") (List.replicate 1000 0) .nil)).bytes

theorem taggedMp4_layout : Mp4Read.Layout taggedMp4 := by
  refine .tagged (brand := "M4A ".toList) ⟨⟨_, _, rfl, by decide, rfl⟩, ⟨?_, ?_⟩, ?_, by decide +kernel⟩ Mp4Props.aacFile_clear.moov1 trivial ?_ ?_
    (.inl ⟨rfl, by decide +kernel⟩) ?_ ?_
  case refine_1 => exact Mp4Props.aac_plain.front.1
  case refine_2 => exact Mp4Props.aac_plain.front.2
  case refine_3 =>
    refine Mp4Write.ok_append (Mp4Props.track_ok (Mp4Props.track_ok trivial)) ?_
    simp only [Mp4Write.Forest.append, Mp4Write.Forest.Ok, Mp4Write.IdOk, Mp4Write.IsContainer]
    decide
  all_goals simp only [Mp4Write.Forest.top, List.mem_singleton, forall_eq, Mp4Write.hdlr, Mp4Write.IdOk, Mp4Read.Other, List.not_mem_nil]
  all_goals first | decide | simp

/-- C75 and C76 for it. -/
example : ∃ t p, wholeAs exRead ⟨true, true⟩ taggedMp4 .mp4 = .ok ([t], p) ∧ t.items.length = 1 ∧ p.duration = 10500 ∧ p.sampleRate = some 48000 ∧
    wholeAs exRead ⟨true, false⟩ taggedMp4 .mp4 = .ok ([t], unread .mp4) ∧ wholeAs exRead ⟨false, true⟩ taggedMp4 .mp4 = .ok ([], p) := by
  have h : (digest (wholeAs exRead ⟨true, true⟩ taggedMp4 .mp4)).map (fun x => (x.1, x.2.duration, x.2.sampleRate)) =
      .ok ([(.mp4Ilst, 1, 0)], 10500, some 48000) := by decide +kernel
  have hL := taggedMp4_layout
  generalize taggedMp4 = f at h hL
  cases hx : wholeAs exRead ⟨true, true⟩ f .mp4 with
  | error e => rw [hx] at h; cases h
  | ok x =>
    obtain ⟨ts, p⟩ := x
    rw [hx] at h
    obtain ⟨h1, h2, h3⟩ : ts.map (fun t => (t.type, t.items.length, t.pictures.length)) = [(.mp4Ilst, 1, 0)] ∧ p.duration = 10500 ∧
        p.sampleRate = some 48000 := by
      simpa [digest, Except.map, Bind.bind, Except.bind] using h
    obtain ⟨t, rfl⟩ : ∃ t, ts = [t] := by
      have := congrArg List.length h1
      rw [List.length_map] at this
      exact List.length_eq_one_iff.mp this
    · have h1 : t.type = .mp4Ilst ∧ t.items.length = 1 ∧ t.pictures.length = 0 := by simpa using h1
      exact ⟨t, p, rfl, h1.2.1, h2, h3, mp4_without_properties_partial exRead true hL hx, mp4_without_tags_partial exRead true hL hx⟩

/-! ## Files that do not -/

/-- **C76 fails** for FLAC files with pictures: without tags, a tag with the pictures is shown. -/
theorem flac_pictures_shown : digest (wholeAs exRead ⟨false, false⟩ pictured .flac) = .ok ([(.vorbisComments, 1, 1)], unread .flac) := by
  decide +kernel

/-- **C76 fails** for Monkey's Audio files with an APE tag: the bit rate depends on whether the tag was read. -/
theorem mac_rate : (digest (wholeAs exRead ⟨true, true⟩ (macFile ++ apeOf (str "x")) .ape)).map (fun x => x.2.overall) = .ok (some 3) ∧
    (digest (wholeAs exRead ⟨false, true⟩ (macFile ++ apeOf (str "x")) .ape)).map (fun x => x.2.overall) = .ok (some 2) := by
  decide +kernel

/-- **C76 fails** for MPEG files with an APE tag that is longer than the audio: without tags the file cannot be read at all. -/
theorem mpeg_long_ape : (wholeAs exRead ⟨true, true⟩ (threeFrames ++ apeOf (List.replicate 300 'x')) .mpeg).isOk = true ∧
    wholeAs exRead ⟨false, true⟩ (threeFrames ++ apeOf (List.replicate 300 'x')) .mpeg = .error .sizeMismatch := by
  refine ⟨by decide +kernel, ?_⟩
  have h : (wholeAs exRead ⟨false, true⟩ (threeFrames ++ apeOf (List.replicate 300 'x')) .mpeg).map (fun _ => ()) = .error .sizeMismatch := by decide +kernel
  cases hx : wholeAs exRead ⟨false, true⟩ (threeFrames ++ apeOf (List.replicate 300 'x')) .mpeg with
  | error e => rw [hx] at h; cases h; rfl
  | ok x => rw [hx] at h; cases h

/-- A WAV file whose RIFF INFO list claims more than it has. -/
def shortInfo : Bytes :=
  wav [(ascii "LIST", ascii "INFO" ++ ascii "INAM" ++ leBytes 4 6 ++ List.replicate 4 65), (ascii "fmt ", Lossless.fmtChunk 1 1 8000 8000 1 8 []),
    (ascii "data", List.replicate 80 5)]

/-- **C76 fails** for WAV files with a broken RIFF INFO list: it is read without complaint, but the position in the file is lost, and
the properties are not found any more. -/
theorem wav_lost : (wholeAs exRead ⟨true, true⟩ shortInfo .wav).map (fun _ => ()) = .error .parse ∧
    digest (wholeAs exRead ⟨true, false⟩ shortInfo .wav) = .ok ([(.riffInfo, 1, 0)], unread .wav) ∧
    digest (wholeAs exRead ⟨false, true⟩ shortInfo .wav) = .ok ([], ⟨10, some 118, some 64, some 8000, some 8, some 1, none⟩) := by
  decide +kernel

/-- An MP4 file with user data in its track. -/
def trackTagged : Bytes :=
  (Mp4Read.whole Mp4Write.ftyp (.node (ascii "trak") (.node (ascii "mdia") (Mp4Props.mediaIn (Mp4Props.mdhd0 [0, 0, 0] (List.replicate 8 0) 48000 504000 [0, 0, 0, 0])
    "soun" (.leaf (ascii "stsd") Mp4Props.aacStsd .nil)) (Mp4Read.userData [] .nil)) .nil) (.leaf (ascii "mdat") (List.replicate 1000 0) .nil)).bytes

/-- **C75 fails** for it: what is in the track is taken for the tag of the file, but only if the properties are read. -/
theorem mp4_track_tag : (digest (wholeAs exRead ⟨true, true⟩ trackTagged .mp4)).map (fun x => x.1) = .ok [(.mp4Ilst, 1, 0)] ∧
    (digest (wholeAs exRead ⟨true, false⟩ trackTagged .mp4)).map (fun x => x.1) = .ok [] := by
  decide +kernel

/-- An MP4 file whose user data ends in four zero bytes and comes in front of the tracks. -/
def terminatedMp4 : Bytes :=
  (Mp4Read.whole Mp4Write.ftyp (Mp4Read.userData [0, 0, 0, 0] Mp4Props.aacTracks) (.leaf (ascii "mdat") (List.replicate 1000 0) .nil)).bytes

/-- **C76 fails** for it: the properties can be read only without the tag. -/
theorem mp4_terminator : (wholeAs exRead ⟨true, true⟩ terminatedMp4 .mp4).map (fun _ => ()) = .error .parse ∧
    (digest (wholeAs exRead ⟨false, true⟩ terminatedMp4 .mp4)).map (fun x => (x.1, x.2.duration)) = .ok ([], 10500) := by
  decide +kernel

/-- What properties are shown for files whose properties were not read: a channel mask for MPEG files, no bit rates for MP4 files. -/
theorem not_read : unread .mpeg = ⟨0, some 0, some 0, some 0, none, some 0, some 3⟩ ∧
    unread .aac = ⟨0, some 0, some 0, some 0, none, some 0, none⟩ ∧ unread .mp4 = ⟨0, none, none, none, none, none, none⟩ := ⟨rfl, rfl, rfl⟩

end Lofty.Opened
