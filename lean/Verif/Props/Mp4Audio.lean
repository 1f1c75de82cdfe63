import Verif.Props.Mp4Props
/-!
# C63: examples of files, and where the properties go wrong
-/
namespace Lofty.Mp4Props
open Lofty.Text Lofty.Mp4 Lofty.Ilst Lofty.Mp4Write Lofty.Mp4Read
open Lofty.Lossless (nearest)

/-! ## Sample descriptions -/

/-- A stereo entry of version 0. -/
def entry : Entry := ⟨[0, 0, 0, 0, 0, 0, 0, 1], 0, List.replicate 6 0, 2, [0, 16, 0, 0, 0, 0], 44100, 0, []⟩

theorem entry_ok : entry.Ok := ⟨rfl, .inl ⟨rfl, rfl⟩, rfl, by decide, rfl, by decide⟩

/-- A stereo entry of version 1, as QuickTime writes it. -/
def entry1 : Entry := { entry with version := 1, extra := List.replicate 16 3 }

theorem entry1_ok : entry1.Ok := ⟨rfl, .inr ⟨rfl, rfl⟩, rfl, by decide, rfl, by decide⟩

/-- Lengths of one byte and of four. -/
theorem len1 (b : UInt8) (h : b < 0x80) : LenOk [b] := ⟨[], b, rfl, by decide, by simp, h⟩
theorem len4 (b : UInt8) (h : b < 0x80) : LenOk [0x80, 0x80, 0x80, b] := ⟨[0x80, 0x80, 0x80], b, rfl, by decide, by decide, h⟩

/-- An `esds` atom with the given codec, average bit rate and configuration. -/
def esds (codec average : Nat) (config : Bytes) : Bytes :=
  box (ascii "esds") (esdsOf [0x80, 0x80, 0x80, 34] [0x80, 0x80, 0x80, 20] [2] [0, 1, 0] codec [21, 0, 0, 0, 0, 1, 0, 0] average config)

/-- AAC LC at 48 kHz, 5.1 channels in a stereo entry, 128000 bits per second. -/
def aacStsd : Bytes := stsdOf [0, 0, 0, 0] 1 (ascii "mp4a") entry (esds 0x40 128000 (configOf 2 3 6 0)) []

theorem aac_example (mode : Mode) (limit : Nat) (p : Props) : readStsd mode limit aacStsd p =
    .ok { p with codec := some .aac, objectType := some 2, sampleRate := some 48000, channels := some 6, audio := some 128 } := by
  have h := aac_fields (flags := [0, 0, 0, 0]) (count := 1) (e := entry) (l1 := [0x80, 0x80, 0x80, 34]) (l2 := [0x80, 0x80, 0x80, 20]) (l3 := [2])
    (stream := [0, 1, 0]) (sizes := [21, 0, 0, 0, 0, 1, 0, 0]) (kids := []) (rest := []) (tail := []) (codec := 0x40) (average := 128000)
    (type := 2) (frequency := 3) (channels := 6) (more := 0) rfl (by decide) entry_ok (len4 _ (by decide)) (len4 _ (by decide)) (len1 _ (by decide))
    rfl rfl (by decide) (by decide) (by decide) (by decide) (by decide) (by decide) (by decide) (by decide +kernel) mode limit p
  simp only [List.append_nil] at h
  exact h

/-- A Layer III stream (type 34) at 44.1 kHz in an entry of version 1; no bit rate. -/
example (mode : Mode) (limit : Nat) (p : Props) (hp : p.duration ≠ 0) :
    readStsd mode limit (stsdOf [0, 0, 0, 0] 1 (ascii "mp4a") entry1 (esds 0x6B 0 (escapedConfigOf 34 4 0 0 ++ []) ++ []) [9, 9]) p =
      .ok { p with codec := some .mp3, objectType := some 34, sampleRate := some 44100, channels := some 2 } := by
  have h := escaped_fields (flags := [0, 0, 0, 0]) (count := 1) (e := entry1) (l1 := [0x80, 0x80, 0x80, 34]) (l2 := [0x80, 0x80, 0x80, 20]) (l3 := [2])
    (stream := [0, 1, 0]) (sizes := [21, 0, 0, 0, 0, 1, 0, 0]) (kids := []) (rest := [9, 9]) (tail := []) (codec := 0x6B) (average := 0)
    (type := 34) (frequency := 4) (more := 0) rfl (by decide) entry1_ok (len4 _ (by decide)) (len4 _ (by decide)) (len1 _ (by decide))
    rfl rfl (by decide) (by decide) (by decide) (by decide) (by decide) (by decide) (by decide +kernel) mode limit p
  rw [if_neg (by omega)] at h
  exact h

/-- Audio Lossless Coding with 5 channels at 96 kHz. -/
example (mode : Mode) (limit : Nat) (p : Props) :
    readStsd mode limit (stsdOf [0, 0, 0, 0] 1 (ascii "mp4a") entry (esds 0x40 900000 (alsOf 96000 96000 1000 5 ++ []) ++ []) []) p =
      .ok { p with codec := some .aac, objectType := some 36, sampleRate := some 96000, channels := some 5, audio := some 900 } :=
  als_fields (flags := [0, 0, 0, 0]) (count := 1) (e := entry) (l1 := [0x80, 0x80, 0x80, 34]) (l2 := [0x80, 0x80, 0x80, 20]) (l3 := [2])
    (stream := [0, 1, 0]) (sizes := [21, 0, 0, 0, 0, 1, 0, 0]) rfl (by decide) entry_ok (len4 _ (by decide)) (len4 _ (by decide)) (len1 _ (by decide))
    rfl rfl (by decide) (by decide) (by decide) (by decide) (by decide) (by decide +kernel) mode limit p

/-- The inner atom of Apple Lossless, 24 bits, stereo, 96 kHz. -/
def alacBox (average : Nat) : Bytes :=
  box (ascii "alac") (cookieOf [0, 0, 0, 0] [0, 0, 16, 0] 0 24 [40, 10, 14] 2 [0, 255, 0, 0, 64, 0] average 96000)

/-- Apple Lossless: the sample entry says 44100. -/
example (mode : Mode) (limit : Nat) (p : Props) :
    readStsd mode limit (stsdOf [0, 0, 0, 0] 1 (ascii "alac") entry (alacBox 2304000) []) p =
      .ok { p with codec := some .alac, bitDepth := some 24, channels := some 2, audio := some 2304, sampleRate := some 96000 } :=
  alac_fields rfl (by decide) entry_ok rfl rfl rfl rfl rfl (by decide) (by decide) (by decide) (by decide) mode limit p

/-- FLAC, 24 bits, stereo, 192 kHz. -/
example (mode : Mode) (p : Props) :
    readStsd mode 100 (stsdOf [0, 0, 0, 0] 1 (ascii "fLaC") entry
      (box (ascii "dfLa") ([0, 0, 0, 0] ++ ([0x80] ++ (beBytes 3 34 ++ (Lossless.streamInfo 0x10001000 0 192000 2 24 1000 0 ++ [])))) ++ []) []) p =
      .ok { p with codec := some .flac, bitDepth := some 24, channels := some 2, sampleRate := some 192000 } :=
  flac_mp4_fields rfl (by decide) entry_ok rfl (by decide) (by decide) (by decide) (by decide) (by decide) (by decide) (by decide)
    (by decide +kernel) mode 100 (by decide) p

/-! ## A whole file -/

/-- A handler of the given type. -/
def handler (type : String) : Bytes := List.replicate 8 0 ++ ascii type ++ List.replicate 13 0

/-- A track with the given header, sample description and time table. -/
def track (mdhd : Bytes) (type : String) (stsd : Bytes) (stts : List (Nat × Nat)) (rest : Forest) : Forest :=
  .node (ascii "trak") (.leaf (ascii "tkhd") (List.replicate 84 0) (.node (ascii "mdia")
    (.leaf (ascii "mdhd") mdhd (.leaf (ascii "hdlr") (handler type)
      (.node (ascii "minf") (.leaf (ascii "smhd") (List.replicate 8 0) (.node (ascii "stbl")
        (.leaf (ascii "stsd") stsd (.leaf (ascii "stts") (sttsOf [0, 0, 0, 0] stts)
          (.leaf (ascii "stco") ([0, 0, 0, 0] ++ beBytes 4 1 ++ beBytes 4 1000) .nil))) .nil)) .nil))) .nil)) rest

/-- The tracks of the file: a video track, and one of 10.5 seconds of AAC at a time scale of 48000. -/
def aacTracks : Forest :=
  track (mdhd0 [0, 0, 0] (List.replicate 8 0) 600 6300 [0, 0, 0, 0]) "vide" [0, 0, 0, 0, 0, 0, 0, 0] [(10, 630)]
    (track (mdhd1 [0, 0, 0] (List.replicate 16 0) 48000 504000 [0, 0, 0, 0]) "soun" aacStsd [(492, 1024), (1, 192)] .nil)

/-- A file with these tracks, a tag, and 10000 bytes of audio. -/
def aacFile : File := { file [] with
  moov1 := aacTracks
  after := .leaf (ascii "mdat") (List.replicate 10000 0) .nil }

theorem track_ok {mdhd : Bytes} {type : String} {stsd : Bytes} {stts : List (Nat × Nat)} {rest : Forest} (h : rest.Ok) :
    (track mdhd type stsd stts rest).Ok := by
  simp only [track, Forest.Ok, IdOk, IsContainer]
  repeat' apply And.intro
  all_goals first | decide | exact trivial | exact h

theorem aacFile_ok : aacFile.Ok := by
  refine ⟨⟨_, _, rfl, ⟨by decide, "M4A ".toList, rfl⟩⟩, ⟨?_, ?_, ?_⟩, ⟨?_, ?_⟩, ⟨?_, ?_, ?_, ?_⟩, ⟨?_, ?_, ?_⟩, ⟨?_, ?_, ?_, ?_⟩, ⟨?_, ?_, ?_⟩, ⟨?_, ?_⟩, ⟨?_, ?_⟩, .inl ⟨rfl, ?_⟩, ?_, ?_⟩
  case refine_6 => exact track_ok (track_ok trivial)
  case refine_24 => decide +kernel
  case refine_26 => decide +kernel
  all_goals simp only [aacFile, aacTracks, track, file, ftyp, Mp4Write.mdat, stbl, Forest.Ok, Forest.Tables, Forest.top, Forest.names, IdOk, IsContainer, hdlr, tableCount]
  all_goals first | decide | decide +kernel | simp

theorem aacFile_clear : Clear aacFile := by
  refine ⟨?_, trivial, ?_, ?_, ?_⟩
  · simp only [aacFile, aacTracks, track, Silent, Forest.top, Other]
    decide
  · simp only [aacFile, file, Forest.top, List.mem_singleton, forall_eq, Other]; decide
  · simp only [aacFile, file, List.mem_singleton, forall_eq, hdlr]; decide
  · intro i hi; cases hi

/-- The media of a track. -/
def mediaIn (mdhd : Bytes) (type : String) (tables : Forest) : Forest :=
  .leaf (ascii "mdhd") mdhd (.leaf (ascii "hdlr") (handler type)
    (.node (ascii "minf") (.leaf (ascii "smhd") (List.replicate 8 0) (.node (ascii "stbl") tables .nil)) .nil))

theorem only_of {id c : Bytes} {f : Forest} (h : (items f).filter (fun x => x.1 = id) = [(id, c)]) : Only id c f := by
  have h1 : ∀ d, (id, d) ∈ items f ↔ d = c := by
    intro d
    have : (id, d) ∈ (items f).filter (fun x => x.1 = id) ↔ (id, d) ∈ items f := by simp
    rw [← this, h, List.mem_singleton]
    simp
  exact ⟨(h1 c).mpr rfl, fun d hd => (h1 d).mp hd⟩

theorem aac_audio : Audio aacFile.before (aacFile.moov aacFile.space) aacFile.after 48000 504000 aacStsd (some [(492, 1024), (1, 192)]) 10000 := by
  refine ⟨⟨[mediaIn (mdhd0 [0, 0, 0] (List.replicate 8 0) 600 6300 [0, 0, 0, 0]) "vide" _],
    mediaIn (mdhd1 [0, 0, 0] (List.replicate 16 0) 48000 504000 [0, 0, 0, 0]) "soun" _, [], rfl, ?_, ?_, ?_,
    .leaf (ascii "mdhd") _ (.leaf (ascii "hdlr") _ .nil), .leaf (ascii "smhd") _ .nil, _, .nil, rfl, by decide, by decide, only_of (by rfl),
    _, only_of (by rfl), [0, 0, 0, 0], rfl, by decide, by decide, rfl⟩, List.replicate 10000 0, by rfl, List.length_replicate⟩
  · intro m hm
    rw [List.mem_singleton] at hm
    subst hm
    constructor
    · rintro ⟨c, h1, h2, h3⟩
      have : c = handler "vide" := (only_of (id := ascii "hdlr") (c := handler "vide") (by rfl)).2 c h1
      subst this
      revert h3
      decide
    · unfold MinfLast
      decide +kernel
  · exact ⟨handler "soun", by decide +kernel, by decide, by decide⟩
  · exact ⟨_, only_of (by rfl), by decide, .inr ⟨[0, 0, 0], List.replicate 16 0, [0, 0, 0, 0], rfl, rfl, by decide, rfl⟩⟩

/-- **C63, an example.** What is read of the file as it is: 10500 milliseconds. -/
theorem aac_file_props : ∃ b p, readFile exCfg aacFile.bytes = .ok (b, some [], some p) ∧ p.duration = 10500 ∧ p.codec = some .aac ∧
    p.sampleRate = some 48000 ∧ p.channels = some 6 ∧ p.audio = some 7 ∧ p.bitDepth = none := by
  obtain ⟨brand, hok, hr⟩ := read_file aacFile aacFile_ok aacFile_clear exCfg rfl
  have h0 : (if aacFile.ilst.length > exCfg.limit then .error .alloc else parse exCfg.opts aacFile.ilst) = .ok [] := by decide +kernel
  rw [h0, ok_bind] at hr
  have h := file_props_partial hok aacFile_ok.after.1 aac_audio exCfg rfl hr (by decide +kernel) (by intro l hl; injection hl with hl; subst hl; decide)
    (by decide) (by decide) (by decide) (by decide) (aac_example _ _ _)
  exact ⟨_, _, h, by decide, rfl, rfl, rfl, by decide, rfl⟩

theorem aac_limits : ∀ l, some [(492, 1024), (1, 192)] = some l → l.length ≤ exCfg.limit := by
  intro l hl
  injection hl with hl
  subst hl
  decide

/-- Saving moves the audio, and the properties stay. -/
example : ∃ f b p p', writeTo aacFile.bytes sample .strict (some 1024) = .ok f ∧
    readFile exCfg f = .ok (b, some sample, some p') ∧ p'.Same p ∧ p.duration = 10500 := by
  obtain ⟨b, p, h, hd, _⟩ := aac_file_props
  obtain ⟨f, p', h1, h2, h3⟩ := save_props_partial _ aacFile_ok aacFile_clear sample (by decide) exCfg rfl rfl sample_ok
    (by decide +kernel) .strict (some 1024) (by intro k h; injection h with h; subst h; decide) (by decide +kernel) aac_audio
    (by decide +kernel) aac_limits h
  exact ⟨f, b, p, p', h1, h2, h3, hd⟩

/-- Removing. -/
example : ∃ f b p p', writeTo aacFile.bytes [] .strict none = .ok f ∧
    readFile exCfg f = .ok (b, none, some p') ∧ p'.Same p ∧ p.duration = 10500 := by
  obtain ⟨b, p, h, hd, _⟩ := aac_file_props
  obtain ⟨f, p', h1, h2, h3⟩ := remove_props_partial _ aacFile_ok aacFile_clear (by decide) exCfg rfl rfl .strict none aac_audio
    (by decide +kernel) aac_limits h
  exact ⟨f, b, p, p', h1, h2, h3, hd⟩

/-- Creating the first tag, in a file without. -/
theorem aac_plain : Plain ftyp aacTracks aacFile.after := by
  refine ⟨⟨_, _, rfl, by decide, "M4A ".toList, rfl⟩, ⟨?_, ?_⟩, track_ok (track_ok trivial), aacFile_ok.after.1, by decide +kernel⟩
  all_goals simp only [ftyp, Forest.Ok, Forest.top, IdOk, IsContainer]
  all_goals first | decide | simp

example : ∃ f b p p', readFile exCfg (whole ftyp aacTracks aacFile.after).bytes = .ok (b, none, some p) ∧
    writeTo (whole ftyp aacTracks aacFile.after).bytes sample .strict none = .ok f ∧
    readFile exCfg f = .ok (b, some sample, some p') ∧ p'.Same p ∧ p.duration = 10500 := by
  have ha : Audio ftyp aacTracks aacFile.after 48000 504000 aacStsd (some [(492, 1024), (1, 192)]) 10000 :=
    audio_same aac_audio (by rw [medias_region]; rfl)
  have hok : FileOk ftyp aacTracks aacFile.after "M4A ".toList :=
    ⟨⟨_, _, rfl, by decide, rfl⟩, aac_plain.front, aac_plain.inner, aac_plain.size⟩
  have hsil : Silent aacTracks := aacFile_clear.moov1
  have h := file_props_partial hok aac_plain.back ha exCfg rfl (read_silent hok hsil exCfg) (by decide +kernel) aac_limits
    (by decide) (by decide) (by decide) (by decide) (aac_example _ _ _)
  obtain ⟨f, p', _, h1, h2, h3⟩ := create_props_partial aac_plain hsil (by decide) sample (by decide) exCfg rfl rfl sample_ok
    (by decide +kernel) .strict none (by decide +kernel) ha (by decide +kernel) aac_limits h
  exact ⟨f, _, _, p', h, h1, h2, h3, by decide⟩

/-! ## Where it goes wrong -/

/-- The type, sample rate and channels read from a sample description. -/
def fields (stsd : Bytes) : Except Err (Option Codec × Option Nat × Option Nat × Option Nat) := do
  let p ← readStsd .relaxed 1000 stsd {}
  .ok (p.codec, p.objectType, p.sampleRate, p.channels)

/-- The description of an `mp4a` entry with the given configuration. -/
def mp4aStsd (config : Bytes) : Bytes := stsdOf [0, 0, 0, 0] 1 (ascii "mp4a") entry (esds 0x40 128000 config) []


/-- **C63 fails** for the types from 40: the six bits of the type are joined with `|` where the upper three have to be shifted, so
that 42 (USAC) is reported as 35 (DST), 40 as 33. -/
theorem type_garbled : fields (mp4aStsd (escapedConfigOf 42 3 0 0)) = .ok (some .aac, some 35, some 48000, some 2) ∧
    fields (mp4aStsd (escapedConfigOf 40 3 0 0)) = .ok (some .aac, some 33, some 48000, some 2) := by decide +kernel

/-- **C63 fails** for the types from 32 with a channel configuration: two channels are reported as 64. -/
theorem channels_garbled : fields (mp4aStsd (escapedConfigOf 34 3 2 0)) = .ok (some .aac, some 34, some 48000, some 64) := by decide +kernel

/-- **C63 fails** for sampling frequencies that are not in the table: 44100 Hz and two channels given in this way are
reported as 11289632 Hz and three. -/
theorem explicit_garbled : fields (mp4aStsd (explicitConfigOf 2 44100 2 0 ++ [6, 1, 2])) = .ok (some .aac, some 2, some 11289632, some 3) := by decide +kernel

/-- **C63 fails** for channel configuration 7, which stands for eight channels: seven are reported. -/
theorem seven_one : fields (mp4aStsd (configOf 2 4 7 0)) = .ok (some .aac, some 2, some 44100, some 7) := by decide +kernel

/-- The reserved frequency indices give a sample rate of zero. -/
theorem reserved_rate : fields (mp4aStsd (configOf 2 13 2 0)) = .ok (some .aac, some 2, some 0, some 2) := by decide +kernel

/-- **C63 fails** for Audio Lossless Coding with 256 channels, which panics (in builds that check for overflow), and with more,
of which only the remainder is reported. -/
theorem als_channels : fields (mp4aStsd (alsOf 48000 48000 1000 256)) = .error .panic ∧
    fields (mp4aStsd (alsOf 48000 48000 1000 300)) = .ok (some .aac, some 36, some 48000, some 44) := by decide +kernel

/-- **C63 fails** when the first sample entry is of another kind and the second is the audio: the rest of the first entry is not
passed, and what follows is taken for an atom. -/
theorem second_entry : fields (stsdOf [0, 0, 0, 0] 2 (ascii "text") entry [] (box (ascii "mp4a") (entry.bytes ++ esds 0x40 128000 (configOf 2 3 6 0)))) =
    .error .parse := by decide +kernel

/-- **C63 fails** for Apple Lossless when the sample descriptions do not have 80 bytes, for example since there is a channel layout,
or since the entry is of version 1: the codec is not recognised. -/
theorem alac_unknown :
    fields (stsdOf [0, 0, 0, 0] 1 (ascii "alac") entry (alacBox 2304000 ++ box (ascii "chan") [0, 0, 0, 0, 0, 0x67, 0, 1, 0, 0, 0, 0, 0, 0, 0, 0]) []) =
      .ok (none, none, some 44100, some 2) ∧
    fields (stsdOf [0, 0, 0, 0] 1 (ascii "alac") entry1 (alacBox 2304000) []) = .ok (none, none, some 44100, some 2) := by decide +kernel

/-- A `dfLa` atom that is too short panics (in builds that check for overflow). -/
theorem dfla_short : fields (stsdOf [0, 0, 0, 0] 1 (ascii "fLaC") entry (box (ascii "dfLa") [0, 0, 0]) []) = .error .panic := by decide +kernel

/-- A long duration overflows (in builds that check for it). -/
theorem duration_panics : millis 1 (2 ^ 55) = .error .panic := by decide +kernel

/-- A file whose track has `minf` before the handler. -/
def early : Forest := .node (ascii "trak") (.node (ascii "mdia")
  (.node (ascii "minf") (.leaf (ascii "smhd") (List.replicate 8 0) (.node (ascii "stbl") (.leaf (ascii "stsd") aacStsd .nil) .nil))
    (.leaf (ascii "mdhd") (mdhd0 [0, 0, 0] (List.replicate 8 0) 48000 504000 [0, 0, 0, 0]) (.leaf (ascii "hdlr") (handler "soun") .nil))) .nil) .nil

/-- **C63 fails** when `minf` comes before other atoms of `mdia`: it is not passed, so that the handler is not found, and the file
has no audio. -/
theorem minf_first : readFile { exCfg with tags := false } (whole ftyp early (.leaf (ascii "mdat") [1, 2, 3] .nil)).bytes = .error .parse := by
  decide +kernel

end Lofty.Mp4Props
