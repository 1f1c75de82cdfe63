import Verif.Props.EndToEnd
/-!
# C74: removing a tag removes that tag and nothing else

A tag is removed from a file (`removeFrom`), and the file is opened before and after that.
-/
namespace Lofty.Opened
open Item Lofty.Save Lofty.Convert FileType FileType.Spec

/-! ## Tags in front of the audio and behind it -/

/-- A file with these tags around the audio, opened: as `open_around`, for tags that were saved in any way. -/
theorem open_saves {r : ReadOptions} {ft : FileType} {audio g : Bytes} {l : List FileTags.Save} (hft : ft ∈ around)
    (ha : FileTags.Audio r.files audio) (hv : verified audio = .ok ft) (hpl : Playable ft audio)
    (hl : ∀ s ∈ l, s.Ok r.files audio)
    (hfoot : ∀ fl w p fs, .id3v2 fl w p fs ∈ l → fl.footer = false ∧ ft ∈ behindId3 ∨ (ft = .mpeg ∨ ft = .aac) ∧ Magic ft audio)
    (hg : FileTags.runAll r.junk l audio = .ok g) :
    let T := l.foldl (FileTags.Tags.after r.files) ⟨none, none, none⟩
    verified g = .ok ft ∧
    ∃ d0, ∀ d, d0 ≤ d → ∃ xs, openFile { r with depth := d } g = .ok xs ∧ tagIn .id3v2 xs = T.id3v2.map (ofId3v2 r.custom) ∧
      tagIn .id3v1 xs = T.id3v1.map ofId3v1 ∧ (ft ≠ .aac → tagIn .ape xs = T.ape.map ofApe) ∧ (ft = .aac → tagIn .ape xs = none) ∧
      ∀ ty, ty ∉ [TagType.id3v2, .id3v1, .ape] → tagIn ty xs = none := by
  intro T
  have hty := audio_type_partial (o := r.files) ha hv l hl hfoot hg
  refine ⟨hty, ?_⟩
  have hopen : ∀ d, openFile { r with depth := d } g = openAs { r with depth := d } g ft := by
    intro d
    unfold openFile
    rw [hty]
    rfl
  have hno : ∀ a b c ty, ty ∉ [TagType.id3v2, .id3v1, .ape] → tagIn ty (tagsOf r.custom a b c) = none := by
    intro a b c ty h
    have h2 : ∀ x, (ofId3v2 r.custom x).type = .id3v2 := fun _ => rfl
    have h3 : ∀ x, (ofApe x).type = .ape := fun _ => rfl
    unfold tagIn tagsOf
    cases a <;> cases b <;> cases c <;> cases ty <;> simp_all [ofId3v1_type]
  have hnm : ∀ m ty, ty ∉ [TagType.id3v2, .id3v1, .ape] → tagIn ty (macTagsOf r.custom m) = none := by
    intro m ty h
    have h2 : ∀ x, (ofId3v2 r.custom x).type = .id3v2 := fun _ => rfl
    have h3 : ∀ x, (ofApe x).type = .ape := fun _ => rfl
    obtain ⟨a, b, c, n⟩ := m
    unfold tagIn macTagsOf
    cases a <;> cases b <;> cases c <;> cases ty <;> simp_all [ofId3v1_type]
  simp only [around, List.mem_cons, List.not_mem_nil, or_false] at hft
  rcases hft with rfl | rfl | rfl | rfl | rfl
  · obtain ⟨h, k, hk⟩ := hpl
    obtain ⟨-, d0, h0⟩ := FileTags.mpeg_saves_partial (o := r.files) rfl rfl ha hk _ hl hg
    refine ⟨d0, fun d hd' => ?_⟩
    obtain ⟨m, hm, hT⟩ := h0 d hd'
    obtain ⟨e1, e2, e3⟩ := tagIn_tagsOf r.custom m.id3v2 m.id3v1 m.ape
    refine ⟨tagsOf r.custom m.id3v2 m.id3v1 m.ape, ?_, ?_, ?_, fun _ => ?_, nofun, hno _ _ _⟩
    · rw [hopen]
      show (FileTags.readMpeg { r.files with depth := d } g).map _ = _
      rw [hm]
      rfl
    · rw [e1, show T.id3v2 = m.id3v2 from congrArg FileTags.Tags.id3v2 hT.symm]
    · rw [e2, show T.id3v1 = m.id3v1 from congrArg FileTags.Tags.id3v1 hT.symm]
    · rw [e3, show T.ape = m.ape from congrArg FileTags.Tags.ape hT.symm]
  · obtain ⟨h, k, hk⟩ := hpl
    obtain ⟨d0, h0⟩ := FileTags.aac_saves_partial (o := r.files) rfl rfl ha hk _ hl hg
    refine ⟨d0, fun d hd' => ?_⟩
    obtain ⟨m, hm, hT1, hT2⟩ := h0 d hd'
    obtain ⟨e1, e2, e3⟩ := tagIn_tagsOf r.custom m.id3v2 m.id3v1 none
    refine ⟨tagsOf r.custom m.id3v2 m.id3v1 none, ?_, ?_, ?_, fun h => absurd rfl h, fun _ => e3, hno _ _ _⟩
    · rw [hopen]
      show (FileTags.readAac { r.files with depth := d } g).map _ = _
      rw [hm]
      rfl
    · rw [e1, hT1]
    · rw [e2, hT2]
  · obtain ⟨d0, h0⟩ := FileTags.mac_saves_partial (o := r.files) rfl ha hpl _ hl hg
    refine ⟨d0, fun d hd' => ?_⟩
    obtain ⟨m, hm, -, hT⟩ := h0 d hd'
    obtain ⟨e1, e2, e3⟩ := tagIn_macTagsOf r.custom m
    refine ⟨macTagsOf r.custom m, ?_, ?_, ?_, fun _ => ?_, nofun, hnm _⟩
    · rw [hopen]
      show (FileTags.readMac { r.files with depth := d } g).map _ = _
      rw [hm]
      rfl
    · rw [e1, show T.id3v2 = m.id3v2 from congrArg FileTags.Tags.id3v2 hT.symm]
    · rw [e2, show T.id3v1 = m.id3v1 from congrArg FileTags.Tags.id3v1 hT.symm]
    · rw [e3, show T.ape = m.ape from congrArg FileTags.Tags.ape hT.symm]
  · obtain ⟨d0, h0⟩ := FileTags.mpc_saves_partial (o := r.files) rfl ha _ hl hg
    refine ⟨d0, fun d hd' => ?_⟩
    obtain ⟨m, hm, -, hT⟩ := h0 d hd'
    obtain ⟨e1, e2, e3⟩ := tagIn_tagsOf r.custom m.id3v2 m.id3v1 m.ape
    refine ⟨tagsOf r.custom m.id3v2 m.id3v1 m.ape, ?_, ?_, ?_, fun _ => ?_, nofun, hno _ _ _⟩
    · rw [hopen]
      show (FileTags.readMpc { r.files with depth := d } g).map _ = _
      rw [hm]
      rfl
    · rw [e1, show T.id3v2 = m.id3v2 from congrArg FileTags.Tags.id3v2 hT.symm]
    · rw [e2, show T.id3v1 = m.id3v1 from congrArg FileTags.Tags.id3v1 hT.symm]
    · rw [e3, show T.ape = m.ape from congrArg FileTags.Tags.ape hT.symm]
  · refine ⟨0, fun d _ => ?_⟩
    obtain ⟨m, hm, -, hT⟩ := FileTags.wavpack_saves_partial (o := { r.files with depth := d }) rfl
      ⟨ha.long, ha.junk, ha.start, ha.noId3v2, ha.noApe, ha.noApe8, ha.noApeEnd, ha.noId3v1⟩ l (fun s hs => by
        have := hl s hs
        cases s <;> exact this) (fun fl w p fs h => by
        rcases hfoot fl w p fs h with ⟨-, h⟩ | ⟨h | h, -⟩
        · exact absurd h (by decide)
        · cases h
        · cases h) hg
    obtain ⟨e1, e2, e3⟩ := tagIn_macTagsOf r.custom m
    have hT' : (⟨m.id3v2, m.id3v1, m.ape⟩ : FileTags.Tags) = T := by
      rw [hT]
      have : ∀ (l : List FileTags.Save) (t : FileTags.Tags), l.foldl (FileTags.Tags.after { r.files with depth := d }) t =
          l.foldl (FileTags.Tags.after r.files) t := by
        intro l
        induction l with
        | nil => intro t; rfl
        | cons s l ih => intro t; rw [List.foldl_cons, List.foldl_cons, ih]; cases s <;> rfl
      exact this _ _
    refine ⟨macTagsOf r.custom m, ?_, ?_, ?_, fun _ => ?_, nofun, hnm _⟩
    · rw [hopen]
      show (FileTags.readWavPack { r.files with depth := d } g).map _ = _
      rw [hm]
      rfl
    · rw [e1, ← hT']
    · rw [e2, ← hT']
    · rw [e3, ← hT']

/-- The save that removes a tag. -/
def toRemove (o : Options) : TagType → FileTags.Save
  | .ape => .ape ⟨false, []⟩
  | .id3v1 => .id3v1 o.lossy Id3v1.Tag.empty
  | _ => .id3v2 noFlags o.frames o.padding []

theorem removeFrom_around {o : Options} (ho : o.Fair) {ty : TagType} {f : Bytes} {ft : FileType} (hft : ft ∈ around) (hf : verified f = .ok ft)
    (hd : ty ∈ (documented ft).map (·.1)) : removeFrom o ty f = (toRemove o ty).run o.junk f := by
  rw [removes hf ho hd]
  unfold Own.saveTo
  rw [hf]
  have he : (emptyOwn ty).isEmpty = true := by cases ty <;> rfl
  simp only [he, Bool.not_true, Bool.and_false, Bool.false_eq_true, if_false]
  simp only [around, List.mem_cons, List.not_mem_nil, or_false] at hft
  rcases hft with rfl | rfl | rfl | rfl | rfl <;> cases ty <;> first | rfl | (simp [documented] at hd)

theorem around_types {ft : FileType} {ty : TagType} (hft : ft ∈ around) (hd : ty ∈ (documented ft).map (·.1)) :
    ty = .id3v2 ∧ ft ∈ behindId3 ∨ ty = .id3v1 ∨ ty = .ape := by
  simp only [around, List.mem_cons, List.not_mem_nil, or_false] at hft
  rcases hft with rfl | rfl | rfl | rfl | rfl <;> simp only [documented, List.map_cons, List.map_nil, List.mem_cons, List.not_mem_nil, or_false] at hd <;>
    rcases hd with rfl | hd <;> (try rcases hd with rfl | rfl) <;> (try subst hd) <;> decide

/-- **C74, MPEG, AAC, Monkey's Audio, Musepack and WavPack.** The file `f` is the audio with any tags that have been saved to it or
removed from it, among them ID3v2 and ID3v1 tags in formats in which those are read-only.  Then a tag of any type that the format
has can be removed; the file opens before and after; after that it shows no tag of that type, and of the other types the tag
it had.  (An ID3v1 tag has to be there: see `id3v1_removal_adds`.) -/
theorem around_removed_partial {o : Options} (ho : o.Fair) {r : ReadOptions} {ft : FileType} {audio f : Bytes} {l : List FileTags.Save}
    (hft : ft ∈ around) (ha : FileTags.Audio r.files audio) (hv : verified audio = .ok ft) (hpl : Playable ft audio)
    (hl : ∀ s ∈ l, s.Ok r.files audio)
    (hfoot : ∀ fl w p fs, .id3v2 fl w p fs ∈ l → fl.footer = false ∧ ft ∈ behindId3 ∨ (ft = .mpeg ∨ ft = .aac) ∧ Magic ft audio)
    (hf : FileTags.runAll r.junk l audio = .ok f) (hj : r.junk = o.junk) (hs : r.mode ≠ .strict)
    {ty : TagType} (hty : ty ∈ (documented ft).map (·.1)) :
    ∃ g, removeFrom o ty f = .ok g ∧ ∃ d0, ∀ d, d0 ≤ d → ∃ xs ys,
      openFile { r with depth := d } f = .ok xs ∧ openFile { r with depth := d } g = .ok ys ∧
      (ty ≠ .id3v1 ∨ tagIn ty xs ≠ none → tagIn ty ys = none) ∧ ∀ ty', ty' ≠ ty → tagIn ty' ys = tagIn ty' xs := by
  obtain ⟨hvf, d0, h0⟩ := open_saves hft ha hv hpl hl hfoot hf
  have hlay := FileTags.runAll_layout (o := r.files) ha l audio f _ hl (FileTags.layout_plain ha) hf
  have hrok : (toRemove o ty).Ok r.files audio := by
    cases ty <;> first | exact .inl rfl | exact fun h => absurd h hs
  have henc : ∃ b, (toRemove o ty).encoded = .ok b := by
    cases ty <;> exact ⟨_, rfl⟩
  obtain ⟨b, hb⟩ := henc
  obtain ⟨g, hg, hlg⟩ := FileTags.run_of_encoded ha hrok hlay hb
  have hrun : FileTags.runAll r.junk (l ++ [toRemove o ty]) audio = .ok g := by
    rw [runAll_snoc, hf]
    exact hg
  have hfoot' : ∀ fl w p fs, .id3v2 fl w p fs ∈ l ++ [toRemove o ty] →
      fl.footer = false ∧ ft ∈ behindId3 ∨ (ft = .mpeg ∨ ft = .aac) ∧ Magic ft audio := by
    intro fl w p fs h
    rcases List.mem_append.mp h with h | h
    · exact hfoot _ _ _ _ h
    · rw [List.mem_singleton] at h
      rcases around_types hft hty with ⟨rfl, hid⟩ | rfl | rfl
      · cases h
        exact .inl ⟨rfl, hid⟩
      · cases h
      · cases h
  obtain ⟨-, d1, h1⟩ := open_saves hft ha hv hpl (fun s hs => by
    rcases List.mem_append.mp hs with h | h
    · exact hl s h
    · rw [List.mem_singleton] at h; rw [h]; exact hrok) hfoot' hrun
  refine ⟨g, ?_, max d0 d1, fun d hd => ?_⟩
  · rw [removeFrom_around ho hft hvf hty, ← hj]
    exact hg
  obtain ⟨xs, hx, x1, x2, x3, x4, x5⟩ := h0 d (by omega)
  obtain ⟨ys, hy, y1, y2, y3, y4, y5⟩ := h1 d (by omega)
  rw [List.foldl_append, List.foldl_cons, List.foldl_nil] at y1 y2 y3
  generalize l.foldl (FileTags.Tags.after r.files) ⟨none, none, none⟩ = T at x1 x2 x3 y1 y2 y3
  refine ⟨xs, ys, hx, hy, fun hp => ?_, fun ty' hne => ?_⟩
  · cases ty with
    | id3v2 => rw [y1]; rfl
    | id3v1 =>
      have := hp.resolve_left (fun h => h rfl)
      rw [x2] at this
      rw [y2]
      unfold toRemove FileTags.Tags.after
      cases hT : T.id3v1 with
      | none => rw [hT] at this; exact absurd rfl this
      | some z => simp
    | ape =>
      by_cases h : ft = .aac
      · exact y4 h
      · rw [y3 h]; rfl
    | _ => exact y5 _ (by decide)
  · cases ty' with
    | id3v2 =>
      rw [x1, y1]
      rcases around_types hft hty with ⟨rfl, -⟩ | rfl | rfl
      · exact absurd rfl hne
      · rfl
      · rfl
    | id3v1 =>
      rw [x2, y2]
      cases ty <;> first | rfl | exact absurd rfl hne
    | ape =>
      by_cases h : ft = .aac
      · rw [x4 h, y4 h]
      · rw [x3 h, y3 h]
        cases ty <;> first | rfl | exact absurd rfl hne
    | _ => rw [x5 _ (by decide), y5 _ (by decide)]

/-! ## WAV and AIFF -/

theorem tagIn_wav (custom : Rating.Provider) (m : IffFiles.WavFile) :
    tagIn .riffInfo (wavTagsOf custom m) = (if m.info = [] then none else some (ofRiff m.info)) ∧
    tagIn .id3v2 (wavTagsOf custom m) = m.id3v2.map (ofId3v2 custom) ∧
    ∀ ty, ty ∉ [TagType.riffInfo, .id3v2] → tagIn ty (wavTagsOf custom m) = none := by
  have h1 : ∀ x, (ofRiff x).type = .riffInfo := fun _ => rfl
  have h2 : ∀ x, (ofId3v2 custom x).type = .id3v2 := fun _ => rfl
  obtain ⟨p, info, id3v2⟩ := m
  unfold tagIn wavTagsOf
  refine ⟨?_, ?_, ?_⟩
  · cases info <;> cases id3v2 <;> simp [h1, h2]
  · cases info <;> cases id3v2 <;> simp [h1, h2]
  · intro ty hty
    simp only [List.mem_cons, List.not_mem_nil, or_false, not_or] at hty
    obtain ⟨g1, g2⟩ := hty
    cases info <;> cases id3v2 <;> simp [h1, h2, Ne.symm g1, Ne.symm g2]

theorem open_wav {r : ReadOptions} {cs : List Iff.Chunk} {wt : IffFiles.WavTags} (h : IffFiles.WavHas r.files cs wt)
    (hsz : (Iff.wav cs).length < 2 ^ 32) :
    ∃ d0 xs, (∀ d, d0 ≤ d → openFile { r with depth := d } (Iff.wav cs) = .ok xs) ∧
      tagIn .riffInfo xs = (if wt.info = [] then none else some (ofRiff wt.info)) ∧ tagIn .id3v2 xs = wt.id3v2.map (ofId3v2 r.custom) ∧
      ∀ ty, ty ∉ [TagType.riffInfo, .id3v2] → tagIn ty xs = none := by
  obtain ⟨m0, hm⟩ : ∃ m0, ∃ n, ∀ k, n ≤ k → IffFiles.readWav { r.files with depth := k } (Iff.wav cs) = .ok m0 := by
    obtain ⟨n, hn⟩ := IffFiles.readWav_has (o := r.files) rfl h hsz
    rw [foldlM_pure (f := IffFiles.wavAudio r.files.readProps) fun _ _ => rfl] at hn
    exact ⟨_, n, hn⟩
  obtain ⟨cs', -, -, m, n, hread, hi, hid, -⟩ := IffFiles.wav_saves_partial (o := r.files) (l := []) rfl h hsz hm trivial rfl
  obtain ⟨e1, e2, e3⟩ := tagIn_wav r.custom m
  refine ⟨n, wavTagsOf r.custom m, fun d hd => ?_, by rw [e1, hi]; rfl, by rw [e2, hid]; rfl, e3⟩
  unfold openFile
  rw [wav_verified]
  show (IffFiles.readWav { r.files with depth := d } _).map (wavTagsOf r.custom) = _
  rw [hread d hd]
  rfl

/-- **C74, WAV.** From every file with at most one tag of each type, either tag can be removed: the file opens before and
after, without that tag and with the other one as it was. -/
theorem wav_removed {o : Options} (ho : o.Fair) {r : ReadOptions} {cs : List Iff.Chunk} {wt : IffFiles.WavTags}
    (h : IffFiles.WavHas r.files cs wt) (hsz : (Iff.wav cs).length + 21 < 2 ^ 32) {ty : TagType} (hty : ty ∈ (documented .wav).map (·.1)) :
    ∃ g, removeFrom o ty (Iff.wav cs) = .ok g ∧ ∃ d0 xs ys, (∀ d, d0 ≤ d →
      openFile { r with depth := d } (Iff.wav cs) = .ok xs ∧ openFile { r with depth := d } g = .ok ys) ∧
      tagIn ty ys = none ∧ ∀ ty', ty' ≠ ty → tagIn ty' ys = tagIn ty' xs := by
  have hrem : removeFrom o ty (Iff.wav cs) = (emptyOwn ty).write o .wav (Iff.wav cs) := by
    rw [removes (wav_verified cs) ho hty]
    unfold Own.saveTo
    rw [wav_verified]
    have he : (emptyOwn ty).isEmpty = true := by cases ty <;> rfl
    simp only [he, Bool.not_true, Bool.and_false, Bool.false_eq_true, if_false]
  obtain ⟨d0, xs, hx, x1, x2, x3⟩ := open_wav h (by omega)
  have fin : ∀ s : IffFiles.WavSave, s.Ok r.files cs → (∃ b, s.encoded = .ok b) → (emptyOwn ty).write o .wav (Iff.wav cs) = s.run (Iff.wav cs) →
      ∃ g, removeFrom o ty (Iff.wav cs) = .ok g ∧ ∃ d0 xs ys, (∀ d, d0 ≤ d →
        openFile { r with depth := d } (Iff.wav cs) = .ok xs ∧ openFile { r with depth := d } g = .ok ys) ∧
        tagIn .riffInfo ys = (if (wt.after s).info = [] then none else some (ofRiff (wt.after s).info)) ∧
        tagIn .id3v2 ys = (wt.after s).id3v2.map (ofId3v2 r.custom) ∧
        (∀ ty, ty ∉ [TagType.riffInfo, .id3v2] → tagIn ty ys = none) ∧
        tagIn .riffInfo xs = (if wt.info = [] then none else some (ofRiff wt.info)) ∧ tagIn .id3v2 xs = wt.id3v2.map (ofId3v2 r.custom) ∧
        (∀ ty, ty ∉ [TagType.riffInfo, .id3v2] → tagIn ty xs = none) := by
    rintro s hs ⟨b, hb⟩ hw
    obtain ⟨cs', hrun, hhas, -, hl⟩ := IffFiles.wav_save_partial h hs hb
    obtain ⟨d1, ys, hy, y1, y2, y3⟩ := open_wav hhas hl
    exact ⟨_, by rw [hrem, hw, hrun], max d0 d1, xs, ys, fun d hd => ⟨hx d (by omega), hy d (by omega)⟩, y1, y2, y3, x1, x2, x3⟩
  simp only [documented, List.map_cons, List.map_nil, List.mem_cons, List.not_mem_nil, or_false] at hty
  rcases hty with rfl | rfl
  · obtain ⟨g, hg, d0, xs, ys, ho, y1, y2, y3, x1, x2, x3⟩ := fin (.id3v2 ⟨o.mode = .strict, o.upper, noFlags, o.frames, o.padding, []⟩)
      ⟨fun b hb => by cases hb; simp only [List.length_nil]; omega, .inl rfl, fun _ _ _ _ _ _ hb hne => by cases hb; exact absurd rfl hne⟩ ⟨_, rfl⟩ rfl
    refine ⟨g, hg, d0, xs, ys, ho, by rw [y2]; rfl, fun ty' hne => ?_⟩
    by_cases hr : ty' = .riffInfo
    · rw [hr, y1, x1]; rfl
    · rw [y3 _ (by simp [hr, hne]), x3 _ (by simp [hr, hne])]
  · obtain ⟨g, hg, d0, xs, ys, ho, y1, y2, y3, x1, x2, x3⟩ := fin (.info (o.mode = .strict) [])
      ⟨fun b hb => by cases hb; show (Iff.wav cs).length + 0 + 9 < 2 ^ 32; omega, fun _ h => nomatch h⟩ ⟨_, rfl⟩ rfl
    refine ⟨g, hg, d0, xs, ys, ho, by rw [y1]; rfl, fun ty' hne => ?_⟩
    by_cases hr : ty' = .id3v2
    · rw [hr, y2, x2]; rfl
    · rw [y3 _ (by simp [hr, hne]), x3 _ (by simp [hr, hne])]

theorem tagIn_aiff (custom : Rating.Provider) (m : IffFiles.AiffFile) :
    tagIn .aiffText (aiffTagsOf custom m) = (if (Own.aiffText m.text).isEmpty then none else some (ofAiff m.text)) ∧
    tagIn .id3v2 (aiffTagsOf custom m) = m.id3v2.map (ofId3v2 custom) ∧
    ∀ ty, ty ∉ [TagType.aiffText, .id3v2] → tagIn ty (aiffTagsOf custom m) = none := by
  have h1 : ∀ x, (ofAiff x).type = .aiffText := fun _ => rfl
  have h2 : ∀ x, (ofId3v2 custom x).type = .id3v2 := fun _ => rfl
  obtain ⟨p, text, id3v2⟩ := m
  unfold tagIn aiffTagsOf
  refine ⟨?_, ?_, ?_⟩
  · cases (Own.aiffText text).isEmpty <;> cases id3v2 <;> simp [h1, h2]
  · cases (Own.aiffText text).isEmpty <;> cases id3v2 <;> simp [h1, h2]
  · intro ty hty
    simp only [List.mem_cons, List.not_mem_nil, or_false, not_or] at hty
    obtain ⟨g1, g2⟩ := hty
    cases (Own.aiffText text).isEmpty <;> cases id3v2 <;> simp [h1, h2, Ne.symm g1, Ne.symm g2]

theorem open_aiff {r : ReadOptions} {form : Bytes} (hform : form = ascii "AIFF" ∨ form = ascii "AIFC") {cs : List Iff.Chunk}
    {wt : IffFiles.AiffTags} (h : IffFiles.AiffHas r.files cs wt) :
    ∃ d0 xs, (∀ d, d0 ≤ d → openFile { r with depth := d } (Iff.aiff form cs) = .ok xs) ∧
      tagIn .aiffText xs = (if (Own.aiffText wt.text).isEmpty then none else some (ofAiff wt.text)) ∧
      tagIn .id3v2 xs = wt.id3v2.map (ofId3v2 r.custom) ∧
      ∀ ty, ty ∉ [TagType.aiffText, .id3v2] → tagIn ty xs = none := by
  obtain ⟨m0, hm⟩ : ∃ m0, ∃ n, ∀ k, n ≤ k → IffFiles.readAiff { r.files with depth := k } (Iff.aiff form cs) = .ok m0 := by
    obtain ⟨n, hn⟩ := IffFiles.readAiff_has (o := r.files) rfl hform h
    rw [foldlM_pure (f := IffFiles.aiffAudio r.files.readProps) fun _ _ => rfl] at hn
    exact ⟨_, n, hn⟩
  obtain ⟨cs', -, -, m, n, hread, hi, hid, -⟩ := IffFiles.aiff_saves_partial (o := r.files) (l := []) rfl hform h hm trivial rfl
  obtain ⟨e1, e2, e3⟩ := tagIn_aiff r.custom m
  refine ⟨n, aiffTagsOf r.custom m, fun d hd => ?_, by rw [e1, hi]; rfl, by rw [e2, hid]; rfl, e3⟩
  unfold openFile
  rw [aiff_verified hform]
  show (IffFiles.readAiff { r.files with depth := d } _).map (aiffTagsOf r.custom) = _
  rw [hread d hd]
  rfl

/-- **C74, AIFF.** The same for AIFF files: their ID3v2 tag and their text chunks. -/
theorem aiff_removed {o : Options} (ho : o.Fair) {r : ReadOptions} {form : Bytes} (hform : form = ascii "AIFF" ∨ form = ascii "AIFC")
    {cs : List Iff.Chunk} {wt : IffFiles.AiffTags}
    (h : IffFiles.AiffHas r.files cs wt) (hsz : (Iff.aiff form cs).length + 9 < 2 ^ 32) {ty : TagType} (hty : ty ∈ (documented .aiff).map (·.1)) :
    ∃ g, removeFrom o ty (Iff.aiff form cs) = .ok g ∧ ∃ d0 xs ys, (∀ d, d0 ≤ d →
      openFile { r with depth := d } (Iff.aiff form cs) = .ok xs ∧ openFile { r with depth := d } g = .ok ys) ∧
      tagIn ty ys = none ∧ ∀ ty', ty' ≠ ty → tagIn ty' ys = tagIn ty' xs := by
  have hrem : removeFrom o ty (Iff.aiff form cs) = (emptyOwn ty).write o .aiff (Iff.aiff form cs) := by
    rw [removes (aiff_verified hform cs) ho hty]
    unfold Own.saveTo
    rw [aiff_verified hform]
    have he : (emptyOwn ty).isEmpty = true := by cases ty <;> rfl
    simp only [he, Bool.not_true, Bool.and_false, Bool.false_eq_true, if_false]
  obtain ⟨d0, xs, hx, x1, x2, x3⟩ := open_aiff hform h
  have fin : ∀ s : IffFiles.AiffSave, s.Ok r.files form cs → (∃ b, s.encoded = .ok b) →
      (emptyOwn ty).write o .aiff (Iff.aiff form cs) = s.run (Iff.aiff form cs) →
      ∃ g, removeFrom o ty (Iff.aiff form cs) = .ok g ∧ ∃ d0 xs ys, (∀ d, d0 ≤ d →
        openFile { r with depth := d } (Iff.aiff form cs) = .ok xs ∧ openFile { r with depth := d } g = .ok ys) ∧
        tagIn .aiffText ys = (if (Own.aiffText (wt.after s).text).isEmpty then none else some (ofAiff (wt.after s).text)) ∧
        tagIn .id3v2 ys = (wt.after s).id3v2.map (ofId3v2 r.custom) ∧
        (∀ ty, ty ∉ [TagType.aiffText, .id3v2] → tagIn ty ys = none) ∧
        tagIn .aiffText xs = (if (Own.aiffText wt.text).isEmpty then none else some (ofAiff wt.text)) ∧
        tagIn .id3v2 xs = wt.id3v2.map (ofId3v2 r.custom) ∧
        (∀ ty, ty ∉ [TagType.aiffText, .id3v2] → tagIn ty xs = none) := by
    rintro s hs ⟨b, hb⟩ hw
    obtain ⟨cs', hrun, hhas, -⟩ := IffFiles.aiff_save_partial hform h hs hb
    obtain ⟨d1, ys, hy, y1, y2, y3⟩ := open_aiff hform hhas
    exact ⟨_, by rw [hrem, hw, hrun], max d0 d1, xs, ys, fun d hd => ⟨hx d (by omega), hy d (by omega)⟩, y1, y2, y3, x1, x2, x3⟩
  simp only [documented, List.map_cons, List.map_nil, List.mem_cons, List.not_mem_nil, or_false] at hty
  rcases hty with rfl | rfl
  · obtain ⟨g, hg, d0, xs, ys, ho, y1, y2, y3, x1, x2, x3⟩ := fin (.id3v2 ⟨o.mode = .strict, o.upper, noFlags, o.frames, o.padding, []⟩)
      ⟨fun b hb => by cases hb; simp only [List.length_nil]; omega, .inl rfl, fun _ _ _ _ _ _ hb hne => by cases hb; exact absurd rfl hne⟩ ⟨_, rfl⟩ rfl
    refine ⟨g, hg, d0, xs, ys, ho, by rw [y2]; rfl, fun ty' hne => ?_⟩
    by_cases hr : ty' = .aiffText
    · rw [hr, y1, x1]; rfl
    · rw [y3 _ (by simp [hr, hne]), x3 _ (by simp [hr, hne])]
  · obtain ⟨g, hg, d0, xs, ys, ho, y1, y2, y3, x1, x2, x3⟩ := fin (.text (o.mode = .strict) ⟨none, none, none, none, none⟩)
      ⟨fun b hb => by cases hb; show (Iff.aiff form cs).length + 0 + 9 < 2 ^ 32; omega, by
        show Iff.Aiff.Fits ⟨none, none, none, none, none⟩ ∧ Iff.Aiff.Clean ⟨none, none, none, none, none⟩
        unfold Iff.Aiff.Fits Iff.Aiff.Clean Iff.Comment.Ok Iff.EvenInit
        decide +kernel⟩ ⟨_, rfl⟩ rfl
    refine ⟨g, hg, d0, xs, ys, ho, by rw [y1]; rfl, fun ty' hne => ?_⟩
    by_cases hr : ty' = .id3v2
    · rw [hr, y2, x2]; rfl
    · rw [y3 _ (by simp [hr, hne]), x3 _ (by simp [hr, hne])]

/-! ## FLAC -/

/-- What a leading ID3v2 tag is found to be, whatever comes behind it. -/
theorem lead_found {r : ReadOptions} {pre : Bytes} {x : Option FileTags.Id3Tag} (hx : FileTags.LeadOf r.files.id3 pre x) :
    Flac.Skipped pre ∧ ∃ d0, ∀ rest, 6 ≤ rest.length → ∃ c, Id3v2.find (pre ++ (ascii "fLaC" ++ rest)) 0 true none = .ok (c, pre.length) ∧
      ∀ d, d0 ≤ d → FileTags.contentOf { r.files with depth := d } c = .ok x := by
  cases hx with
  | none =>
    refine ⟨Flac.skipped_nil, 0, fun rest h => ⟨none, flac_no_id3v2 rest h, fun d _ => rfl⟩⟩
  | tag fl padding body fs b hcrc hres hun hsize hb hr =>
    refine ⟨Flac.skipped_tag fl false padding body pre hcrc hres nofun hsize hb, ?_⟩
    obtain ⟨d0, hr⟩ := hr
    refine ⟨d0, fun rest h => ?_⟩
    obtain ⟨pad, p1, p2, p3⟩ := FileTags.lead_parse hcrc hres hun hsize hb (ascii "fLaC" ++ rest)
    refine ⟨some (⟨.v4, fl, body.length + pad, 0⟩, some (body ++ List.replicate pad 0)), ?_, fun d hd => ?_⟩
    · unfold Id3v2.find Id3v2.findAt
      rw [p1]
      simp only [if_true]
      rw [Id3v2.need_ok (by simp only [List.length_append]; rw [p3]; omega)]
      simp only
      rw [p2, p3]
      cases fl.footer <;> simp
    · unfold FileTags.contentOf FileTags.parseId3
      simp only
      rw [Nat.sub_zero, List.take_of_length_le (by simp), hun, hr d hd pad, ok_bind]
      rfl

/-- A FLAC file with an ID3v2 tag in front is one. -/
theorem flac_behind {r : ReadOptions} {pre : Bytes} {x : Option FileTags.Id3Tag} (hx : FileTags.LeadOf r.files.id3 pre x)
    (hfoot : ∀ t, x = some t → t.flags.footer = false) (bl : List Flac.Spec.MBlock) (audio : Bytes) (hl : 32 ≤ (Flac.Spec.encode bl ++ audio).length) :
    verified (Flac.stream pre bl audio) = .ok .flac := by
  have hf : verified (Flac.stream [] bl audio) = .ok .flac := by
    rw [verified_iff]
    refine Probe.guess_magic (f := Flac.stream [] bl audio) (start := 0) (t := .flac) ?_ ⟨nofun, nofun⟩ nofun 1024
    show List.take 4 (Flac.stream [] bl audio) = _
    rfl
  cases hx with
  | none => exact hf
  | tag fl padding body fs b hcrc hres hun hsize hb hr =>
    obtain ⟨major, flags, s, content, c1, -, c2, c3, rfl⟩ := tag_shape hcrc hres hsize hb
    have h0 : fl.footer = false := hfoot _ rfl
    have := verified_behind (t := .flac) (f := Flac.stream [] bl audio) (major := major) (by decide) (by
      unfold Flac.stream
      rw [List.nil_append, List.length_append]
      have : (ascii "fLaC").length = 4 := rfl
      omega) (by
      show ¬ List.take 3 (Flac.stream [] bl audio) = _
      rw [show List.take 3 (Flac.stream [] bl audio) = [0x66, 0x4C, 0x61] from rfl]
      decide) hf c1 c2 c3 []
    rw [List.append_nil] at this
    rw [h0]
    simpa [Flac.stream] using this

theorem kept_plain (bs : List Flac.Spec.MBlock) : ∀ b ∈ Flac.Spec.kept bs, b.1 ≠ 4 ∧ b.1 ≠ 6 := by
  intro b hb
  have := (List.mem_filter.mp hb).2
  simpa using this

theorem padding_plain (p : Option Nat) (old new : List Flac.Spec.MBlock) : ∀ b ∈ Flac.addedPadding p old new, b.1 = 1 ∧ b.Valid := by
  intro b hb
  unfold Flac.addedPadding at hb
  split at hb
  · simp at hb
  · split at hb
    · simp at hb
    · simp only [List.mem_singleton] at hb
      subst hb
      exact ⟨rfl, (by decide : (1 : UInt8) < 128), by simp only [List.length_replicate]; omega⟩

/-- Opening a FLAC stream. -/
theorem open_flac {r : ReadOptions} {pre si audio : Bytes} {bs : List Flac.Spec.MBlock} {x : Option FileTags.Id3Tag}
    (hx : FileTags.LeadOf r.files.id3 pre x) (hfoot : ∀ t, x = some t → t.flags.footer = false)
    (hsi : si.length < 2 ^ 24) (hsi34 : 34 ≤ si.length) (hv : ∀ b ∈ bs, b.Valid) :
    verified (Flac.stream pre ((0, si) :: bs) audio) = .ok .flac ∧
    ∃ d0, ∀ d, d0 ≤ d → openFile { r with depth := d } (Flac.stream pre ((0, si) :: bs) audio) = (do
      let m ← (bs.map Flac.seen).foldlM (fun a b => Flac.readStep r.comments b a) ⟨none, []⟩
      .ok (flacTagsOf r.custom x m)) := by
  have hl : 32 ≤ (Flac.Spec.encode ((0, si) :: bs) ++ audio).length := by
    rw [List.length_append, Flac.encode_length]
    simp
    omega
  have hver := flac_behind hx hfoot ((0, si) :: bs) audio hl
  obtain ⟨hskip, d0, hfind⟩ := lead_found hx
  obtain ⟨c, hc, hcont⟩ := hfind (Flac.Spec.encode ((0, si) :: bs) ++ audio) (by omega)
  refine ⟨hver, d0, fun d hd => ?_⟩
  unfold openFile
  rw [hver]
  show openFlac _ _ = _
  unfold openFlac
  rw [show Flac.stream pre ((0, si) :: bs) audio = pre ++ (ascii "fLaC" ++ (Flac.Spec.encode ((0, si) :: bs) ++ audio)) from rfl, hc, ok_bind]
  simp only
  rw [show ReadOptions.files { r with depth := d } = { r.files with depth := d } from rfl, hcont d hd, ok_bind]
  rw [show (pre ++ (ascii "fLaC" ++ (Flac.Spec.encode ((0, si) :: bs) ++ audio))) = Flac.stream pre ((0, si) :: bs) audio from rfl,
    Flac.readFrom_stream _ pre si audio bs hskip hsi (by omega) hv]
  rfl

theorem tagIn_flac (custom : Rating.Provider) (x : Option FileTags.Id3Tag) (m : Flac.Found) :
    tagIn .id3v2 (flacTagsOf custom x m) = x.map (ofId3v2 custom) ∧
    (∀ y, ∀ ty, ty ≠ .id3v2 → tagIn ty (flacTagsOf custom x m) = tagIn ty (flacTagsOf custom y m)) ∧
    ∀ ty, ty ∉ [TagType.vorbisComments, .id3v2] → tagIn ty (flacTagsOf custom x m) = none := by
  have h1 : ∀ x, (ofVorbis custom x).type = .vorbisComments := fun _ => rfl
  have h2 : ∀ x, (ofId3v2 custom x).type = .id3v2 := fun _ => rfl
  obtain ⟨c, pics⟩ := m
  unfold tagIn flacTagsOf
  refine ⟨?_, fun y ty hne => ?_, fun ty hty => ?_⟩
  · cases x <;> cases c <;> cases pics <;> simp [h1, h2]
  · cases x <;> cases y <;> cases c <;> cases pics <;> simp [h1, h2, Ne.symm hne]
  · simp only [List.mem_cons, List.not_mem_nil, or_false, not_or] at hty
    obtain ⟨g1, g2⟩ := hty
    cases x <;> cases c <;> cases pics <;> simp [h1, h2, Ne.symm g1, Ne.symm g2]

/-- **C74, FLAC.** A file of any metadata blocks, maybe with an ID3v2 tag in front, that opens: the comments and pictures can be
removed and the ID3v2 tag can be removed (though it cannot be written), and the other one stays as it was. -/
theorem flac_removed_partial {o : Options} (ho : o.Fair) {r : ReadOptions} {pre si audio : Bytes} {bs : List Flac.Spec.MBlock}
    {x : Option FileTags.Id3Tag} (hx : FileTags.LeadOf r.files.id3 pre x) (hfoot : ∀ t, x = some t → t.flags.footer = false)
    (hsi : si.length < 2 ^ 24) (hsi34 : 34 ≤ si.length) (hv : ∀ b ∈ bs, b.Valid) {vendor : Str} (hvendor : Flac.scanVendor [] bs = .ok vendor)
    (hj : 3 ≤ o.junk) (hnm : x = none → Id3v2.NoMarker ((Flac.stream pre ((0, si) :: bs) audio).take o.junk))
    {m : Flac.Found} (hm : (bs.map Flac.seen).foldlM (fun a b => Flac.readStep r.comments b a) ⟨none, []⟩ = .ok m)
    {ty : TagType} (hty : ty ∈ (documented .flac).map (·.1)) :
    ∃ g, removeFrom o ty (Flac.stream pre ((0, si) :: bs) audio) = .ok g ∧ ∃ d0 xs ys, (∀ d, d0 ≤ d →
      openFile { r with depth := d } (Flac.stream pre ((0, si) :: bs) audio) = .ok xs ∧ openFile { r with depth := d } g = .ok ys) ∧
      tagIn ty ys = none ∧ ∀ ty', ty' ≠ ty → tagIn ty' ys = tagIn ty' xs := by
  obtain ⟨hver, d0, hopen⟩ := open_flac (audio := audio) hx hfoot hsi hsi34 hv
  rw [hm] at hopen
  have hrem : removeFrom o ty (Flac.stream pre ((0, si) :: bs) audio) = (emptyOwn ty).write o .flac (Flac.stream pre ((0, si) :: bs) audio) := by
    rw [removes hver ho hty]
    unfold Own.saveTo
    rw [hver]
    have he : (emptyOwn ty).isEmpty = true := by cases ty <;> rfl
    simp only [he, Bool.not_true, Bool.and_false, Bool.false_eq_true, if_false]
  obtain ⟨t1, t2, t3⟩ := tagIn_flac r.custom x m
  simp only [documented, List.map_cons, List.map_nil, List.mem_cons, List.not_mem_nil, or_false] at hty
  rcases hty with rfl | rfl
  · have hw := Flac.writeTo_stream pre si audio bs ⟨[], [], []⟩ o.padding vendor [] (lead_found hx).1 hsi (by omega) hv hvendor rfl
    have key : ∃ bl, Flac.writeTo (Flac.stream pre ((0, si) :: bs) audio) ⟨[], [], []⟩ o.padding = .ok (Flac.stream pre ((0, si) :: bl) audio) ∧
        (∀ b ∈ bl, b.Valid) ∧ ∀ b ∈ bl, b.1 ≠ 4 ∧ b.1 ≠ 6 := by
      rw [hw]
      split
      · rename_i hno
        refine ⟨bs, rfl, hv, fun b hb => ?_⟩
        have := hno.1
        unfold Flac.hasType at this
        rw [List.any_eq_false] at this
        simpa using this b hb
      · refine ⟨_, rfl, fun b hb => ?_, fun b hb => ?_⟩
        · rcases List.mem_append.mp hb with hb | hb
          · change b ∈ Flac.Spec.kept bs ++ [] at hb
            rw [List.append_nil] at hb
            exact hv b (List.mem_filter.mp hb).1
          · exact (padding_plain _ _ _ b hb).2
        · rcases List.mem_append.mp hb with hb | hb
          · change b ∈ Flac.Spec.kept bs ++ [] at hb
            rw [List.append_nil] at hb
            exact kept_plain bs b hb
          · rw [(padding_plain _ _ _ b hb).1]; decide
    obtain ⟨bl, hbl, hblv, hblk⟩ := key
    obtain ⟨-, d1, hopen'⟩ := open_flac (audio := audio) hx hfoot hsi hsi34 hblv
    rw [Flac.foldlM_ignored _ bl hblk] at hopen'
    obtain ⟨u1, -, u3⟩ := tagIn_flac r.custom x ⟨none, []⟩
    refine ⟨_, by rw [hrem]; exact hbl, max d0 d1, _, _, fun d hd => ⟨hopen d (by omega), hopen' d (by omega)⟩, ?_, fun ty' hne => ?_⟩
    · cases x <;> rfl
    · by_cases h2 : ty' = .id3v2
      · rw [h2, u1, t1]
      · rw [u3 _ (by simp [hne, h2]), t3 _ (by simp [hne, h2])]
  · have hw : Id3v2.writeFile (Flac.stream pre ((0, si) :: bs) audio) o.junk [] = .ok (Flac.stream [] ((0, si) :: bs) audio) := by
      rcases FileTags.lead_written hx with ⟨rfl, hn⟩ | ⟨h, -⟩
      · exact Id3v2.writeFile_untagged _ [] _ (hnm hn)
      · exact Id3v2.writeFile_tagged h _ [] _ hj
    obtain ⟨-, d1, hopen'⟩ := open_flac (r := r) (audio := audio) .none nofun hsi hsi34 hv
    rw [hm] at hopen'
    obtain ⟨u1, u2, -⟩ := tagIn_flac r.custom none m
    refine ⟨_, by rw [hrem]; exact hw, max d0 d1, _, _, fun d hd => ⟨hopen d (by omega), hopen' d (by omega)⟩, by rw [u1]; rfl, fun ty' hne => u2 x ty' hne⟩

/-! ## OGG -/

/-- **C74, OGG.** Comments cannot be removed wholly from OGG files, the formats need them: a tag stays, but there is nothing in it,
except the name of the encoder. -/
theorem ogg_removed {fmt : OggWrite.Format} {o : Options} {r : ReadOptions} {f g ident comment c rest : Bytes}
    {others : List Bytes} {vendor : Str} (hf : verified f = .ok (oggType fmt)) (hs : removeFrom o .vorbisComments f = .ok g)
    (hh : OggWrite.Headed fmt f (ident :: comment :: others) rest) (hhead : ∃ x, ident = fmt.head ++ x) (h8 : 8 ≤ ident.length)
    (h255 : ident.length < 255) (ho : ∀ p ∈ others, p ≠ []) (hc : comment = fmt.sig ++ c) (hv : OggWrite.VendorIs c vendor)
    (hvendor : vendor.getLast? ≠ some '\x00')
    (hlen : ∀ new, Vorbis.createPacket ⟨vendor, [], []⟩ fmt.sig fmt.framing = .ok new → new.length < 2 ^ 32) :
    ∃ x, openFile r g = .ok [x] ∧ x.type = .vorbisComments ∧ x.pictures = [] ∧
      ∀ k, supports .vorbisComments k = true → k ≠ .EncoderSoftware → x.getStrings k = [] := by
  have hd : TagType.vorbisComments ∈ (documented (oggType fmt)).map (·.1) := by cases fmt <;> decide
  have he := empty_removes hf o (t := Tag.new .vorbisComments) hd rfl rfl
  have ht : ∀ k, texts (Tag.new .vorbisComments) k = [] := fun _ => rfl
  obtain ⟨x, h1, h2, h3, h4⟩ := ogg_end_to_end (r := r) (o := o) (t := Tag.new .vorbisComments) rfl hf (he.trans hs) hh hhead h8 h255 ho hc hv hvendor
    (fun k s hs => by rw [ht] at hs; cases hs) (fun _ => ⟨by unfold NumberOk; rw [ht]; simp, by unfold NumberOk; rw [ht]; simp⟩) (fun h => absurd rfl h) (fun p hp => by cases hp)
    (fun pics new hp hn => by cases hp; exact hlen new hn)
  exact ⟨x, h1, h2, h3, fun k hk hn => h4 k hk (.inl hn)⟩

/-! ## MP4 -/

/-- **C74, MP4.** The tag of a file in which it is not the first atom of `meta` can be removed: the file opens after that and shows no tag. -/
theorem mp4_removed_partial {o : Options} (ho : o.Fair) {r : ReadOptions} (x : Mp4Write.File) (hx : x.Ok) (hc : Mp4Read.Clear x) (hi : x.items1 ≠ [])
    (hbrand : ∀ c rest, x.before = .leaf (ascii "ftyp") c rest → c.length + 8 < 2 ^ 24) :
    ∃ g, removeFrom o .mp4Ilst x.bytes = .ok g ∧ openFile r g = .ok [] := by
  obtain ⟨g, brand, hw, ⟨c, rest, hb, -⟩, hr⟩ := Mp4Read.remove_read_partial x hx hc hi r.mp4 rfl o.mode o.padding
  have hvf : verified x.bytes = .ok .mp4 := ftyp_verified hb (hbrand c rest hb) _
  have hw2 := Mp4Write.remove_partial x hx o.mode o.padding
  have hvg : verified g = .ok .mp4 := by
    rw [hw] at hw2
    rw [(Except.ok.injEq _ _).mp hw2]
    exact ftyp_verified hb (hbrand c rest hb) _
  refine ⟨g, ?_, ?_⟩
  · rw [removes hvf ho (by decide)]
    unfold Own.saveTo
    rw [hvf]
    exact hw
  · unfold openFile
    rw [hvg]
    show (Mp4Read.readFrom r.mp4 _).map _ = _
    rw [hr]
    rfl

/-! ## Cases that meet the hypotheses -/

theorem exWrite_fair : exWrite.Fair := fun l => List.Perm.refl l

/-- An MP3 file with three tags loses one. -/
example : ∃ f g, FileTags.runAll exRead.junk ([titled .id3v1, titled .id3v2, titled .ape].map (toSave exWrite)) mp3 = .ok f ∧
    removeFrom exWrite .id3v2 f = .ok g ∧ ∃ d0, ∀ d, d0 ≤ d → ∃ xs ys,
      openFile { exRead with depth := d } f = .ok xs ∧ openFile { exRead with depth := d } g = .ok ys ∧ tagIn .id3v2 ys = none ∧
      tagIn .ape ys = tagIn .ape xs := by
  have hs : (FileTags.runAll exRead.junk ([titled .id3v1, titled .id3v2, titled .ape].map (toSave exWrite)) mp3).toOption.isSome = true := by decide +kernel
  rcases hf : FileTags.runAll exRead.junk ([titled .id3v1, titled .id3v2, titled .ape].map (toSave exWrite)) mp3 with e | f
  · rw [hf] at hs; cases hs
  · obtain ⟨g, hg, d0, h0⟩ := around_removed_partial exWrite_fair (r := exRead) (ft := .mpeg) (by decide) (FileTags.threeFrames_audio true false) mp3_verified
      ⟨_, _, FileTags.threeFrames_first⟩ (fun s hs => by
        obtain ⟨t, ht, rfl⟩ := List.mem_map.mp hs
        exact titled_saves t ht) (fun fl w p fs h => .inl ⟨by
        simp only [List.map_cons, List.map_nil, List.mem_cons, List.not_mem_nil, or_false] at h
        rcases h with h | h | h
        · cases h
        · cases h; rfl
        · (cases h), by decide⟩) hf rfl nofun (ty := .id3v2) (by decide)
    refine ⟨f, g, rfl, hg, d0, fun d hd => ?_⟩
    obtain ⟨xs, ys, h1, h2, h3, h4⟩ := h0 d hd
    exact ⟨xs, ys, h1, h2, h3 (.inl nofun), h4 _ nofun⟩

/-- A WAV file with a title in its list loses the list. -/
example : ∃ g, removeFrom exWrite .riffInfo (Iff.wav wavListed) = .ok g ∧ ∃ d0 xs ys, (∀ d, d0 ≤ d →
    openFile { exRead with depth := d } (Iff.wav wavListed) = .ok xs ∧ openFile { exRead with depth := d } g = .ok ys) ∧
    tagIn .riffInfo ys = none := by
  have h0 : IffFiles.WavHas exRead.files wavListed ⟨[(str "INAM", str "x")], none⟩ := by
    refine ⟨fun d hd => ⟨?_, ?_⟩, .inr ⟨[], by decide +kernel, by decide, rfl, ?_⟩, .inl ⟨by decide, rfl⟩⟩
    · simp only [wavListed, IffFiles.exWav, List.cons_append, List.nil_append, List.mem_cons, List.not_mem_nil, or_false] at hd
      rcases hd with rfl | rfl | rfl <;> exact IffFiles.ok_fourcc (by simp) (by decide)
    · revert d; decide
    · intro i hi
      simp only [List.mem_cons, List.not_mem_nil, or_false] at hi
      subst hi
      exact ⟨(Iff.validFourcc_iff (by decide)).mp (by decide), by decide, by decide⟩
  obtain ⟨g, hg, d0, xs, ys, h1, h2, -⟩ := wav_removed exWrite_fair (r := exRead) h0 (by decide) (ty := .riffInfo) (by decide)
  exact ⟨g, hg, d0, xs, ys, h1, h2⟩

/-- The chunk of a name is removed. -/
example : ∃ g, removeFrom exWrite .aiffText (Iff.aiff (ascii "AIFF") (IffFiles.exAiff ++ [(ascii "NAME", [120])])) = .ok g ∧ ∃ d0 xs ys, (∀ d, d0 ≤ d →
    openFile { exRead with depth := d } (Iff.aiff (ascii "AIFF") (IffFiles.exAiff ++ [(ascii "NAME", [120])])) = .ok xs ∧
    openFile { exRead with depth := d } g = .ok ys) ∧ tagIn .aiffText ys = none := by
  have h0 : IffFiles.AiffHas exRead.files (IffFiles.exAiff ++ [(ascii "NAME", [120])]) ⟨⟨some (str "x"), none, none, none, none⟩, none⟩ := by
    refine ⟨fun d hd => ?_, ⟨IffFiles.exComm, by decide, rfl⟩, ⟨⟨some (str "x"), none, none, none, none⟩, by decide +kernel, ?_, ?_, by decide⟩, .inl ⟨by decide, rfl⟩⟩
    · simp only [IffFiles.exAiff, List.cons_append, List.nil_append, List.mem_cons, List.not_mem_nil, or_false] at hd
      rcases hd with rfl | rfl | rfl
      · exact IffFiles.ok_fourcc (by simp) (by decide)
      · exact IffFiles.ok_fourcc (by simp) (by decide)
      · exact ⟨(Iff.validFourcc_iff (by decide)).mp (by decide), by decide⟩
    · unfold Iff.Aiff.Fits; decide +kernel
    · unfold Iff.Aiff.Clean Iff.Comment.Ok Iff.EvenInit; decide +kernel
  obtain ⟨g, hg, d0, xs, ys, h1, h2, -⟩ := aiff_removed exWrite_fair (r := exRead) (.inl rfl) h0 (by decide) (ty := .aiffText) (by decide)
  exact ⟨g, hg, d0, xs, ys, h1, h2⟩

/-- A FLAC file with comments and an ID3v2 tag in front loses either. -/
example {ty : TagType} (hty : ty = .vorbisComments ∨ ty = .id3v2) : ∃ pre x, x ≠ none ∧ FileTags.LeadOf exRead.files.id3 pre x ∧
    let f := Flac.stream pre [(0, List.replicate 34 7), (4, [1, 0, 0, 0, 0x76, 1, 0, 0, 0, 3, 0, 0, 0, 65, 61, 98])] [0xFF, 0xF8]
    ∃ g, removeFrom exWrite ty f = .ok g ∧ ∃ d0 xs ys, (∀ d, d0 ≤ d →
      openFile { exRead with depth := d } f = .ok xs ∧ openFile { exRead with depth := d } g = .ok ys) ∧ tagIn ty ys = none := by
  have hc : (Id3v2.createItems exWrite.frames [titleFrame]).toOption.isSome = true := by decide +kernel
  rcases hb : Id3v2.createItems exWrite.frames [titleFrame] with e | body
  · rw [hb] at hc; cases hc
  have hsz := titled_size hb
  have ht : ((Id3v2.createItems exWrite.frames [titleFrame]).bind fun b => Id3v2.createTag noFlags false none b).toOption.isSome = true := by decide +kernel
  rw [hb] at ht
  change (Id3v2.createTag noFlags false none body).toOption.isSome = true at ht
  rcases htag : Id3v2.createTag noFlags false none body with e | pre
  · rw [htag] at ht; cases ht
  have hrt := Id3v2.tag_rt_v4_partial exWrite.frames exRead.files.id3 [titleFrame] rfl titled_frame_ok.1 titled_frame_ok.2 hb (by omega)
  have hlead : FileTags.LeadOf exRead.files.id3 pre (some ⟨.v4, noFlags, [titleFrame]⟩) :=
    .tag noFlags none body [titleFrame] pre rfl rfl rfl (by simp; omega) htag hrt
  refine ⟨pre, some ⟨.v4, noFlags, [titleFrame]⟩, by simp, hlead, ?_⟩
  obtain ⟨g, hg, d0, xs, ys, h1, h2, -⟩ := flac_removed_partial exWrite_fair (si := List.replicate 34 7)
    (audio := [0xFF, 0xF8]) (bs := [(4, [1, 0, 0, 0, 0x76, 1, 0, 0, 0, 3, 0, 0, 0, 65, 61, 98])]) (vendor := str "v") hlead
    (fun t h => by cases h; rfl) (by decide) (by decide)
    (by intro b hb; simp only [List.mem_cons, List.not_mem_nil, or_false] at hb; subst hb; exact ⟨by decide, by decide⟩) (by decide +kernel)
    (by decide) nofun (m := ⟨some ⟨str "v", [(str "A", str "b")], []⟩, []⟩) (by decide +kernel) (ty := ty) (by rcases hty with rfl | rfl <;> decide)
  exact ⟨g, hg, d0, xs, ys, h1, h2⟩

example : ∃ g x, removeFrom exOptions .vorbisComments OggWrite.opus = .ok g ∧ openFile exRead g = .ok [x] ∧
    x.getStrings .TrackTitle = [] := by
  have hs : (removeFrom exOptions .vorbisComments OggWrite.opus).toOption.isSome = true := by decide +kernel
  rcases hg : removeFrom exOptions .vorbisComments OggWrite.opus with e | g
  · rw [hg] at hs; cases hs
  · obtain ⟨x, h1, -, -, h2⟩ := ogg_removed (fmt := .opus) (r := exRead) (vendor := str "libopus") opus_verified hg
      OggWrite.opus_headed ⟨OggWrite.ident.drop 8, by decide⟩ (by decide) (by decide) (by simp) rfl
      ⟨ascii "libopus", _, by decide, rfl, .inl (by decide +kernel)⟩ (by decide) (fun new hn => by
        have : ((Vorbis.createPacket ⟨str "libopus", [], []⟩ OggWrite.Format.opus.sig OggWrite.Format.opus.framing).toOption.map List.length).getD 0 < 1000 := by decide +kernel
        rw [hn] at this
        have : new.length < 1000 := this
        omega)
    exact ⟨g, x, rfl, h1, h2 _ (by decide +kernel) (by decide)⟩

example : ∃ g, removeFrom exWrite .mp4Ilst (Mp4Write.file []).bytes = .ok g ∧ openFile exRead g = .ok [] :=
  mp4_removed_partial exWrite_fair _ (Mp4Write.file_ok [] (.inl rfl)) (Mp4Read.file_clear []) (by decide) (fun c rest h => by cases h; decide)

/-! ## What is not removed -/

/-- Disagreement: removing the ID3v1 tag of a file that has none appends an empty one, which is shown as a tag; removing
it once more takes that away. -/
theorem id3v1_removal_adds : (openFile exRead mp3).map (tagIn .id3v1) = .ok none ∧
    ((removeFrom exWrite .id3v1 mp3).bind fun g => (openFile exRead g).map (tagIn .id3v1)) = .ok (some (Tag.new .id3v1)) ∧
    ((removeFrom exWrite .id3v1 mp3).bind fun g => (removeFrom exWrite .id3v1 g)) = .ok mp3 := by decide +kernel

/-- Disagreement: after its comments are removed, an Opus file still shows a tag, with the encoder. -/
theorem encoder_stays : ((removeFrom exWrite .vorbisComments OggWrite.opus).bind fun g =>
    (openFile exRead g).map fun xs => xs.map fun x => (x.type, x.getStrings .EncoderSoftware, x.items.length)) =
    .ok [(.vorbisComments, [str "libopus"], 1)] := by decide +kernel

end Lofty.Opened
