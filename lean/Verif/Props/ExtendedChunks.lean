import Verif.Props.ExtendedHeader
import Verif.Props.IffFiles
/-!
# C101: ID3v2 tags saved with a checksum or restrictions to WAV and AIFF files
-/
namespace Lofty.IffFiles
open Lofty.Iff Lofty.FileTags

/-- An ID3v2.4 tag whose flags ask for a checksum or restrictions. -/
def Id3Save.Extended (s : Id3Save) : Prop :=
  s.frames ≠ [] ∧ s.w.v23 = false ∧ s.fl.Extended ∧ s.fl.unsynchronisation = false ∧
    ∀ b, Id3v2.createItems s.w s.frames = .ok b → b.length + s.padding.getD 0 + 14 < 2 ^ 32

/-- What a reader makes of it. -/
def Id3Save.emptied (s : Id3Save) : Id3Tag := ⟨.v4, { s.fl with footer := false, crc := false, restrictions := none }, []⟩

theorem extended_chunk_lead {o : Opts} {s : Id3Save} (hs : s.Extended) {b : Bytes} (hb : s.encoded = .ok b) : LeadOf o.id3 b (some s.emptied) := by
  obtain ⟨hne, hv, hx, hu, hsz⟩ := hs
  have := extended_lead (o := o) (fl := { s.fl with footer := false }) (w := s.w) (padding := s.padding) (fs := s.frames) ⟨hne, hv, hx, hu, hsz⟩ (b := b) hb
  exact this

/-- The new chunk as it is read. -/
theorem extended_new {o : Opts} {s : Id3Save} (hs : s.Extended) {b : Bytes} (hb : s.encoded = .ok b) :
    newChunk s.upper b = [(if s.upper then ascii "ID3 " else ascii "id3 ", b)] ∧
    (newChunk s.upper b).filter (fun d => d.IsId3) = newChunk s.upper b ∧
    ∃ n, ∀ k, n ≤ k → id3Chunk { o with depth := k } b = .ok (some s.emptied) := by
  have hlead := extended_chunk_lead (o := o) hs hb
  have hne : b ≠ [] := by
    rintro rfl
    have := lead_length hlead
    simp at this
  refine ⟨by unfold newChunk; rw [if_neg hne], ?_, id3Chunk_lead hlead⟩
  rw [List.filter_eq_self]
  intro d hd
  simpa using (newChunk_isId3 hd).1

/-- C101: **a tag saved with a checksum or restrictions to a WAV file** that had no ID3v2 tag is read without any frame; the INFO list and the other
chunks are untouched. -/
theorem wav_frames_lost {o : Opts} (ho : o.readTags = true) {cs : List Chunk} {t : WavTags} (hw : WavHas o cs t) (hno : ∀ d ∈ cs, ¬ d.IsId3)
    {s : Id3Save} (hs : s.Extended) {b : Bytes} (hb : s.encoded = .ok b) (hsz : (wav cs).length + b.length + 9 < 2 ^ 32) :
    ∃ cs', (WavSave.id3v2 s).run (wav cs) = .ok (wav cs') ∧ wavRest cs' = wavRest cs ∧ ∃ n, ∀ k, n ≤ k →
      (o.readProps = false → ∃ m, readWav { o with depth := k } (wav cs') = .ok m) ∧
      ∀ m, readWav { o with depth := k } (wav cs') = .ok m → m.id3v2 = some s.emptied ∧ m.info = t.info := by
  obtain ⟨hnew, hfilter, hread⟩ := extended_new (o := o) hs hb
  obtain ⟨hok, hinfo, -⟩ := hw
  have hmagic : FourCC (ascii "RIFF") := (validFourcc_iff rfl).mp (by decide)
  have hrun : (WavSave.id3v2 s).run (wav cs) = .ok (wav (cs ++ newChunk s.upper b)) := by
    have h := writeChunkFile_none (be := false) (isWav := true) (strict := s.strict) (upper := s.upper) (padded := s.padding.isSome)
      (form := ascii "WAVE") hmagic rfl (fun d hd => ⟨(hok d hd).1, hno d hd⟩) hsz
    unfold WavSave.run saveId3
    unfold Id3Save.encoded at hb
    simp only
    rw [hb, ok_bind]
    exact h
  have hnl := newChunk_length false s.upper b
  have hts : tagChunkSize b ≤ b.length + 9 := by unfold tagChunkSize; split <;> split <;> omega
  have hsz' : (wav (cs ++ newChunk s.upper b)).length < 2 ^ 32 := by
    rw [wav_length] at hsz ⊢
    rw [encAll_append, List.length_append]
    omega
  have hhas : WavHas o (cs ++ newChunk s.upper b) { t with id3v2 := some s.emptied } := by
    refine ⟨?_, ?_, .inr ?_⟩
    · intro e he
      rcases List.mem_append.mp he with he | he
      · exact hok e he
      · rw [hnew, List.mem_singleton] at he
        subst he
        refine ⟨⟨fourcc_id3 _, by simp only; omega⟩, fun h => absurd h ?_⟩
        show ¬ (if s.upper then ascii "ID3 " else ascii "id3 ") = ascii "LIST"
        cases s.upper <;> decide
    · have : (newChunk s.upper b).filter (fun d => IsInfo d) = [] := by
        rw [List.filter_eq_nil_iff]
        intro d hd
        simpa using IsInfo.not_id3 (newChunk_isId3 hd).1
      rw [List.filter_append, this, List.append_nil]; exact hinfo
    · refine ⟨(if s.upper then ascii "ID3 " else ascii "id3 ", b), ?_, hread⟩
      rw [List.filter_append, hfilter, hnew]
      rw [List.filter_eq_nil_iff.mpr (fun d hd => by simpa using hno d hd)]
      rfl
  have hrest : wavRest (cs ++ newChunk s.upper b) = wavRest cs := by
    have hnil : wavRest (newChunk s.upper b) = [] := by
      unfold wavRest
      rw [List.filter_eq_nil_iff]
      intro d hd
      have := (newChunk_isId3 hd).1
      simp [this]
    unfold wavRest at hnil ⊢
    rw [List.filter_append, hnil, List.append_nil]
  obtain ⟨n, hn⟩ := readWav_has ho hhas hsz'
  refine ⟨_, hrun, hrest, n, fun k hk => ⟨fun hp => ?_, fun m hm => ?_⟩⟩
  · have : ∀ (l : List Chunk) a, l.foldlM (wavAudio o.readProps) a = .ok a := by
      intro l
      induction l with
      | nil => intro a; rfl
      | cons d l ih =>
        intro a
        rw [List.foldlM_cons]
        unfold wavAudio at ih ⊢
        simp only [hp, Bool.false_eq_true, if_false, ok_bind] at ih ⊢
        exact ih a
    rw [hn k hk, this, ok_bind]
    unfold wavDone
    rw [if_neg (by simp [hp])]
    exact ⟨_, rfl⟩
  · rw [hn k hk] at hm
    obtain ⟨p, -, hm⟩ := bind_ok hm
    unfold wavDone at hm
    split at hm
    · obtain ⟨q, -, hm⟩ := bind_ok hm
      obtain rfl := (Except.ok.injEq _ _).mp hm
      exact ⟨rfl, rfl⟩
    · obtain rfl := (Except.ok.injEq _ _).mp hm
      exact ⟨rfl, rfl⟩

/-- C101: the same of AIFF files. -/
theorem aiff_frames_lost {o : Opts} (ho : o.readTags = true) {form : Bytes} (hform : form = ascii "AIFF" ∨ form = ascii "AIFC")
    {cs : List Chunk} {t : AiffTags} (hw : AiffHas o cs t) (hno : ∀ d ∈ cs, ¬ d.IsId3)
    {s : Id3Save} (hs : s.Extended) {b : Bytes} (hb : s.encoded = .ok b) (hsz : (aiff form cs).length + b.length + 9 < 2 ^ 32) :
    ∃ cs', (AiffSave.id3v2 s).run (aiff form cs) = .ok (aiff form cs') ∧ aiffRest cs' = aiffRest cs ∧ ∃ n, ∀ k, n ≤ k →
      ∀ m, readAiff { o with depth := k } (aiff form cs') = .ok m → m.id3v2 = some s.emptied ∧ m.text = t.text := by
  obtain ⟨hnew, hfilter, hread⟩ := extended_new (o := o) hs hb
  obtain ⟨hok, hcomm, htext, -⟩ := hw
  have hfl : form.length = 4 := by rcases hform with rfl | rfl <;> rfl
  have hmagic : FourCC (ascii "FORM") := (validFourcc_iff rfl).mp (by decide)
  have hrun : (AiffSave.id3v2 s).run (aiff form cs) = .ok (aiff form (cs ++ newChunk s.upper b)) := by
    have h := writeChunkFile_none (be := true) (isWav := false) (strict := s.strict) (upper := s.upper) (padded := s.padding.isSome)
      (form := form) hmagic hfl (fun d hd => ⟨hok d hd, hno d hd⟩) hsz
    unfold AiffSave.run saveId3
    unfold Id3Save.encoded at hb
    simp only
    rw [hb, ok_bind]
    exact h
  have hhas : AiffHas o (cs ++ newChunk s.upper b) { t with id3v2 := some s.emptied } := by
    refine ⟨?_, ?_, ?_, .inr ?_⟩
    · intro e he
      rcases List.mem_append.mp he with he | he
      · exact hok e he
      · rw [hnew, List.mem_singleton] at he
        subst he
        exact ⟨fourcc_id3 _, by simp only; omega⟩
    · obtain ⟨e, he, hc⟩ := hcomm
      exact ⟨e, by simp [he], hc⟩
    · have : (newChunk s.upper b).filter (fun d => d.IsText) = [] := by
        rw [List.filter_eq_nil_iff]
        intro d hd
        simpa using id3_not_text (newChunk_isId3 hd).1
      rw [List.filter_append, this, List.append_nil]; exact htext
    · refine ⟨(if s.upper then ascii "ID3 " else ascii "id3 ", b), ?_, hread⟩
      rw [List.filter_append, hfilter, hnew]
      rw [List.filter_eq_nil_iff.mpr (fun d hd => by simpa using hno d hd)]
      rfl
  have hrest : aiffRest (cs ++ newChunk s.upper b) = aiffRest cs := by
    have hnil : aiffRest (newChunk s.upper b) = [] := by
      unfold aiffRest
      rw [List.filter_eq_nil_iff]
      intro d hd
      have := (newChunk_isId3 hd).1
      simp [this]
    unfold aiffRest at hnil ⊢
    rw [List.filter_append, hnil, List.append_nil]
  obtain ⟨n, hn⟩ := readAiff_has ho hform hhas
  refine ⟨_, hrun, hrest, n, fun k hk m hm => ?_⟩
  rw [hn k hk] at hm
  obtain ⟨p, -, hm⟩ := bind_ok hm
  unfold aiffDone at hm
  split at hm
  · obtain ⟨q, -, hm⟩ := bind_ok hm
    obtain rfl := (Except.ok.injEq _ _).mp hm
    exact ⟨rfl, rfl⟩
  · obtain rfl := (Except.ok.injEq _ _).mp hm
    exact ⟨rfl, rfl⟩

/-! ## A case that meets the hypotheses -/

/-- A title with restrictions. -/
def restricted : Id3Save := ⟨false, false, ⟨false, false, false, false, some (Id3v2.Restrictions.fromByte 0)⟩, FileTags.exW, none, FileTags.titleTag "first"⟩

theorem restricted_extended : restricted.Extended := by
  refine ⟨by simp [restricted, FileTags.titleTag], rfl, .inr (by simp [restricted]), rfl, fun b hb => ?_⟩
  have : ((Id3v2.createItems FileTags.exW (FileTags.titleTag "first")).toOption.map List.length).getD 0 < 1000 := by decide +kernel
  rw [show Id3v2.createItems FileTags.exW (FileTags.titleTag "first") = .ok b from hb] at this
  have : b.length < 1000 := this
  simp [restricted]; omega

example : ∃ cs', (WavSave.id3v2 restricted).run (wav exWav) = .ok (wav cs') ∧ ∃ n, ∀ k, n ≤ k → ∃ m,
    readWav { exOpts true false with depth := k } (wav cs') = .ok m ∧ m.id3v2 = some ⟨.v4, FileTags.exFlags, []⟩ := by
  have h0 : WavHas (exOpts true false) exWav ⟨[], none⟩ := by
    refine ⟨fun d hd => ⟨?_, ?_⟩, .inl ⟨by decide, rfl⟩, .inl ⟨by decide, rfl⟩⟩
    · simp only [exWav, List.mem_cons, List.not_mem_nil, or_false] at hd
      rcases hd with rfl | rfl <;> exact ok_fourcc (by simp) (by decide)
    · revert d; decide
  have hs : (restricted.encoded.toOption.map fun b => decide ((wav exWav).length + b.length + 9 < 2 ^ 32)) = some true := by decide +kernel
  rcases hb : restricted.encoded with e | b
  · rw [hb] at hs; simp [Except.toOption] at hs
  · rw [hb] at hs
    have hsz : (wav exWav).length + b.length + 9 < 2 ^ 32 := by simpa [Except.toOption] using hs
    obtain ⟨cs', h1, -, n, hn⟩ := wav_frames_lost (o := exOpts true false) rfl h0 (by decide) restricted_extended hb hsz
    refine ⟨cs', h1, n, fun k hk => ?_⟩
    obtain ⟨m, hm⟩ := (hn k hk).1 rfl
    exact ⟨m, hm, ((hn k hk).2 m hm).1⟩

end Lofty.IffFiles
