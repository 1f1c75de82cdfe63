import Verif.Props.ExperimentalFiles
import Verif.Props.StrictChunks
import Verif.Props.ExtendedChunks
/-!
# C102: ID3v2.3 tags saved with the experimental flag to WAV and AIFF files
-/
namespace Lofty.IffFiles
open Lofty.Iff Lofty.FileTags

/-- An ID3v2.3 tag with the experimental flag and at least one frame that is written. -/
def Id3Save.Experimental (s : Id3Save) : Prop :=
  s.w.v23 = true ∧ s.fl.experimental = true ∧ s.fl.crc = false ∧ s.fl.restrictions = none ∧ (∀ f ∈ s.frames, Id3v2.IdOk f.id.asStr) ∧
    ∃ body, Id3v2.createItems s.w s.frames = .ok body ∧ body ≠ []

/-- The chunk with such a tag cannot be read, whatever the options. -/
theorem experimental_chunk {s : Id3Save} (hs : s.Experimental) {b : Bytes} (hb : s.encoded = .ok b) :
    newChunk s.upper b = [(if s.upper then ascii "ID3 " else ascii "id3 ", b)] ∧ ∃ e, ∀ o, id3Chunk o b = .error e := by
  obtain ⟨hw, hexp, hcrc, hres, hid, body, hi, hne⟩ := hs
  rcases Id3v2.createItems_first hid hi with rfl | ⟨b0, b1, b2, b3, body, rfl, h16⟩
  · exact absurd rfl hne
  have hfs : s.frames ≠ [] := by
    intro h
    rw [h] at hi
    cases hi
  unfold Id3Save.encoded at hb
  rw [if_neg (by simpa using hfs), hi, ok_bind, hw] at hb
  have hlen : 10 ≤ b.length := by
    by_contra hc
    obtain ⟨-, e, p, hp, hr⟩ := Id3v2.v23_experimental_refused (fl := { s.fl with footer := false }) hexp hcrc hres h16 hb [] []
    rw [List.nil_append, List.append_nil] at hr
    unfold Id3v2.parseHeader Id3v2.need at hr
    rw [if_neg (by simp only [List.length_nil]; omega)] at hr
    injection hr with hr
    injection hr with _ hr
    simp only [List.length_nil] at hr hp
    omega
  obtain ⟨-, e, p, -, hr⟩ := Id3v2.v23_experimental_refused (fl := { s.fl with footer := false }) hexp hcrc hres h16 hb [] []
  rw [List.nil_append, List.append_nil] at hr
  refine ⟨?_, e, fun o => ?_⟩
  · unfold newChunk
    rw [if_neg (by rintro rfl; simp at hlen)]
  · unfold id3Chunk
    rw [if_neg (by omega), show Id3v2.parseHeader b 0 = .error (e, p) from hr]

/-- C102, a disagreement: **a WAV file without ID3v2 tag in which an ID3v2.3 tag was saved with the experimental flag is refused** when its tags
are to be read. -/
theorem wav_experimental_unreadable {o : Opts} (ho : o.readTags = true) {cs : List Chunk} {t : WavTags} (hw : WavHas o cs t)
    (hno : ∀ d ∈ cs, ¬ d.IsId3) {s : Id3Save} (hs : s.Experimental) {b : Bytes} (hb : s.encoded = .ok b)
    (hsz : (wav cs).length + b.length + 9 < 2 ^ 32) :
    ∃ cs', (WavSave.id3v2 s).run (wav cs) = .ok (wav cs') ∧ ∀ m, readWav o (wav cs') ≠ .ok m := by
  obtain ⟨hnew, e, he⟩ := experimental_chunk hs hb
  obtain ⟨hok, hinfo, -⟩ := hw
  have hmagic : FourCC (ascii "RIFF") := (validFourcc_iff rfl).mp (by decide)
  have hrun : (WavSave.id3v2 s).run (wav cs) = .ok (wav (cs ++ newChunk s.upper b)) := by
    have h := writeChunkFile_none (be := false) (isWav := true) (strict := s.strict) (upper := s.upper) (padded := s.padding.isSome)
      (form := ascii "WAVE") hmagic rfl (fun d hd => ⟨(hok d hd).1, hno d hd⟩) hsz
    unfold WavSave.run saveId3
    unfold Id3Save.encoded at hb
    simp only
    rw [hb, ok_bind]
    exact h
  have hnl := newChunk_length false s.upper b
  have hts : tagChunkSize b ≤ b.length + 9 := by unfold tagChunkSize; split <;> split <;> omega
  have hsz' : (wav (cs ++ newChunk s.upper b)).length < 2 ^ 32 := by
    rw [wav_length] at hsz ⊢
    rw [encAll_append, List.length_append]
    omega
  have hmem : (if s.upper then ascii "ID3 " else ascii "id3 ", b) ∈ newChunk s.upper b := by rw [hnew]; simp
  refine ⟨_, hrun, wav_bad_chunk ho (its := fun _ => t.info) ?_ ?_ hsz' (List.mem_append_right _ hmem) (newChunk_isId3 hmem).1 (he o)⟩
  · intro d hd
    rcases List.mem_append.mp hd with hd | hd
    · exact hok d hd
    · rw [hnew, List.mem_singleton] at hd
      subst hd
      refine ⟨⟨fourcc_id3 _, by simp only; omega⟩, fun h => absurd h ?_⟩
      show ¬ (if s.upper then ascii "ID3 " else ascii "id3 ") = ascii "LIST"
      cases s.upper <;> decide
  · intro d hd hI
    rcases List.mem_append.mp hd with hd | hd
    · rcases hinfo with ⟨hn, -⟩ | ⟨junk, hn, hj1, -, hj3⟩
      · exact absurd hI (by simpa using List.filter_eq_nil_iff.mp hn d hd)
      · have : d ∈ cs.filter (fun d => IsInfo d) := List.mem_filter.mpr ⟨hd, by simpa using hI⟩
        rw [hn, List.mem_singleton] at this
        exact ⟨junk, this, hj1, hj3⟩
    · exact absurd hI (IsInfo.not_id3 (newChunk_isId3 hd).1)

/-- C102, a disagreement: the same of AIFF files. -/
theorem aiff_experimental_unreadable {o : Opts} (ho : o.readTags = true) {form : Bytes} (hform : form = ascii "AIFF" ∨ form = ascii "AIFC")
    {cs : List Chunk} {t : AiffTags} (hw : AiffHas o cs t) (hno : ∀ d ∈ cs, ¬ d.IsId3) {s : Id3Save} (hs : s.Experimental) {b : Bytes}
    (hb : s.encoded = .ok b) (hsz : (aiff form cs).length + b.length + 9 < 2 ^ 32) :
    ∃ cs', (AiffSave.id3v2 s).run (aiff form cs) = .ok (aiff form cs') ∧ ∀ m, readAiff o (aiff form cs') ≠ .ok m := by
  obtain ⟨hnew, e, he⟩ := experimental_chunk hs hb
  obtain ⟨hok, -, ⟨x, htext, hfits, hclean, -⟩, -⟩ := hw
  have hfl : form.length = 4 := by rcases hform with rfl | rfl <;> rfl
  have hmagic : FourCC (ascii "FORM") := (validFourcc_iff rfl).mp (by decide)
  have hrun : (AiffSave.id3v2 s).run (aiff form cs) = .ok (aiff form (cs ++ newChunk s.upper b)) := by
    have h := writeChunkFile_none (be := true) (isWav := false) (strict := s.strict) (upper := s.upper) (padded := s.padding.isSome)
      (form := form) hmagic hfl (fun d hd => ⟨hok d hd, hno d hd⟩) hsz
    unfold AiffSave.run saveId3
    unfold Id3Save.encoded at hb
    simp only
    rw [hb, ok_bind]
    exact h
  have hmem : (if s.upper then ascii "ID3 " else ascii "id3 ", b) ∈ newChunk s.upper b := by rw [hnew]; simp
  refine ⟨_, hrun, aiff_bad_chunk ho hform (x := x) ?_ ?_ hfits hclean (List.mem_append_right _ hmem) (newChunk_isId3 hmem).1 (he o)⟩
  · intro d hd
    rcases List.mem_append.mp hd with hd | hd
    · exact hok d hd
    · rw [hnew, List.mem_singleton] at hd
      subst hd
      exact ⟨fourcc_id3 _, by simp only; omega⟩
  · have : (newChunk s.upper b).filter (fun d => d.IsText) = [] := by
      rw [List.filter_eq_nil_iff]
      intro d hd
      simpa using id3_not_text (newChunk_isId3 hd).1
    rw [List.filter_append, this, List.append_nil]; exact htext

/-! ## A case that meets the hypotheses -/

/-- A title with the experimental flag. -/
def experimental : Id3Save := ⟨false, false, ⟨false, true, false, false, none⟩, FileTags.exW23, none, FileTags.titleTag "first"⟩

theorem experimental_ok : experimental.Experimental := by
  have hb : ((Id3v2.createItems FileTags.exW23 (FileTags.titleTag "first")).toOption.map fun b => b.isEmpty) = some false := by decide +kernel
  refine ⟨rfl, rfl, rfl, rfl, ?_, ?_⟩
  · intro f hf
    simp only [experimental, FileTags.titleTag, List.mem_singleton] at hf
    subst hf
    show Id3v2.IdOk (str "TIT2")
    decide
  · rcases h : Id3v2.createItems FileTags.exW23 (FileTags.titleTag "first") with e | b
    · rw [h] at hb; simp [Except.toOption] at hb
    · rw [h] at hb
      refine ⟨b, h, ?_⟩
      rintro rfl
      simp [Except.toOption] at hb

example : ∃ cs', (WavSave.id3v2 experimental).run (wav exWav) = .ok (wav cs') ∧ ∀ m, readWav (exOpts true false) (wav cs') ≠ .ok m := by
  have h0 : WavHas (exOpts true false) exWav ⟨[], none⟩ := by
    refine ⟨fun d hd => ⟨?_, ?_⟩, .inl ⟨by decide, rfl⟩, .inl ⟨by decide, rfl⟩⟩
    · simp only [exWav, List.mem_cons, List.not_mem_nil, or_false] at hd
      rcases hd with rfl | rfl <;> exact ok_fourcc (by simp) (by decide)
    · revert d; decide
  have hs : (experimental.encoded.toOption.map fun b => decide ((wav exWav).length + b.length + 9 < 2 ^ 32)) = some true := by decide +kernel
  rcases hb : experimental.encoded with e | b
  · rw [hb] at hs; simp [Except.toOption] at hs
  · rw [hb] at hs
    have hsz : (wav exWav).length + b.length + 9 < 2 ^ 32 := by simpa [Except.toOption] using hs
    exact wav_experimental_unreadable rfl h0 (by decide) experimental_ok hb hsz

end Lofty.IffFiles
