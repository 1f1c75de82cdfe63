import Verif.Lemmas.Again
import Verif.Lemmas.AgainFlac
import Verif.Lemmas.AgainIff
import Verif.Lemmas.AgainMp4
import Verif.Props.IffFiles
/-!
# The last save decides (C78)

What a file looks like after saves does not depend on what was saved before: the last save of each tag decides, and saving the
same tag again changes nothing, byte for byte.
-/

/-! ## Tags around the audio: MPEG, AAC, Monkey's Audio, WavPack, MPC -/
namespace Lofty.FileTags

/-- **C78.** After any saves of ID3v2, APE and ID3v1 tags to a file that had none, the file is the last ID3v2 tag, the audio, the
last APE tag and the last ID3v1 tag, and not a byte else.  `_partial`: the tags must be ones that the library finds again
(`Save.Found`; an empty ID3v1 tag is not, see `empty_id3v1_toggles`). -/
theorem last_saves_decide_partial {o : Opts} {audio g : Bytes} (ha : Audio o audio) {l : List Save} (hl : ∀ s ∈ l, s.Found audio)
    (h : runAll o.junk l audio = .ok g) :
    ∃ lead ape v1, lastBytes .id3v2 l = .ok lead ∧ lastBytes .ape l = .ok ape ∧ lastBytes .id3v1 l = .ok v1 ∧
      g = lead ++ (audio ++ (ape ++ v1)) := by
  obtain ⟨p, h1, _, h2, h3, h4⟩ := runAll_bytes ha _ l g rfl hl h
  exact ⟨p.lead, p.ape, p.v1, h2, h3, h4, h1⟩

/-- **C78.** Neither the order in which different tags are saved nor anything that was saved over matters: if two sequences of saves
have the same last save of each kind, the two files are the same. -/
theorem order_irrelevant_partial {o : Opts} {audio g g' : Bytes} (ha : Audio o audio) {l l' : List Save} (hl : ∀ s ∈ l, s.Found audio)
    (hl' : ∀ s ∈ l', s.Found audio) (hsame : ∀ k, lastSave k l = lastSave k l') (h : runAll o.junk l audio = .ok g)
    (h' : runAll o.junk l' audio = .ok g') : g = g' := by
  obtain ⟨a, b, c, h1, h2, h3, rfl⟩ := last_saves_decide_partial ha hl h
  obtain ⟨a', b', c', h1', h2', h3', rfl⟩ := last_saves_decide_partial ha hl' h'
  have hb : ∀ k, lastBytes k l = lastBytes k l' := by
    intro k
    unfold lastBytes
    rw [hsame]
  rw [hb] at h1 h2 h3
  rw [h1] at h1'
  rw [h2] at h2'
  rw [h3] at h3'
  cases h1'
  cases h2'
  cases h3'
  rfl

/-- **C78.** Saving a tag a second time changes nothing. -/
theorem save_again_partial {o : Opts} {audio g : Bytes} (ha : Audio o audio) {l : List Save} {s : Save} (hl : ∀ s ∈ l, s.Found audio)
    (hs : s.Found audio) (h : runAll o.junk (l ++ [s]) audio = .ok g) : s.run o.junk g = .ok g := by
  obtain ⟨p, h1, hp, h2, h3, h4⟩ := runAll_bytes ha _ (l ++ [s]) g rfl (by
    intro x hx
    rcases List.mem_append.mp hx with hx | hx
    · exact hl x hx
    · rw [List.mem_singleton] at hx; subst hx; exact hs) h
  have hb : ∀ k, lastBytes k (l ++ [s]) = if s.kind = k then s.encoded else lastBytes k l := by
    intro k
    unfold lastBytes
    rw [lastSave_concat]
    by_cases hk : s.kind = k <;> simp [hk]
  rw [h1]
  rw [hb] at h2 h3 h4
  cases hk : s.kind with
  | id3v2 =>
    rw [if_pos hk] at h2
    have := (step_bytes ha hs hp h2).1
    rw [hk] at this
    exact this
  | ape =>
    rw [if_pos hk] at h3
    have := (step_bytes ha hs hp h3).1
    rw [hk] at this
    exact this
  | id3v1 =>
    rw [if_pos hk] at h4
    have := (step_bytes ha hs hp h4).1
    rw [hk] at this
    exact this

/-- **Disagreement with C78**: saving an empty ID3v1 tag to any file without one adds an empty tag; saving it again takes it away;
and so on. -/
theorem empty_id3v1_toggles (lossy : Bool) {f : Bytes} (hf : ¬ Id3v1.Tagged f) :
    ∃ b, b.length = 128 ∧ Id3v1.write lossy f Id3v1.Tag.empty = .ok (f ++ b) ∧
      Id3v1.write lossy (f ++ b) Id3v1.Tag.empty = .ok f := by
  have he : ∃ b, Id3v1.encode lossy Id3v1.Tag.empty = .ok b := by
    cases lossy
    · exact ⟨_, rfl⟩
    · exact ⟨_, rfl⟩
  obtain ⟨b, hb⟩ := he
  obtain ⟨h1, h2, -⟩ := Id3v1.parse_encode (strict := false) hb
  refine ⟨b, h1, Id3v1.write_untagged hf hb, ?_⟩
  have := Id3v1.write_tagged (audio := f) h1 h2 hb
  rw [if_pos rfl, List.append_nil] at this
  exact this

/-- Saves of all kinds, some of them twice. -/
def manySaves : List Save :=
  [.id3v1 false { Id3v1.Tag.empty with title := some (str "a"), year := some 1999 },
   .ape Ape.exampleTag,
   .id3v2 ⟨false, false, false, false, none⟩ ⟨false, false, true⟩ (some 10) Id3v2.sample,
   .ape ⟨false, [⟨false, str "Album", .text (str "b")⟩]⟩]

/-- The last of them, in another order. -/
def fewSaves : List Save :=
  [.id3v2 ⟨false, false, false, false, none⟩ ⟨false, false, true⟩ (some 10) Id3v2.sample,
   .ape ⟨false, [⟨false, str "Album", .text (str "b")⟩]⟩,
   .id3v1 false { Id3v1.Tag.empty with title := some (str "a"), year := some 1999 }]

theorem manySaves_found : ∀ s ∈ manySaves, s.Found threeFrames := by
  have ha : ∀ t b, Ape.createTag t = .ok b →
      (((Ape.createTag t).toOption.getD []).length < 2 ^ 32 ∧ ¬ Id3v1.Tagged (threeFrames ++ (Ape.createTag t).toOption.getD [])) →
      b.length < 2 ^ 32 ∧ ¬ Id3v1.Tagged (threeFrames ++ b) := by
    intro t b hb h
    rw [hb] at h
    exact h
  have hok := someSaves_ok true true
  intro s hs
  simp only [manySaves, List.mem_cons, List.not_mem_nil, or_false] at hs
  rcases hs with rfl | rfl | rfl | rfl
  · intro h; exact absurd (congrArg Id3v1.Tag.year h) (by simp [Id3v1.Tag.empty])
  · exact .inr ⟨Ape.exampleTag_good, fun b hb => ha _ b hb (by unfold Id3v1.Tagged; decide +kernel)⟩
  · refine .inr ⟨rfl, rfl, fun h => absurd h (by decide), fun b hb => ?_⟩
    have : ((Id3v2.createItems ⟨false, false, true⟩ Id3v2.sample).toOption.map List.length).getD 0 < 1000 := by decide +kernel
    rw [hb] at this
    have : b.length < 1000 := this
    simp; omega
  · refine .inr ⟨?_, fun b hb => ha _ b hb (by unfold Id3v1.Tagged; decide +kernel)⟩
    have := hok (.ape ⟨false, [⟨false, str "Album", .text (str "b")⟩]⟩) (by simp [someSaves])
    rcases this with h | ⟨h, _⟩
    · cases h
    · exact h

/-- Four saves, and three of them in another order, give the same file; and the last one again changes nothing. -/
example : ∃ g, runAll 100 manySaves threeFrames = .ok g ∧ runAll 100 fewSaves threeFrames = .ok g ∧
    (Save.ape ⟨false, [⟨false, str "Album", .text (str "b")⟩]⟩).run 100 g = .ok g := by
  have h1 : (runAll 100 manySaves threeFrames).toOption.isSome = true := by decide +kernel
  have h2 : (runAll 100 fewSaves threeFrames).toOption.isSome = true := by decide +kernel
  rcases hg : runAll 100 manySaves threeFrames with e | g
  · rw [hg] at h1; simp [Except.toOption] at h1
  rcases hg' : runAll 100 fewSaves threeFrames with e | g'
  · rw [hg'] at h2; simp [Except.toOption] at h2
  have hfew : ∀ s ∈ fewSaves, s.Found threeFrames := by
    intro s hs
    apply manySaves_found
    simp only [fewSaves, List.mem_cons, List.not_mem_nil, or_false] at hs
    rcases hs with rfl | rfl | rfl <;> simp [manySaves]
  have e := order_irrelevant_partial (threeFrames_audio true true) manySaves_found hfew (by intro k; cases k <;> rfl) hg hg'
  subst e
  refine ⟨g, rfl, rfl, ?_⟩
  exact save_again_partial (o := exOpts true true) (threeFrames_audio true true)
    (l := manySaves.take 3) (fun s hs => manySaves_found s (List.mem_of_mem_take hs)) (manySaves_found _ (by simp [manySaves])) hg

end Lofty.FileTags

/-! ## FLAC -/
namespace Lofty.Flac
open Spec (MBlock)

/-- **C78, FLAC.** Saving the same comments and pictures a second time changes nothing.  `_partial`: if there is preferred padding, the
file must have a padding block already (`second_save_differs`). -/
theorem flac_again_partial {pre si audio g : Bytes} {bs : List MBlock} {tag : Vorbis.Tag} {preferred : Option Nat}
    {vendor : Str} {new : List MBlock} (hpre : Skipped pre) (hsi : si.length < 2 ^ 24) (hsi2 : 2 ≤ si.length)
    (hv : ∀ b ∈ bs, b.Valid) (hvendor : scanVendor tag.vendor bs = .ok vendor) (hnew : tagBlocks vendor tag = .ok new)
    (hpad : preferred = none ∨ ∃ b ∈ bs, b.1 = 1)
    (hw : writeTo (stream pre ((0, si) :: bs) audio) tag preferred = .ok g) : writeTo g tag preferred = .ok g := by
  rcases saved_stream hpre hsi hsi2 hv hvendor hnew hw with h | ⟨bs', vendor', _, _, _, _, _, h1, h2⟩
  · exact h
  · rcases hpad with hpad | ⟨b, hb, hb1⟩
    · exact absurd hpad h2
    · unfold hasType at h1
      rw [List.any_eq_false] at h1
      exact absurd (h1 b hb) (by simp [hb1])

/-- **C78, FLAC.** In any case nothing changes from the second save on. -/
theorem flac_settles {pre si audio g : Bytes} {bs : List MBlock} {tag : Vorbis.Tag} {preferred : Option Nat}
    {vendor : Str} {new : List MBlock} (hpre : Skipped pre) (hsi : si.length < 2 ^ 24) (hsi2 : 2 ≤ si.length)
    (hv : ∀ b ∈ bs, b.Valid) (hvendor : scanVendor tag.vendor bs = .ok vendor) (hnew : tagBlocks vendor tag = .ok new)
    (hw : writeTo (stream pre ((0, si) :: bs) audio) tag preferred = .ok g) :
    ∃ g', writeTo g tag preferred = .ok g' ∧ writeTo g' tag preferred = .ok g' := by
  rcases saved_stream hpre hsi hsi2 hv hvendor hnew hw with h | ⟨bs', vendor', rfl, k1, k2, k3, k4, _⟩
  · exact ⟨g, h, h⟩
  · have h := writeTo_stream pre si audio bs' tag preferred vendor' new hpre hsi hsi2 k1 k2 k3
    refine ⟨_, h, flac_again_partial hpre hsi hsi2 k1 k2 k3 (.inr ?_) h⟩
    unfold hasType at k4
    obtain ⟨b, hb, h1⟩ := List.any_eq_true.mp k4
    exact ⟨b, hb, by simpa using h1⟩

/-- **Disagreement with C78**: saving the same tag to a FLAC file a second time changes the file: the first save puts padding behind
the comments, the second one puts the comments behind the padding. -/
theorem second_save_differs :
    (do
      let g ← writeTo (stream [] [(0, List.replicate 34 7)] [0xFF, 0xF8]) Vorbis.exampleTag (some 16)
      let g' ← writeTo g Vorbis.exampleTag (some 16)
      .ok (decide (g = g'), g.length == g'.length)) = (.ok (false, true) : Except Err (Bool × Bool)) := by
  decide +kernel

/-- A file with a picture and padding, saved twice with preferred padding. -/
example : ∃ g, writeTo (stream [] [(0, List.replicate 34 7), (2, [1, 2]), (4, [1, 0, 0, 0, 0x76, 0, 0, 0, 0]), (6, [9]), (1, [0])]
      [0xFF, 0xF8]) Vorbis.exampleTag (some 4) = .ok g ∧ writeTo g Vorbis.exampleTag (some 4) = .ok g := by
  have h1 : (tagBlocks (str "v") Vorbis.exampleTag).toOption.isSome := by decide +kernel
  have h2 : scanVendor Vorbis.exampleTag.vendor [(2, [1, 2]), (4, [1, 0, 0, 0, 0x76, 0, 0, 0, 0]), (6, [9]), (1, [0])]
      = .ok (str "v") := by decide +kernel
  have hv : ∀ b ∈ ([(2, [1, 2]), (4, [1, 0, 0, 0, 0x76, 0, 0, 0, 0]), (6, [9]), (1, [0])] : List MBlock), b.Valid := by
    intro b hb
    simp only [List.mem_cons, List.not_mem_nil, or_false] at hb
    rcases hb with rfl | rfl | rfl | rfl <;> exact ⟨by decide, by decide⟩
  cases h : tagBlocks (str "v") Vorbis.exampleTag with
  | error e => rw [h] at h1; cases h1
  | ok new =>
    have hw := writeTo_stream [] (List.replicate 34 7) [0xFF, 0xF8] _ Vorbis.exampleTag (some 4) (str "v")
      new skipped_nil (by decide) (by decide) hv h2 h
    exact ⟨_, hw, flac_again_partial skipped_nil (by decide) (by decide) hv h2 h (.inr ⟨(1, [0]), by simp, rfl⟩) hw⟩

end Lofty.Flac

/-! ## WAV and AIFF -/
namespace Lofty.IffFiles
open Lofty.Iff Lofty.FileTags

/-- **C78, WAV, ID3v2.** Saving the same ID3v2 tag a second time changes nothing.  `_partial`: at most one ID3v2 tag in the file, and
the first save must be one that leaves a proper file (`Id3Save.Safe`; see `grown_size`, `junk_swallows_data`). -/
theorem wav_id3v2_again_partial {cs : List Chunk} {s : Id3Save} {b g : Bytes} (hok : ∀ d ∈ cs, d.Ok)
    (hone : (cs.filter fun d => d.IsId3).length ≤ 1) (hsafe : s.Safe true cs) (hb : s.encoded = .ok b)
    (hsz : (wav cs).length + 2 * b.length + 18 < 2 ^ 32) (h : (WavSave.id3v2 s).run (wav cs) = .ok g) :
    (WavSave.id3v2 s).run g = .ok g := by
  have hmagic : FourCC (ascii "RIFF") := (validFourcc_iff rfl).mp (by decide)
  have hrun : ∀ f, (WavSave.id3v2 s).run f = writeChunkFile false true s.strict s.upper s.padding.isSome f b := by
    intro f
    unfold WavSave.run saveId3
    unfold Id3Save.encoded at hb
    simp only
    rw [hb, ok_bind]
  rw [hrun] at h ⊢
  exact writeChunkFile_again (magic := ascii "RIFF") (form := ascii "WAVE") hmagic rfl hok hone hsz
    (fun pre d post h1 h2 h3 => hsafe pre d post b h1 h2 hb h3) h

/-- **C78, AIFF, ID3v2.** The same for AIFF files. -/
theorem aiff_id3v2_again_partial {form : Bytes} {cs : List Chunk} {s : Id3Save} {b g : Bytes} (hform : form.length = 4) (hok : ∀ d ∈ cs, d.Ok)
    (hone : (cs.filter fun d => d.IsId3).length ≤ 1) (hsafe : s.Safe false cs) (hb : s.encoded = .ok b)
    (hsz : (aiff form cs).length + 2 * b.length + 18 < 2 ^ 32) (h : (AiffSave.id3v2 s).run (aiff form cs) = .ok g) :
    (AiffSave.id3v2 s).run g = .ok g := by
  have hmagic : FourCC (ascii "FORM") := (validFourcc_iff rfl).mp (by decide)
  have hrun : ∀ f, (AiffSave.id3v2 s).run f = writeChunkFile true false s.strict s.upper s.padding.isSome f b := by
    intro f
    unfold AiffSave.run saveId3
    unfold Id3Save.encoded at hb
    simp only
    rw [hb, ok_bind]
  rw [hrun] at h ⊢
  exact writeChunkFile_again (magic := ascii "FORM") (form := form) hmagic hform hok hone hsz
    (fun pre d post h1 h2 h3 => hsafe pre d post b h1 h2 hb h3) h

/-- **C78, WAV, INFO.** The last save decides: after an INFO list was saved, saving another one (or the same, or an empty one) gives
what saving it in the first place would have given, byte for byte.  `_partial`: the list saved first is not empty, and INFO lists of
the file have even sizes. -/
theorem wav_info_last_partial {strict strict' : Bool} {cs : List Chunk} {tail g : Bytes} {items items' : List Item}
    (hok : ∀ d ∈ cs, d.Ok ∧ (d.1 = ascii "LIST" → 4 ≤ d.2.length)) (heven : ∀ d ∈ cs, IsInfo d → d.2.length % 2 = 0)
    (hk : ∀ i ∈ items, FourCC (utf8 i.1)) (hk' : ∀ i ∈ items', FourCC (utf8 i.1)) (hne : items ≠ [])
    (hsz : (wav cs).length + (encAll false (written items)).length + (encAll false (written items')).length < 2 ^ 32)
    (h : (WavSave.info strict items).run (wav cs ++ tail) = .ok g) :
    (WavSave.info strict' items').run g = (WavSave.info strict' items').run (wav cs ++ tail) :=
  writeInfo_again hok heven hk hk' hne hsz h

/-- **C78, AIFF, text chunks.** The same for the text chunks of an AIFF file. -/
theorem aiff_text_last_partial {strict strict' : Bool} {form g : Bytes} {cs : List Chunk} {t t' : Aiff}
    (hform : form = ascii "AIFF" ∨ form = ascii "AIFC") (hf : t.Fits) (hf' : t'.Fits) (hok : ∀ d ∈ cs, d.Ok)
    (hcomm : ∃ d ∈ cs, d.1 = ascii "COMM") (hne : textChunks t ≠ [])
    (hsz : (aiff form cs).length + (encAll true (textChunks t)).length + (encAll true (textChunks t')).length < 2 ^ 32)
    (h : (AiffSave.text strict t).run (aiff form cs) = .ok g) :
    (AiffSave.text strict' t').run g = (AiffSave.text strict' t').run (aiff form cs) :=
  writeAiff_again hform hf hf' hok hcomm hne hsz h

theorem exWav_ok : ∀ d ∈ exWav, d.Ok ∧ (d.1 = ascii "LIST" → 4 ≤ d.2.length) := by
  intro d hd
  simp only [exWav, List.mem_cons, List.not_mem_nil, or_false] at hd
  rcases hd with rfl | rfl
  · exact ⟨ok_fourcc (by simp) (by decide), fun h => absurd h (by decide)⟩
  · exact ⟨ok_fourcc (by simp) (by decide), fun h => absurd h (by decide)⟩

theorem exAiff_ok : ∀ d ∈ exAiff, d.Ok := by
  intro d hd
  simp only [exAiff, List.mem_cons, List.not_mem_nil, or_false] at hd
  rcases hd with rfl | rfl <;> exact ok_fourcc (by simp) (by decide)

/-- An ID3v2 tag saved twice to a WAV and to an AIFF file without one. -/
example : ∃ g, (WavSave.id3v2 (exSave Id3v2.sample)).run (wav exWav) = .ok g ∧ (WavSave.id3v2 (exSave Id3v2.sample)).run g = .ok g := by
  have h1 : ((WavSave.id3v2 (exSave Id3v2.sample)).run (wav exWav)).toOption.isSome = true := by decide +kernel
  have h2 : (exSave Id3v2.sample).encoded.toOption.isSome = true := by decide +kernel
  rcases hg : (WavSave.id3v2 (exSave Id3v2.sample)).run (wav exWav) with e | g
  · rw [hg] at h1; simp [Except.toOption] at h1
  rcases hb : (exSave Id3v2.sample).encoded with e | b
  · rw [hb] at h2; simp [Except.toOption] at h2
  have hl := exSave_size hb
  have hw : (wav exWav).length < 1000 := by decide +kernel
  exact ⟨g, rfl, wav_id3v2_again_partial (fun d hd => (exWav_ok d hd).1) (by decide) (safe_none (by decide)) hb (by omega) hg⟩

example : ∃ g, (AiffSave.id3v2 (exSave Id3v2.sample)).run (aiff (ascii "AIFF") exAiff) = .ok g ∧
    (AiffSave.id3v2 (exSave Id3v2.sample)).run g = .ok g := by
  have h1 : ((AiffSave.id3v2 (exSave Id3v2.sample)).run (aiff (ascii "AIFF") exAiff)).toOption.isSome = true := by decide +kernel
  have h2 : (exSave Id3v2.sample).encoded.toOption.isSome = true := by decide +kernel
  rcases hg : (AiffSave.id3v2 (exSave Id3v2.sample)).run (aiff (ascii "AIFF") exAiff) with e | g
  · rw [hg] at h1; simp [Except.toOption] at h1
  rcases hb : (exSave Id3v2.sample).encoded with e | b
  · rw [hb] at h2; simp [Except.toOption] at h2
  have hl := exSave_size hb
  have hw : (aiff (ascii "AIFF") exAiff).length < 1000 := by decide +kernel
  exact ⟨g, rfl, aiff_id3v2_again_partial rfl exAiff_ok (by decide) (safe_none (by decide)) hb (by omega) hg⟩

/-- An INFO list saved over another one. -/
example : ∃ g, (WavSave.info false [(str "IART", str "a")]).run (wav exWav) = .ok g ∧
    (WavSave.info true [(str "INAM", str "bc")]).run g = (WavSave.info true [(str "INAM", str "bc")]).run (wav exWav) := by
  have h1 : ((WavSave.info false [(str "IART", str "a")]).run (wav exWav)).toOption.isSome = true := by decide +kernel
  rcases hg : (WavSave.info false [(str "IART", str "a")]).run (wav exWav) with e | g
  · rw [hg] at h1; simp [Except.toOption] at h1
  have hk : ∀ (k : Str) (v : Str), k ∈ [str "IART", str "INAM"] → ∀ i ∈ [(k, v)], FourCC (utf8 i.1) := by
    intro k v hk i hi
    rw [List.mem_singleton] at hi
    subst hi
    simp only [List.mem_cons, List.not_mem_nil, or_false] at hk
    rcases hk with rfl | rfl
    · exact (validFourcc_iff (b := utf8 (str "IART")) rfl).mp (by decide)
    · exact (validFourcc_iff (b := utf8 (str "INAM")) rfl).mp (by decide)
  have := wav_info_last_partial (tail := []) (strict := false) (strict' := true) (items := [(str "IART", str "a")])
    (items' := [(str "INAM", str "bc")]) exWav_ok (by decide) (hk _ _ (by simp)) (hk _ _ (by simp)) (by simp) (by decide +kernel)
    (by rw [List.append_nil]; exact hg)
  rw [List.append_nil] at this
  exact ⟨g, rfl, this⟩

/-- **Disagreement with C78**: after saving an ID3v2 tag that is longer than the one at the end of a WAV file, the same tag cannot be
saved again (the first save leaves a wrong size); and if the tag lies before the audio and shrinks, the second save changes the file
again. -/
theorem wav_second_save_differs :
    (runWav [.id3v2 (exSave exShort), .id3v2 (exSave Id3v2.sample)] (wav exSilence)).map List.length = .ok 498 ∧
    (runWav [.id3v2 (exSave exShort), .id3v2 (exSave Id3v2.sample), .id3v2 (exSave Id3v2.sample)] (wav exSilence)).map List.length
      = .error .sizeMismatch ∧
    (do
      let g ← runWav [.id3v2 (exSave exShort)] (wav [exSilence[0], (ascii "ID3 ", exBytes Id3v2.sample), exSilence[1]])
      let g' ← runWav [.id3v2 (exSave exShort)] g
      .ok (decide (g = g'))) = (.ok false : Except Err Bool) := by
  decide +kernel

end Lofty.IffFiles

/-! ## MP4 -/
namespace Lofty.Mp4Read
open Lofty.Text Lofty.Mp4 Lofty.Ilst Lofty.Mp4Write

/-- The first save. -/
theorem first_save (x : File) (hx : x.Ok) (hv : x.version ≠ [] ∨ x.items2 ≠ []) (t : Tag) (hne : t ≠ [])
    {o : Opts} (hat : ∀ a ∈ t, AtomOk o a) (mode : Mode) (pad : Option Nat) (hpad : ∀ k, pad = some k → 8 ≤ k)
    (hsz : 8 * x.bytes.length + 8 * (t.flatMap atomBox).length + 7 * pad.getD 0 + 64 < 2 ^ 30) :
    ∃ s l, (x.fit (box (ascii "ilst") (t.flatMap atomBox)) pad).1 = box (ascii "ilst") (t.flatMap atomBox) ++ frees l ∧
      build t = .ok (box (ascii "ilst") (t.flatMap atomBox)) ∧ (savedFile x s (t.flatMap atomBox) l).Ok ∧
      writeTo x.bytes t mode pad = .ok (savedFile x s (t.flatMap atomBox) l).bytes ∧
      (savedFile x s (t.flatMap atomBox) l).bytes.length ≤ 2 * x.bytes.length + 8 + (t.flatMap atomBox).length + pad.getD 0 := by
  have hb : build t = .ok (box (ascii "ilst") (t.flatMap atomBox)) :=
    build_layout t hne (fun a ha => ⟨fun d hd => valueOk_writable ((hat a ha).2.2 d hd), header_ok (hat a ha).1⟩) (by omega)
  have hnl : (box (ascii "ilst") (t.flatMap atomBox)).length = 8 + (t.flatMap atomBox).length := box_length _ _ rfl
  have hsp := space1_lt x
  have hw := write_partial x hx t mode pad _ hb (by intro e; rw [e] at hnl; simp at hnl; omega) hpad (by rw [hnl]; omega)
  obtain ⟨l, hl⟩ := fit_boxes x (t.flatMap atomBox) pad
  have hfl := fit_le x (box (ascii "ilst") (t.flatMap atomBox)) pad hpad
  rw [hl, ← savedFile_bytes] at hw
  rw [hl, hnl] at hfl
  have hlen := savedFile_length x hx (moved x.start (x.fit (box (ascii "ilst") (t.flatMap atomBox)) pad).2) (t.flatMap atomBox) l
  exact ⟨_, l, hl, hb, savedFile_ok x hx _ _ l hv (by omega), hw, by omega⟩

/-- **C78, MP4.** Saving the same tag a second time changes nothing.  `_partial`: the new tag must fit in the space there is, or there
must be no padding behind the old one (`mp4_second_save_differs`); and the conditions of C37, C58. -/
theorem mp4_again_partial (x : File) (hx : x.Ok) (hv : x.version ≠ [] ∨ x.items2 ≠ []) (t : Tag) (hne : t ≠ [])
    {o : Opts} (hat : ∀ a ∈ t, AtomOk o a) (mode : Mode) (pad : Option Nat) (hpad : ∀ k, pad = some k → 8 ≤ k)
    (hsz : 8 * x.bytes.length + 8 * (t.flatMap atomBox).length + 7 * pad.getD 0 + 64 < 2 ^ 30)
    (hroom : (t.flatMap atomBox).length + 16 < x.space.length ∨ x.free2 = []) :
    ∃ g, writeTo x.bytes t mode pad = .ok g ∧ ∀ mode', writeTo g t mode' pad = .ok g := by
  obtain ⟨s, l, h1, hb, hok, hw, hlen⟩ := first_save x hx hv t hne hat mode pad hpad hsz
  have hnl : (box (ascii "ilst") (t.flatMap atomBox)).length = 8 + (t.flatMap atomBox).length := box_length _ _ rfl
  obtain ⟨l', hl', h2⟩ := fit_padding x (t.flatMap atomBox) pad hpad (by rw [hnl]; rcases hroom with h | h; · left; omega
                                                                         · exact .inr h)
  have he : frees l = frees l' := List.append_cancel_left (h1.symm.trans h2)
  have hbytes : (savedFile x s (t.flatMap atomBox) l).bytes = (savedFile x s (t.flatMap atomBox) l').bytes := by
    rw [savedFile_bytes, savedFile_bytes, he]
  have hsp := space1_lt x
  have hfl := fit_le x (box (ascii "ilst") (t.flatMap atomBox)) pad hpad
  rw [h2, hnl] at hfl
  refine ⟨_, hw, fun mode' => ?_⟩
  rw [hbytes] at hlen ⊢
  exact write_same _ (savedFile_ok x hx s _ l' hv (by omega)) t mode' pad hb hpad rfl hl' (by
    show 2 * _ + (box (ascii "ilst") (t.flatMap atomBox)).length + _ < _
    rw [hnl]; omega)

/-- **C78, MP4.** In any case nothing changes from the second save on. -/
theorem mp4_settles (x : File) (hx : x.Ok) (hv : x.version ≠ [] ∨ x.items2 ≠ []) (t : Tag) (hne : t ≠ [])
    {o : Opts} (hat : ∀ a ∈ t, AtomOk o a) (mode : Mode) (pad : Option Nat) (hpad : ∀ k, pad = some k → 8 ≤ k)
    (hsz : 8 * x.bytes.length + 8 * (t.flatMap atomBox).length + 7 * pad.getD 0 + 64 < 2 ^ 30) :
    ∃ g g', writeTo x.bytes t mode pad = .ok g ∧ writeTo g t mode pad = .ok g' ∧ g'.length = g.length ∧
      writeTo g' t mode pad = .ok g' := by
  obtain ⟨s, l, h1, hb, hok, hw, hlen⟩ := first_save x hx hv t hne hat mode pad hpad hsz
  obtain ⟨g', k1, k2, k3⟩ := same_settles _ hok hv t mode pad hb hpad rfl (by omega)
  exact ⟨_, g', hw, k1, k2, k3⟩

/-- **Disagreement with C78**: if the padding behind the tag does not suffice for the first save, the second save overwrites it, as it
now finds enough room. -/
theorem mp4_second_save_differs :
    (do
      let g ← writeTo (file [List.replicate 20 7]).bytes sample .strict none
      let g' ← writeTo g sample .strict none
      .ok (decide (g = g'), g.length == g'.length)) = (.ok (false, true) : Except Err (Bool × Bool)) := by
  decide +kernel

/-- Saving twice, in the padding and with growth. -/
example : ∃ g, writeTo (file [List.replicate 50 7]).bytes sample .strict none = .ok g ∧ ∀ mode', writeTo g sample mode' none = .ok g :=
  mp4_again_partial _ (file_ok _ (.inr rfl)) (.inl (by decide)) sample (by decide) sample_ok .strict none (by intro k h; cases h)
    (by decide +kernel) (.inl (by decide +kernel))

example : ∃ g, writeTo (file []).bytes sample .strict (some 1024) = .ok g ∧ ∀ mode', writeTo g sample mode' (some 1024) = .ok g :=
  mp4_again_partial _ (file_ok _ (.inl rfl)) (.inl (by decide)) sample (by decide) sample_ok .strict (some 1024)
    (by intro k h; injection h with h; subst h; decide) (by decide +kernel) (.inr rfl)

end Lofty.Mp4Read
