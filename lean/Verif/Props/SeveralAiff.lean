import Verif.Props.SeveralChunks
import Verif.Props.Chained
/-!
# C97: several ID3v2 tags in an AIFF file
-/
namespace Lofty.IffFiles
open Lofty.Iff Lofty.FileTags

/-! ## The claim -/

/-- C97: **several ID3v2 chunks of an AIFF file are read as one tag.**  Reading the file shows the first of its ID3v2 tags with the frames of the others
inserted in order, and the text chunks as if there were no ID3v2 chunk.  Missing: ID3v2 tags that the library did not write. -/
theorem aiff_merged_partial {o : Opts} (ho : o.readTags = true) {form : Bytes} (hform : form = ascii "AIFF" ∨ form = ascii "AIFC")
    {tags : Chunk → Id3Tag} {cs : List Chunk} {x : Aiff} (hok : ∀ d ∈ cs, d.Ok)
    (hid : ∀ d ∈ cs, d.IsId3 → ∃ s : Id3Save, s.Ok o ∧ s.encoded = .ok d.2 ∧ s.tag = some (tags d))
    (htext : cs.filter (fun d => d.IsText) = textChunks x) (hf : x.Fits) (hc : x.Clean) :
    ∃ n, ∀ k, n ≤ k →
      (o.readProps = false → ∃ m, readAiff { o with depth := k } (aiff form cs) = .ok m) ∧
      ∀ m, readAiff { o with depth := k } (aiff form cs) = .ok m →
        m.text = x.normal ∧ m.id3v2 = merged ((cs.filter fun d => d.IsId3).map fun d => (d.2, tags d)) := by
  obtain ⟨n, hn⟩ := several_tags cs hid
  refine ⟨n, fun k hk => ?_⟩
  have hr := readAiff_chunks (o := { o with depth := k }) ho hform (tags := fun d => some (tags d)) hok (hn k hk) htext hf hc
  rw [addTag_merged] at hr
  refine ⟨fun hp => ?_, fun m hm => ?_⟩
  · have : ∀ (l : List Chunk) a, l.foldlM (aiffAudio o.readProps) a = .ok a := by
      intro l
      induction l with
      | nil => intro a; rfl
      | cons d l ih =>
        intro a
        rw [List.foldlM_cons]
        unfold aiffAudio at ih ⊢
        simp only [hp, Bool.false_eq_true, if_false, ok_bind] at ih ⊢
        exact ih a
    rw [hr, show ({ o with depth := k } : Opts).readProps = o.readProps from rfl, this, ok_bind]
    unfold aiffDone
    rw [if_neg (by simp [hp])]
    exact ⟨_, rfl⟩
  · rw [hr] at hm
    obtain ⟨p, -, hm⟩ := bind_ok hm
    unfold aiffDone at hm
    split at hm
    · obtain ⟨q, -, hm⟩ := bind_ok hm
      obtain rfl := (Except.ok.injEq _ _).mp hm
      exact ⟨rfl, rfl⟩
    · obtain rfl := (Except.ok.injEq _ _).mp hm
      exact ⟨rfl, rfl⟩

/-! ## A case that meets the hypotheses -/

/-- Two ID3v2 chunks with the titles `first` and `second`. -/
def twoTitles : List Chunk := [(ascii "ID3 ", titleBytes "first"), (ascii "ID3 ", titleBytes "second")] ++ exAiff

/-- The title of the second is read. -/
example : ∃ n, ∀ k, n ≤ k → ∃ m, readAiff { exOpts true false with depth := k } (aiff (ascii "AIFF") twoTitles) = .ok m ∧
    m.text = ⟨none, none, none, none, none⟩ ∧ m.id3v2 = some ⟨.v4, exFlags, titleTag "second"⟩ := by
  have hne : titleBytes "second" ≠ titleBytes "first" := by decide +kernel
  have hfilt : twoTitles.filter (fun d => d.IsId3) = [(ascii "ID3 ", titleBytes "first"), (ascii "ID3 ", titleBytes "second")] := by decide +kernel
  obtain ⟨n, hn⟩ := aiff_merged_partial (o := exOpts true false) rfl (.inl rfl)
    (tags := fun d => if d.2 = titleBytes "first" then ⟨.v4, exFlags, titleTag "first"⟩ else ⟨.v4, exFlags, titleTag "second"⟩)
    (cs := twoTitles) (x := ⟨none, none, none, none, none⟩)
    (by
      intro d hd
      simp only [twoTitles, exAiff, List.cons_append, List.nil_append, List.mem_cons, List.not_mem_nil, or_false] at hd
      rcases hd with rfl | rfl | rfl | rfl <;> exact ⟨(validFourcc_iff (by decide)).mp (by decide), by decide +kernel⟩)
    (by
      intro d hd hI
      simp only [twoTitles, exAiff, List.cons_append, List.nil_append, List.mem_cons, List.not_mem_nil, or_false] at hd
      rcases hd with rfl | rfl | rfl | rfl
      · exact ⟨⟨true, true, exFlags, exW, none, titleTag "first"⟩, first_made.1, first_made.2, by rw [if_pos rfl]; rfl⟩
      · exact ⟨⟨true, true, exFlags, exW, none, titleTag "second"⟩, second_made.1, second_made.2, by rw [if_neg hne]; rfl⟩
      · exact absurd hI (by decide)
      · exact absurd hI (by decide))
    (by decide +kernel) ⟨by simp, by simp, by decide⟩ ⟨by simp, by simp, by simp [EvenInit]⟩
  refine ⟨n, fun k hk => ?_⟩
  obtain ⟨m, hm⟩ := (hn k hk).1 rfl
  obtain ⟨h1, h2⟩ := (hn k hk).2 m hm
  exact ⟨m, hm, by rw [h1]; rfl, by rw [h2, hfilt, List.map_cons, List.map_cons, List.map_nil, if_pos rfl, if_neg hne]; rfl⟩

end Lofty.IffFiles
