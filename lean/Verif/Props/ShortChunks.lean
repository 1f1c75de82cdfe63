import Verif.Props.SeveralAiff
/-!
# C97: ID3v2 chunks that are too short to be one
-/
namespace Lofty.IffFiles
open Lofty.Iff Lofty.FileTags

/-- The ID3v2 chunks of a file are tags that were saved, or too short for a header. -/
def SavedOrShort (o : Opts) (tags : Chunk → Id3Tag) (cs : List Chunk) : Prop :=
  ∀ d ∈ cs, d.IsId3 → d.2.length < 10 ∨ ∃ s : Id3Save, s.Ok o ∧ s.encoded = .ok d.2 ∧ s.tag = some (tags d)

/-- The tag of a chunk, if it is long enough. -/
def longTag (tags : Chunk → Id3Tag) (d : Chunk) : Option Id3Tag := if d.2.length < 10 then none else some (tags d)

theorem saved_or_short {o : Opts} (hm : o.id3.mode ≠ .strict) {tags : Chunk → Id3Tag} {cs : List Chunk} (h : SavedOrShort o tags cs) :
    ∃ n, ∀ k, n ≤ k → ∀ d ∈ cs, d.IsId3 → id3Chunk { o with depth := k } d.2 = .ok (longTag tags d) := by
  obtain ⟨n, hn⟩ := several_tags (o := o) (tags := tags) (cs.filter fun d => 10 ≤ d.2.length) (fun d hd hI => by
    obtain ⟨h1, h2⟩ := List.mem_filter.mp hd
    exact (h d h1 hI).resolve_left (by have := of_decide_eq_true h2; omega))
  refine ⟨n, fun k hk d hd hI => ?_⟩
  unfold longTag
  by_cases hl : d.2.length < 10
  · rw [if_pos hl]
    unfold id3Chunk
    rw [if_pos hl, if_neg hm]
  · rw [if_neg hl]
    exact hn k hk d (List.mem_filter.mpr ⟨hd, decide_eq_true (by omega)⟩) hI

theorem addTag_long (tags : Chunk → Id3Tag) (cs : List Chunk) (a : Option Id3Tag) :
    (cs.filter fun d => d.IsId3).foldl (fun t d => addTag t (longTag tags d)) a =
      (cs.filter fun d => d.IsId3 ∧ 10 ≤ d.2.length).foldl (fun t d => addTag t (some (tags d))) a := by
  induction cs generalizing a with
  | nil => rfl
  | cons d cs ih =>
    by_cases hI : d.IsId3
    · rw [List.filter_cons_of_pos (by simpa using hI), List.foldl_cons]
      by_cases hl : d.2.length < 10
      · rw [List.filter_cons_of_neg (by simp; omega), ih]
        unfold longTag
        rw [if_pos hl]
        cases a <;> rfl
      · rw [List.filter_cons_of_pos (by simp [hI]; omega), List.foldl_cons, ih]
        unfold longTag
        rw [if_neg hl]
    · rw [List.filter_cons_of_neg (by simp [hI]), List.filter_cons_of_neg (by simp [hI]), ih]

/-- C97: **ID3v2 chunks of a WAV file with less than ten bytes are ignored** (unless the mode is strict): the file shows what the others
make together, whatever the order of the chunks. -/
theorem wav_short_ignored {o : Opts} (ho : o.readTags = true) (hm : o.id3.mode ≠ .strict) {its : Chunk → List Item} {tags : Chunk → Id3Tag}
    {cs : List Chunk} (hok : ∀ d ∈ cs, d.Ok ∧ (d.1 = ascii "LIST" → 4 ≤ d.2.length))
    (hinfo : ∀ d ∈ cs, IsInfo d → ∃ junk, d = infoListWith (its d) junk ∧ junk.length < 8 ∧ ∀ i ∈ its d, ItemOk i)
    (hid : SavedOrShort o tags cs) (hsz : (wav cs).length < 2 ^ 32) :
    ∃ n, ∀ k, n ≤ k →
      (o.readProps = false → ∃ m, readWav { o with depth := k } (wav cs) = .ok m) ∧
      ∀ m, readWav { o with depth := k } (wav cs) = .ok m →
        m.info = (cs.filter fun d => IsInfo d).flatMap its ∧
        m.id3v2 = merged ((cs.filter fun d => d.IsId3 ∧ 10 ≤ d.2.length).map fun d => (d.2, tags d)) := by
  obtain ⟨n, hn⟩ := saved_or_short hm hid
  refine ⟨n, fun k hk => ?_⟩
  have hr := readWav_chunks (o := { o with depth := k }) ho its cs (fun d hd => ⟨(hok d hd).1, (hok d hd).2, hinfo d hd⟩) hsz
  rw [fold_wav (tags := longTag tags) cs _ (hn k hk)] at hr
  simp only [List.nil_append] at hr
  rw [addTag_long, addTag_merged] at hr
  refine ⟨fun hp => ?_, fun m hm => ?_⟩
  · have : ∀ (l : List Chunk) a, l.foldlM (wavAudio o.readProps) a = .ok a := by
      intro l
      induction l with
      | nil => intro a; rfl
      | cons d l ih =>
        intro a
        rw [List.foldlM_cons]
        unfold wavAudio at ih ⊢
        simp only [hp, Bool.false_eq_true, if_false, ok_bind] at ih ⊢
        exact ih a
    rw [hr, show ({ o with depth := k } : Opts).readProps = o.readProps from rfl, this, ok_bind, ok_bind]
    unfold wavDone
    rw [if_neg (by simp [hp])]
    exact ⟨_, rfl⟩
  · rw [hr] at hm
    obtain ⟨a, ha, hm⟩ := bind_ok hm
    obtain ⟨p, -, ha⟩ := bind_ok ha
    obtain rfl := (Except.ok.injEq _ _).mp ha
    unfold wavDone at hm
    split at hm
    · obtain ⟨q, -, hm⟩ := bind_ok hm
      obtain rfl := (Except.ok.injEq _ _).mp hm
      exact ⟨rfl, rfl⟩
    · obtain rfl := (Except.ok.injEq _ _).mp hm
      exact ⟨rfl, rfl⟩

/-- C97: and so are those of an AIFF file. -/
theorem aiff_short_ignored {o : Opts} (ho : o.readTags = true) (hm : o.id3.mode ≠ .strict) {form : Bytes} (hform : form = ascii "AIFF" ∨ form = ascii "AIFC")
    {tags : Chunk → Id3Tag} {cs : List Chunk} {x : Aiff} (hok : ∀ d ∈ cs, d.Ok) (hid : SavedOrShort o tags cs)
    (htext : cs.filter (fun d => d.IsText) = textChunks x) (hf : x.Fits) (hc : x.Clean) :
    ∃ n, ∀ k, n ≤ k → ∀ m, readAiff { o with depth := k } (aiff form cs) = .ok m →
      m.text = x.normal ∧ m.id3v2 = merged ((cs.filter fun d => d.IsId3 ∧ 10 ≤ d.2.length).map fun d => (d.2, tags d)) := by
  obtain ⟨n, hn⟩ := saved_or_short hm hid
  refine ⟨n, fun k hk m hm => ?_⟩
  have hr := readAiff_chunks (o := { o with depth := k }) ho hform (tags := longTag tags) hok (hn k hk) htext hf hc
  rw [addTag_long, addTag_merged] at hr
  rw [hr] at hm
  obtain ⟨p, -, hm⟩ := bind_ok hm
  unfold aiffDone at hm
  split at hm
  · obtain ⟨q, -, hm⟩ := bind_ok hm
    obtain rfl := (Except.ok.injEq _ _).mp hm
    exact ⟨rfl, rfl⟩
  · obtain rfl := (Except.ok.injEq _ _).mp hm
    exact ⟨rfl, rfl⟩

/-! ## A case that meets the hypotheses -/

/-- A tag, and behind it a chunk of three bytes: the tag is read. -/
example : ∃ n, ∀ k, n ≤ k → ∃ m, readWav { exOpts true false with depth := k } (wav (exWav ++ [(ascii "ID3 ", titleBytes "first"), (ascii "id3 ", [1, 2, 3])])) = .ok m ∧
    m.info = [] ∧ m.id3v2 = some ⟨.v4, exFlags, titleTag "first"⟩ := by
  obtain ⟨n, hn⟩ := wav_short_ignored (o := exOpts true false) rfl (by decide) (its := fun _ => []) (tags := fun _ => ⟨.v4, exFlags, titleTag "first"⟩)
    (cs := exWav ++ [(ascii "ID3 ", titleBytes "first"), (ascii "id3 ", [1, 2, 3])])
    (by
      intro d hd
      simp only [exWav, List.cons_append, List.nil_append, List.mem_cons, List.not_mem_nil, or_false] at hd
      rcases hd with rfl | rfl | rfl | rfl <;> exact ⟨⟨(validFourcc_iff (by decide)).mp (by decide), by decide +kernel⟩, fun h => absurd h (by decide)⟩)
    (by
      intro d hd hI
      simp only [exWav, List.cons_append, List.nil_append, List.mem_cons, List.not_mem_nil, or_false] at hd
      rcases hd with rfl | rfl | rfl | rfl <;> exact absurd hI.1 (by decide))
    (by
      intro d hd hI
      simp only [exWav, List.cons_append, List.nil_append, List.mem_cons, List.not_mem_nil, or_false] at hd
      rcases hd with rfl | rfl | rfl | rfl
      · exact absurd hI (by decide)
      · exact absurd hI (by decide)
      · exact .inr ⟨⟨true, true, exFlags, exW, none, titleTag "first"⟩, first_made.1, first_made.2, rfl⟩
      · exact .inl (by decide))
    (by decide +kernel)
  refine ⟨n, fun k hk => ?_⟩
  obtain ⟨m, h1⟩ := (hn k hk).1 rfl
  obtain ⟨h2, h3⟩ := (hn k hk).2 m h1
  have hfilt : (exWav ++ [(ascii "ID3 ", titleBytes "first"), (ascii "id3 ", [1, 2, 3])]).filter (fun d => d.IsId3 ∧ 10 ≤ d.2.length) =
      [(ascii "ID3 ", titleBytes "first")] := by decide +kernel
  refine ⟨m, h1, by rw [h2]; decide +kernel, ?_⟩
  rw [h3, hfilt]
  rfl

end Lofty.IffFiles
