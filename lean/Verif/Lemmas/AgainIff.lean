import Verif.Lemmas.IffFiles
/-!
# Lemmas: WAV and AIFF files after a second save
-/
namespace Lofty.IffFiles
open Lofty.Iff Lofty.FileTags

/-- The first chunk of a kind. -/
theorem exists_first (p : Chunk → Prop) [DecidablePred p] (l : List Chunk) :
    (∀ d ∈ l, ¬ p d) ∨ ∃ pre d post, l = pre ++ d :: post ∧ (∀ e ∈ pre, ¬ p e) ∧ p d := by
  induction l with
  | nil => simp
  | cons x l ih =>
    by_cases hx : p x
    · exact .inr ⟨[], x, l, rfl, by simp, hx⟩
    · rcases ih with h | ⟨pre, d, post, rfl, h1, h2⟩
      · left
        intro d hd
        rcases List.mem_cons.mp hd with rfl | hd
        · exact hx
        · exact h d hd
      · refine .inr ⟨x :: pre, d, post, rfl, ?_, h2⟩
        intro e he
        rcases List.mem_cons.mp he with rfl | he
        · exact hx
        · exact h1 e he

/-- The last chunk of a kind. -/
theorem exists_last (p : Chunk → Prop) [DecidablePred p] (l : List Chunk) :
    (∀ d ∈ l, ¬ p d) ∨ ∃ pre d post, l = pre ++ d :: post ∧ (∀ e ∈ post, ¬ p e) ∧ p d := by
  rcases exists_first p l.reverse with h | ⟨pre, d, post, h, h1, h2⟩
  · exact .inl fun d hd => h d (by simpa using hd)
  · refine .inr ⟨post.reverse, d, pre.reverse, ?_, fun e he => h1 e (by simpa using he), h2⟩
    have := congrArg List.reverse h
    simpa using this

theorem junk_not_id3 : ¬ (ascii "JUNK" = ascii "ID3 " ∨ ascii "JUNK" = ascii "id3 ") := by decide

/-- A second save of the same ID3v2 tag to the chunks of a RIFF or FORM file. -/
theorem writeChunkFile_again {be isWav strict strict' upper pad : Bool} {magic form b g : Bytes} (hm : FourCC magic) (hf : form.length = 4)
    {cs : List Chunk} (hok : ∀ d ∈ cs, d.Ok) (hone : (cs.filter fun d => d.IsId3).length ≤ 1)
    (hsz : (file be magic form cs).length + 2 * b.length + 18 < 2 ^ 32)
    (hsafe : ∀ pre d post, cs = pre ++ d :: post → d.IsId3 → b ≠ [] →
      if post = [] then padded b ≤ padded d.2 else isWav = true → pad = true → padded d.2 < padded b + 8)
    (h : writeChunkFile be isWav strict upper pad (file be magic form cs) b = .ok g) :
    writeChunkFile be isWav strict' upper pad g b = .ok g := by
  have hl := file_length (be := be) hm.1 hf cs
  have hts : tagChunkSize b ≤ b.length + 9 := by unfold tagChunkSize; split <;> split <;> omega
  -- once the tag is at the end
  have last : ∀ ds : List Chunk, (∀ d ∈ ds, d.Ok ∧ ¬ d.IsId3) → (file be magic form ds).length + 2 * b.length + 18 < 2 ^ 32 →
      writeChunkFile be isWav strict' upper pad (file be magic form (ds ++ newChunk upper b)) b
        = .ok (file be magic form (ds ++ newChunk upper b)) := by
    intro ds hds hs
    by_cases hb : b = []
    · subst hb
      simp only [newChunk, if_true, List.append_nil]
      rw [writeChunkFile_none hm hf hds (by simp at hs ⊢; omega)]
      simp [newChunk]
    · have e : newChunk upper b = [(if upper then ascii "ID3 " else ascii "id3 ", b)] := by unfold newChunk; rw [if_neg hb]
      have hlen := newChunk_length be upper b
      have hl2 := file_length (be := be) hm.1 hf (ds ++ newChunk upper b)
      have hl3 := file_length (be := be) hm.1 hf ds
      rw [encAll_append, List.length_append, hlen] at hl2
      have hmem : (if upper then ascii "ID3 " else ascii "id3 ", b) ∈ newChunk upper b := by rw [e]; exact List.mem_singleton.mpr rfl
      rw [e] at hl2 ⊢
      rw [writeChunkFile_some hm hf hds ⟨fourcc_id3 _, show b.length < 2 ^ 32 by omega⟩ (newChunk_isId3 hmem).1 (by simp) (by omega)
        (by intro _; rw [if_pos rfl])]
      rw [if_neg (by simp), e, List.append_nil]
  rcases exists_first (fun d => d.IsId3) cs with hno | ⟨pre, d, post, rfl, hpre, hd⟩
  · have hcs : ∀ d ∈ cs, d.Ok ∧ ¬ d.IsId3 := fun d hd => ⟨hok d hd, hno d hd⟩
    rw [writeChunkFile_none hm hf hcs (by omega)] at h
    obtain rfl := (Except.ok.injEq _ _).mp h
    exact last cs hcs hsz
  · have hpost : ∀ e ∈ post, ¬ e.IsId3 := by
      intro e he hi
      rw [List.filter_append, List.filter_cons_of_pos (by simpa using hd)] at hone
      have : e ∈ post.filter fun d => d.IsId3 := List.mem_filter.mpr ⟨he, by simpa using hi⟩
      have := List.length_pos_of_mem this
      simp only [List.length_append, List.length_cons] at hone
      omega
    rw [writeChunkFile_some hm hf (fun e he => ⟨hok e (by simp [he]), hpre e he⟩) (hok d (by simp)) hd
      (fun e he => hok e (by simp [he])) (by omega) (hsafe pre d post rfl hd)] at h
    obtain rfl := (Except.ok.injEq _ _).mp h
    split
    · rename_i hj
      obtain ⟨-, -, -, rfl⟩ := hj
      have hen : (enc be (ascii "JUNK", d.2)).length = (enc be d).length := by
        rw [enc_length, enc_length, (hok d (by simp)).1.1]; rfl
      have hl3 := file_length (be := be) hm.1 hf (pre ++ (ascii "JUNK", d.2) :: post)
      rw [encAll_append, encAll_cons] at hl3 hl
      simp only [List.length_append, hen] at hl3 hl
      have hj : ∀ e ∈ pre ++ (ascii "JUNK", d.2) :: post, e.Ok ∧ ¬ e.IsId3 := by
        intro e he
        rcases List.mem_append.mp he with he | he
        · exact ⟨hok e (by simp [he]), hpre e he⟩
        rcases List.mem_cons.mp he with rfl | he
        · exact ⟨⟨fourcc_junk, (hok d (by simp)).2⟩, junk_not_id3⟩
        · exact ⟨hok e (by simp [he]), hpost e he⟩
      rw [writeChunkFile_none hm hf hj (by simp at hsz ⊢; omega)]
      simp [newChunk]
    · refine last (pre ++ post) ?_ ?_
      · intro e he
        rcases List.mem_append.mp he with he | he
        · exact ⟨hok e (by simp [he]), hpre e he⟩
        · exact ⟨hok e (by simp [he]), hpost e he⟩
      · have hl3 := file_length (be := be) hm.1 hf (pre ++ post)
        rw [encAll_append, encAll_cons] at hl
        rw [encAll_append] at hl3
        simp only [List.length_append] at hl3 hl
        omega

/-- Saving another list of items to a WAV file. -/
theorem writeInfo_again {strict strict' strict'' : Bool} {cs : List Chunk} {tail g : Bytes} {items items' : List Item}
    (hok : ∀ d ∈ cs, d.Ok ∧ (d.1 = ascii "LIST" → 4 ≤ d.2.length)) (heven : ∀ d ∈ cs, IsInfo d → d.2.length % 2 = 0)
    (hk : ∀ i ∈ items, FourCC (utf8 i.1)) (hk' : ∀ i ∈ items', FourCC (utf8 i.1)) (hne : items ≠ [])
    (hsz : (wav cs).length + (encAll false (written items)).length + (encAll false (written items')).length < 2 ^ 32)
    (h : writeInfo strict (wav cs ++ tail) items = .ok g) : writeInfo strict' g items' = writeInfo strict'' (wav cs ++ tail) items' := by
  have hplain : ∀ d ∈ cs, ¬ IsInfo d → d.Plain := fun d hd hi => ⟨(hok d hd).1, fun hL => ⟨(hok d hd).2 hL, fun h => hi ⟨hL, h⟩⟩⟩
  have hw : ∃ d, written items = [(ascii "LIST", ascii "INFO" ++ d)] ∧ d.length % 2 = 0 := by
    unfold written
    rw [if_neg hne]
    refine ⟨_, rfl, encAll_even _ _ ?_⟩
    intro d hd
    obtain ⟨i, hi, rfl⟩ := List.mem_map.mp hd
    exact (hk i (List.mem_filter.mp hi).1).1
  obtain ⟨dn, hdn, hev⟩ := hw
  rw [wav_length] at hsz
  rcases exists_first IsInfo cs with hno | ⟨pre, d, post, rfl, hpre, hd⟩
  · have hcs : ∀ d ∈ cs, d.Plain := fun d hd => hplain d hd (hno d hd)
    rw [writeInfo_append strict cs tail items hcs hk (by rw [wav_length]; omega) (by rw [encAll_append]; simp; omega)] at h
    obtain rfl := (Except.ok.injEq _ _).mp h
    rw [writeInfo_append strict'' cs tail items' hcs hk' (by rw [wav_length]; omega) (by rw [encAll_append]; simp; omega)]
    rw [hdn] at hsz ⊢
    rw [writeInfo_replace_partial strict' cs [] dn tail items' hcs hev hk' (by rw [wav_length, encAll_append]; simp at hsz ⊢; omega)
      (by rw [encAll_append, encAll_append, encAll_nil]; simp; omega), List.append_nil]
  · obtain ⟨d1, d2⟩ := d
    obtain ⟨rfl, hd2⟩ : d1 = ascii "LIST" ∧ d2.take 4 = ascii "INFO" := hd
    obtain ⟨d3, rfl⟩ : ∃ d3, d2 = ascii "INFO" ++ d3 := ⟨d2.drop 4, by rw [← hd2, List.take_append_drop]⟩
    have hev0 : d3.length % 2 = 0 := by
      have := heven (ascii "LIST", ascii "INFO" ++ d3) (by simp) ⟨rfl, hd2⟩
      simp only [List.length_append, ascii_info_length] at this
      omega
    have hcs : ∀ d ∈ pre, d.Plain := fun d hd => hplain d (by simp [hd]) (hpre d hd)
    rw [encAll_append, encAll_cons] at hsz
    simp only [List.length_append] at hsz
    rw [writeInfo_replace_partial strict pre post d3 tail items hcs hev0 hk
      (by rw [wav_length, encAll_append, encAll_cons]; simp only [List.length_append]; omega)
      (by rw [encAll_append, encAll_append]; simp only [List.length_append]; omega)] at h
    obtain rfl := (Except.ok.injEq _ _).mp h
    rw [writeInfo_replace_partial strict'' pre post d3 tail items' hcs hev0 hk'
      (by rw [wav_length, encAll_append, encAll_cons]; simp only [List.length_append]; omega)
      (by rw [encAll_append, encAll_append]; simp only [List.length_append]; omega)]
    rw [hdn] at hsz ⊢
    rw [encAll_cons, encAll_nil, List.append_nil] at hsz
    rw [List.append_assoc, List.cons_append, List.nil_append]
    rw [writeInfo_replace_partial strict' pre post dn tail items' hcs hev hk'
      (by rw [wav_length, encAll_append, encAll_cons]; simp only [List.length_append]; omega)
      (by rw [encAll_append, encAll_append]; simp only [List.length_append]; omega)]

theorem encAll_filter_le {be : Bool} (p : Chunk → Prop) [DecidablePred p] (ds : List Chunk) :
    (encAll be (ds.filter fun d => p d)).length ≤ (encAll be ds).length := by
  induction ds with
  | nil => exact Nat.le_refl _
  | cons d ds ih =>
    rw [encAll_cons]
    by_cases h : p d
    · rw [List.filter_cons_of_pos (by simpa using h), encAll_cons]
      simp only [List.length_append]
      omega
    · rw [List.filter_cons_of_neg (by simpa using h)]
      simp only [List.length_append]
      omega

/-- Saving other text chunks to an AIFF file. -/
theorem writeAiff_again {strict strict' strict'' : Bool} {form g : Bytes} {cs : List Chunk} {t t' : Aiff}
    (hform : form = ascii "AIFF" ∨ form = ascii "AIFC") (hf : t.Fits) (hf' : t'.Fits) (hok : ∀ d ∈ cs, d.Ok)
    (hcomm : ∃ d ∈ cs, d.1 = ascii "COMM") (hne : textChunks t ≠ [])
    (hsz : (aiff form cs).length + (encAll true (textChunks t)).length + (encAll true (textChunks t')).length < 2 ^ 32)
    (h : writeAiff strict (aiff form cs) t = .ok g) : writeAiff strict' g t' = writeAiff strict'' (aiff form cs) t' := by
  have hl : form.length = 4 := by rcases hform with rfl | rfl <;> rfl
  obtain ⟨c, ts, hts⟩ : ∃ c ts, textChunks t = c :: ts := by
    cases h : textChunks t with
    | nil => exact absurd h hne
    | cons c ts => exact ⟨c, ts, rfl⟩
  have hc : c.IsText := textChunks_isText t c (by rw [hts]; simp)
  have hrest : ts.filter (fun d => ¬ d.IsText) = [] := by
    rw [List.filter_eq_nil_iff]
    intro d hd
    simpa using textChunks_isText t d (by rw [hts]; simp [hd])
  rw [aiff_length hl] at hsz
  rcases exists_first (fun d => d.IsText) cs with hno | ⟨pre, old, post, rfl, hpre, hold⟩
  · rcases exists_last (fun d => d.1 = ascii "COMM") cs with hnc | ⟨pre, comm, post, rfl, hpost, hcm⟩
    · obtain ⟨d, hd, h⟩ := hcomm
      exact absurd h (hnc d hd)
    rw [encAll_append, encAll_cons] at hsz
    simp only [List.length_append] at hsz
    rw [writeAiff_insert strict form pre post comm t hform hf hok hcm hpost hno
      (by rw [aiff_length hl, encAll_append, encAll_cons, encAll_append]; simp only [List.length_append]; omega)] at h
    obtain rfl := (Except.ok.injEq _ _).mp h
    rw [writeAiff_insert strict'' form pre post comm t' hform hf' hok hcm hpost hno
      (by rw [aiff_length hl, encAll_append, encAll_cons, encAll_append]; simp only [List.length_append]; omega)]
    have hpf : post.filter (fun d => ¬ d.IsText) = post := List.filter_eq_self.mpr fun d hd => by simpa using hno d (by simp [hd])
    have hall : ∀ d ∈ pre ++ [comm] ++ textChunks t ++ post, d.Ok := by
      intro d hd
      simp only [List.mem_append, List.mem_singleton] at hd
      rcases hd with ((hd | rfl) | hd) | hd
      · exact hok d (by simp [hd])
      · exact hok d (by simp)
      · exact textChunks_ok hf d hd
      · exact hok d (by simp [hd])
    have e : pre ++ comm :: (textChunks t ++ post) = (pre ++ [comm]) ++ c :: (ts ++ post) := by rw [hts]; simp
    rw [e, writeAiff_replace strict' form (pre ++ [comm]) (ts ++ post) c t' hform hf' (by rw [← e]; intro d hd; exact hall d (by simpa using hd))
      ⟨comm, by simp, hcm⟩ (by
        intro d hd
        simp only [List.mem_append, List.mem_singleton] at hd
        rcases hd with hd | rfl
        · exact hno d (by simp [hd])
        · exact hno d (by simp)) hc
      (by
        rw [List.filter_append, hrest, hpf, aiff_length hl]
        simp only [encAll_append, encAll_cons, encAll_nil, List.length_append, List.nil_append, List.append_nil]
        omega)]
    rw [List.filter_append, hrest, hpf]
    simp
  · rw [encAll_append, encAll_cons] at hsz
    simp only [List.length_append] at hsz
    have hfl := encAll_filter_le (be := true) (fun d => ¬ d.IsText) post
    rw [writeAiff_replace strict form pre post old t hform hf hok hcomm hpre hold
      (by rw [aiff_length hl, encAll_append, encAll_append]; simp only [List.length_append]; omega)] at h
    obtain rfl := (Except.ok.injEq _ _).mp h
    rw [writeAiff_replace strict'' form pre post old t' hform hf' hok hcomm hpre hold
      (by rw [aiff_length hl, encAll_append, encAll_append]; simp only [List.length_append]; omega)]
    have hff : (post.filter fun d => ¬ d.IsText).filter (fun d => ¬ d.IsText) = post.filter fun d => ¬ d.IsText := by
      rw [List.filter_filter]; simp
    have e : pre ++ textChunks t ++ post.filter (fun d => ¬ d.IsText) = pre ++ c :: (ts ++ post.filter fun d => ¬ d.IsText) := by
      rw [hts]; simp
    have hcm : ∃ d ∈ pre ++ c :: (ts ++ post.filter fun d => ¬ d.IsText), d.1 = ascii "COMM" := by
      obtain ⟨d, hd, h1⟩ := hcomm
      refine ⟨d, ?_, h1⟩
      have hnt : ¬ d.IsText := by unfold Chunk.IsText; rw [h1]; decide
      simp only [List.mem_append, List.mem_cons] at hd ⊢
      rcases hd with hd | rfl | hd
      · exact .inl hd
      · exact absurd hold hnt
      · exact .inr (.inr (.inr (List.mem_filter.mpr ⟨hd, by simpa using hnt⟩)))
    rw [e, writeAiff_replace strict' form pre (ts ++ post.filter fun d => ¬ d.IsText) c t' hform hf' (by
        rw [← e]
        intro d hd
        simp only [List.mem_append] at hd
        rcases hd with (hd | hd) | hd
        · exact hok d (by simp [hd])
        · exact textChunks_ok hf d hd
        · exact hok d (by simp [(List.mem_filter.mp hd).1])) hcm hpre hc
      (by
        rw [List.filter_append, hrest, hff, aiff_length hl]
        simp only [encAll_append, List.length_append, List.nil_append]
        omega)]
    rw [List.filter_append, hrest, hff, List.nil_append]

end Lofty.IffFiles
