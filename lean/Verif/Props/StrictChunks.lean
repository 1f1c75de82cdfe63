import Verif.Props.ShortChunks
/-!
# C97: ID3v2 chunks that cannot be read
-/
namespace Lofty.IffFiles
open Lofty.Iff Lofty.FileTags

/-- One ID3v2 chunk that cannot be read is enough. -/
theorem steps_refused {o : Opts} {its : Chunk → List Item} {d : Chunk} {e : Err} (hI : d.IsId3) (he : id3Chunk o d.2 = .error e) :
    ∀ (cs : List Chunk), d ∈ cs → ∀ (a b : WavAcc), cs.foldlM (wavStep o its) a ≠ .ok b := by
  intro cs
  induction cs with
  | nil => intro hd; cases hd
  | cons c cs ih =>
    intro hd a b h
    rw [List.foldlM_cons] at h
    obtain ⟨a', ha, h⟩ := bind_ok h
    rcases List.mem_cons.mp hd with rfl | hd
    · unfold wavStep at ha
      rw [if_neg (IsInfo.not_id3 hI), if_pos hI, he] at ha
      cases ha
    · exact ih hd a' b h

/-- C97: **an ID3v2 chunk that cannot be read refuses the whole WAV file**, wherever it is and whatever the other chunks are. -/
theorem wav_bad_chunk {o : Opts} (ho : o.readTags = true) {its : Chunk → List Item} {cs : List Chunk}
    (hok : ∀ d ∈ cs, d.Ok ∧ (d.1 = ascii "LIST" → 4 ≤ d.2.length))
    (hinfo : ∀ d ∈ cs, IsInfo d → ∃ junk, d = infoListWith (its d) junk ∧ junk.length < 8 ∧ ∀ i ∈ its d, ItemOk i)
    (hsz : (wav cs).length < 2 ^ 32) {d : Chunk} (hd : d ∈ cs) (hI : d.IsId3) {e : Err} (he : id3Chunk o d.2 = .error e) :
    ∀ m, readWav o (wav cs) ≠ .ok m := by
  intro m hm
  rw [readWav_chunks ho its cs (fun d hd => ⟨(hok d hd).1, (hok d hd).2, hinfo d hd⟩) hsz] at hm
  obtain ⟨a, ha, -⟩ := bind_ok hm
  exact steps_refused hI he cs hd _ a ha

/-- C97: **in strict mode a WAV file with an ID3v2 chunk of less than ten bytes is refused**; in the other modes the chunk is ignored
(`wav_short_ignored`). -/
theorem wav_short_refused {o : Opts} (ho : o.readTags = true) (hm : o.id3.mode = .strict) {its : Chunk → List Item} {cs : List Chunk}
    (hok : ∀ d ∈ cs, d.Ok ∧ (d.1 = ascii "LIST" → 4 ≤ d.2.length))
    (hinfo : ∀ d ∈ cs, IsInfo d → ∃ junk, d = infoListWith (its d) junk ∧ junk.length < 8 ∧ ∀ i ∈ its d, ItemOk i)
    (hsz : (wav cs).length < 2 ^ 32) {d : Chunk} (hd : d ∈ cs) (hI : d.IsId3) (hl : d.2.length < 10) :
    ∀ m, readWav o (wav cs) ≠ .ok m :=
  wav_bad_chunk ho hok hinfo hsz hd hI (e := .parse) (by unfold id3Chunk; rw [if_pos hl, if_pos hm])

/-! ## AIFF -/

theorem aiff_id3_bad {o : Opts} (ho : o.readTags = true) {d : Chunk} {e : Err} {t : Nat} (hok : d.Ok) (hI : d.IsId3)
    (he : id3Chunk o d.2 = .error e) (a : AiffAcc) : Step true (aiffChunk o) t d a (.error e) := by
  refine Step.fail fun f pre rest R start hf => ?_
  unfold aiffChunk
  have hT' : d.1 = ascii "ID3 " ∨ d.1 = ascii "id3 " := hI
  simp only
  rw [if_pos ⟨hT', ho⟩, readAll (be := true) (d := d) (a := pre) hf hok.1.1, ok_bind]
  simp only
  rw [he, error_bind]

/-- The loop stops at a chunk that cannot be read, if not before. -/
theorem aiff_steps_bad {o : Opts} (ho : o.readTags = true) {t : Nat} {y : Iff.AiffAcc} {d : Chunk} {e : Err} (hI : d.IsId3)
    (he : id3Chunk o d.2 = .error e) : ∀ (cs : List Chunk) (a : AiffAcc), d ∈ cs → (∀ d ∈ cs, d.Ok) →
    Iff.Steps (decide (o.id3.mode = .strict)) (fun _ => .ok ()) (cs.filter fun d => d.IsText) a.text y →
    ∃ e', Steps true (aiffChunk o) t cs a (.error e') := by
  intro cs
  induction cs with
  | nil => intro a hd; cases hd
  | cons c cs ih =>
    intro a hd hok h
    have ih := fun a hd => ih a hd (fun e he => hok e (by simp [he]))
    have hc := hok c (by simp)
    by_cases hT : c.IsText
    · have hne : d ≠ c := by rintro rfl; exact id3_not_text hI hT
      rw [List.filter_cons_of_pos (by simpa using hT)] at h
      obtain ⟨z, -, hz, h⟩ := h
      obtain ⟨e', hs⟩ := ih { a with text := z } ((List.mem_cons.mp hd).resolve_left hne) h
      exact ⟨e', .cons hc (aiff_text_step ho hc hT hz a rfl) hs⟩
    · rw [List.filter_cons_of_neg (by simpa using hT)] at h
      by_cases hcI : c.IsId3
      · cases hx : id3Chunk o c.2 with
        | error e' => exact ⟨e', .stop hc (aiff_id3_bad ho hc hcI hx a)⟩
        | ok x =>
          have hne : d ≠ c := by rintro rfl; rw [he] at hx; cases hx
          obtain ⟨e', hs⟩ := ih { a with id3v2 := addTag a.id3v2 x } ((List.mem_cons.mp hd).resolve_left hne) h
          exact ⟨e', .cons hc (aiff_id3_step ho hc hcI hx a) hs⟩
      · have hne : d ≠ c := by rintro rfl; exact hcI hI
        have hs := aiff_audio_step (t := t) ho hc hT hcI a
        cases hp : aiffAudio o.readProps a.audio c with
        | error e' =>
          rw [hp] at hs
          exact ⟨e', .stop hc hs⟩
        | ok p =>
          rw [hp] at hs
          obtain ⟨e', hs'⟩ := ih { a with audio := p } ((List.mem_cons.mp hd).resolve_left hne) h
          exact ⟨e', .cons hc hs hs'⟩

/-- C97: **an ID3v2 chunk that cannot be read refuses the whole AIFF file**, wherever it is and whatever the other chunks are. -/
theorem aiff_bad_chunk {o : Opts} (ho : o.readTags = true) {form : Bytes} (hform : form = ascii "AIFF" ∨ form = ascii "AIFC") {cs : List Chunk} {x : Aiff}
    (hok : ∀ d ∈ cs, d.Ok) (htext : cs.filter (fun d => d.IsText) = textChunks x) (hf : x.Fits) (hc : x.Clean)
    {d : Chunk} (hd : d ∈ cs) (hI : d.IsId3) {e : Err} (he : id3Chunk o d.2 = .error e) :
    ∀ m, readAiff o (aiff form cs) ≠ .ok m := by
  have hfl : form.length = 4 := by rcases hform with rfl | rfl <;> rfl
  have hl := aiff_length hfl cs
  have hs := aiff_split form cs
  have hpl := aiff_prefix_length hfl (4 + (encAll true cs).length)
  have hle := length_le_encAll true cs
  obtain ⟨e', hstp⟩ := aiff_steps_bad (t := (encAll true cs).length) ho hI he cs ⟨⟨none, 0⟩, ⟨none, none, none, [], []⟩, none⟩ hd hok
    (by rw [htext]; exact steps_textChunks x hf hc)
  intro m hm
  unfold readAiff at hm
  rw [verifyAiff_aiff cs hform, ok_bind] at hm
  simp only at hm
  rw [show (aiff form cs).length - 12 = (encAll true cs).length by omega] at hm
  have hpf := pend_fresh (Chunks.new (aiff form cs) 12 (encAll true cs).length) rfl rfl
  rw [chunkLoop_steps hstp ((encAll true cs).length + 1) (Chunks.new (aiff form cs) 12 (encAll true cs).length)
    (ascii "FORM" ++ (beBytes 4 (4 + (encAll true cs).length) ++ form)) [] (by omega) rfl rfl (by rw [List.append_nil]; exact hs)
    (by rw [hpl]; exact hpf) (Nat.le_refl _)] at hm
  rw [error_bind, error_bind] at hm
  cases hm

/-- C97: **in strict mode an AIFF file with an ID3v2 chunk of less than ten bytes is refused**; in the other modes the chunk is ignored
(`aiff_short_ignored`). -/
theorem aiff_short_refused {o : Opts} (ho : o.readTags = true) (hm : o.id3.mode = .strict) {form : Bytes} (hform : form = ascii "AIFF" ∨ form = ascii "AIFC")
    {cs : List Chunk} {x : Aiff} (hok : ∀ d ∈ cs, d.Ok) (htext : cs.filter (fun d => d.IsText) = textChunks x) (hf : x.Fits) (hc : x.Clean)
    {d : Chunk} (hd : d ∈ cs) (hI : d.IsId3) (hl : d.2.length < 10) :
    ∀ m, readAiff o (aiff form cs) ≠ .ok m :=
  aiff_bad_chunk ho hform hok htext hf hc hd hI (e := .parse) (by unfold id3Chunk; rw [if_pos hl, if_pos hm])

/-! ## Cases that meet the hypotheses -/

/-- The example: a chunk of three bytes in strict mode. -/
example : ∀ m, readAiff { exOpts true false with id3 := Id3v2.opts .strict } (aiff (ascii "AIFF") (exAiff ++ [(ascii "id3 ", [1, 2, 3])])) ≠ .ok m := by
  refine aiff_short_refused rfl rfl (.inl rfl) (x := ⟨none, none, none, none, none⟩) ?_ (by decide) ?_ ?_ (d := (ascii "id3 ", [1, 2, 3])) (by simp) (.inr rfl) (by decide)
  · intro d hd
    simp only [exAiff, List.cons_append, List.nil_append, List.mem_cons, List.not_mem_nil, or_false] at hd
    rcases hd with rfl | rfl | rfl <;> exact ⟨(validFourcc_iff (by decide)).mp (by decide), by decide +kernel⟩
  · unfold Aiff.Fits; decide +kernel
  · unfold Aiff.Clean Comment.Ok EvenInit; decide +kernel

/-- The example: a chunk of three bytes in strict mode. -/
example : ∀ m, readWav { exOpts true false with id3 := Id3v2.opts .strict } (wav (exWav ++ [(ascii "id3 ", [1, 2, 3])])) ≠ .ok m := by
  refine wav_short_refused rfl rfl (its := fun _ => []) ?_ ?_ (by decide +kernel) (d := (ascii "id3 ", [1, 2, 3])) (by simp) (.inr rfl) (by decide)
  · intro d hd
    simp only [exWav, List.cons_append, List.nil_append, List.mem_cons, List.not_mem_nil, or_false] at hd
    rcases hd with rfl | rfl | rfl <;> exact ⟨⟨(validFourcc_iff (by decide)).mp (by decide), by decide +kernel⟩, fun h => absurd h (by decide)⟩
  · intro d hd hI
    simp only [exWav, List.cons_append, List.nil_append, List.mem_cons, List.not_mem_nil, or_false] at hd
    rcases hd with rfl | rfl | rfl <;> exact absurd hI.1 (by decide)

end Lofty.IffFiles
