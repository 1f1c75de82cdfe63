import Verif.Props.Bound
/-!
# C88: bound WAV and AIFF files

What reopening the file shows after a history of changes and saves of a bound file, whose file may have tags already.
-/
namespace Lofty.Bound
open Item File FileType FileType.Spec Save Opened Convert

variable {α : Type}

/-- What reopening a WAV or AIFF file shows of a tag that was written. -/
def ShowsChunk (custom : Rating.Provider) (t u : Tag) : Prop :=
  match t.type with
  | .id3v2 => Through custom false t u
  | .riffInfo => ∀ k, supports .riffInfo k = true → k ≠ .Popularimeter → (∀ s ∈ texts t k, trimNul s = s) → u.getStrings k = texts t k
  | .aiffText => ∀ k, u.getStrings k =
      if k ∈ [ItemKey.TrackTitle, .TrackArtist, .CopyrightMessage] then (t.getString k).toList
      else if k = .Comment then t.getStrings .Comment else []
  | _ => False

/-- **C88, WAV files.** A bound WAV file with the tags `wt`, and any history.  The file opens, and shows of each type the tag that was
written last, or the one it had if none was written. -/
theorem wav_disk_partial {o : Options} {r : ReadOptions} {b b' : Bound α} {cs : List Iff.Chunk} {wt : IffFiles.WavTags} {as : List Act}
    (hty : b.inner.type = .wav) (hb : b.file = Iff.wav cs) (hw : IffFiles.WavHas r.files cs wt) (hsz : (Iff.wav cs).length < 2 ^ 32)
    (hs : b.inner.Sound) (hok : IffFiles.WavOk r.files ((written b.inner as).map (toWav o)) (Iff.wav cs))
    (hcu : r.custom = o.custom) (hord : ∀ l, (o.order l).Perm l) (h : b.run o as = .ok b') :
    ∃ d0 xs, (∀ d, d0 ≤ d → openFile { r with depth := d } b'.intoInner = .ok xs) ∧
      (match (as.foldl (Ledger.after .wav .riffInfo) ⟨b.inner.tag .riffInfo, none⟩).disk with
        | none => seen .riffInfo xs = ofRiff wt.info
        | some t => ShowsChunk o.custom t (seen .riffInfo xs)) ∧
      match (as.foldl (Ledger.after .wav .id3v2) ⟨b.inner.tag .id3v2, none⟩).disk with
        | none => tagIn .id3v2 xs = wt.id3v2.map (ofId3v2 o.custom)
        | some t => ShowsChunk o.custom t (seen .id3v2 xs) := by
  have hl := fun ty => congrArg Ledger.disk (fold_ledger hs ty as [])
  have hg := (run_eq h).2
  have hd := written_sub b.inner as
  rw [hty] at hg hd hl
  rw [hb] at hg
  rw [List.nil_append] at hl
  simp only at hl
  have e0 : ∀ ty, lastOf ty [] = none := fun _ => rfl
  simp only [e0] at hl
  rw [hl, hl]
  obtain ⟨d0, xs, h1, h2, h3, h4, h5⟩ := wav_end_to_end_partial hw hsz hd hok hcu hord hg
  refine ⟨d0, xs, h1, ?_, ?_⟩
  · cases hlast : lastOf .riffInfo (written b.inner as) with
    | none => exact h2 hlast
    | some t =>
      simp only
      unfold ShowsChunk
      rw [(lastOf_mem hlast).2]
      exact h5 t hlast
  · cases hlast : lastOf .id3v2 (written b.inner as) with
    | none => exact h3 hlast
    | some t =>
      simp only
      unfold ShowsChunk
      rw [(lastOf_mem hlast).2]
      exact h4 t hlast

/-- **C88, AIFF files.** The same of a bound AIFF file. -/
theorem aiff_disk_partial {o : Options} {r : ReadOptions} {b b' : Bound α} {form : Bytes} {cs : List Iff.Chunk} {wt : IffFiles.AiffTags}
    {as : List Act} (hform : form = ascii "AIFF" ∨ form = ascii "AIFC") (hty : b.inner.type = .aiff) (hb : b.file = Iff.aiff form cs)
    (hw : IffFiles.AiffHas r.files cs wt) (hs : b.inner.Sound)
    (hok : IffFiles.AiffOk r.files ((written b.inner as).map (toAiffSave o)) (Iff.aiff form cs))
    (hcu : r.custom = o.custom) (hord : ∀ l, (o.order l).Perm l) (h : b.run o as = .ok b') :
    ∃ d0 xs, (∀ d, d0 ≤ d → openFile { r with depth := d } b'.intoInner = .ok xs) ∧
      (match (as.foldl (Ledger.after .aiff .aiffText) ⟨b.inner.tag .aiffText, none⟩).disk with
        | none => seen .aiffText xs = ofAiff wt.text
        | some t => ShowsChunk o.custom t (seen .aiffText xs)) ∧
      match (as.foldl (Ledger.after .aiff .id3v2) ⟨b.inner.tag .id3v2, none⟩).disk with
        | none => tagIn .id3v2 xs = wt.id3v2.map (ofId3v2 o.custom)
        | some t => ShowsChunk o.custom t (seen .id3v2 xs) := by
  have hl := fun ty => congrArg Ledger.disk (fold_ledger hs ty as [])
  have hg := (run_eq h).2
  have hd := written_sub b.inner as
  rw [hty] at hg hd hl
  rw [hb] at hg
  rw [List.nil_append] at hl
  simp only at hl
  have e0 : ∀ ty, lastOf ty [] = none := fun _ => rfl
  simp only [e0] at hl
  rw [hl, hl]
  obtain ⟨d0, xs, h1, h2, h3, h4, h5⟩ := aiff_end_to_end_partial hform hw hd hok hcu hord hg
  refine ⟨d0, xs, h1, ?_, ?_⟩
  · cases hlast : lastOf .aiffText (written b.inner as) with
    | none => exact h2 hlast
    | some t =>
      simp only
      unfold ShowsChunk
      rw [(lastOf_mem hlast).2]
      exact h5 t hlast
  · cases hlast : lastOf .id3v2 (written b.inner as) with
    | none => exact h3 hlast
    | some t =>
      simp only
      unfold ShowsChunk
      rw [(lastOf_mem hlast).2]
      exact h4 t hlast

/-- The tag of a type that is in memory after a history that ends with a save is the one that was written last. -/
theorem memory_disk {ft : FileType} {ty : TagType} (hty : (ty, false) ∈ documented ft) {l : Ledger} {as : List Act} {t : Tag}
    (h : ((as ++ [Act.save]).foldl (Ledger.after ft ty) l).memory = some t) :
    ((as ++ [Act.save]).foldl (Ledger.after ft ty) l).disk = some t := by
  rw [List.foldl_append, List.foldl_cons, List.foldl_nil] at h ⊢
  generalize as.foldl (Ledger.after ft ty) l = k at h
  simp only [Ledger.after] at h ⊢
  rw [if_pos hty]
  obtain ⟨h, -⟩ := Option.filter_eq_some_iff.mp h
  rw [h]
  rfl

theorem tag_of_mem {f : Tagged α} (h : (f.tags.map (·.type)).Nodup) {t : Tag} (ht : t ∈ f.tags) : f.tag t.type = some t := by
  unfold Tagged.tag
  generalize f.tags = l at h ht
  induction l with
  | nil => cases ht
  | cons x l ih =>
    rw [List.map_cons, List.nodup_cons] at h
    rw [List.find?_cons]
    rcases List.mem_cons.mp ht with rfl | ht
    · simp
    · have : x.type ≠ t.type := fun e => h.1 (List.mem_map.mpr ⟨t, ht, e.symm⟩)
      simp only [this, decide_false]
      exact ih h.2 ht

/-- **C88, WAV files after a save.** The file shows every tag that is in memory. -/
theorem wav_reflects_partial {o : Options} {r : ReadOptions} {b b' : Bound α} {cs : List Iff.Chunk} {wt : IffFiles.WavTags} {as : List Act}
    (hty : b.inner.type = .wav) (hb : b.file = Iff.wav cs) (hw : IffFiles.WavHas r.files cs wt) (hsz : (Iff.wav cs).length < 2 ^ 32)
    (hs : b.inner.Sound) (hok : IffFiles.WavOk r.files ((written b.inner (as ++ [.save])).map (toWav o)) (Iff.wav cs))
    (hcu : r.custom = o.custom) (hord : ∀ l, (o.order l).Perm l) (h : b.run o (as ++ [.save]) = .ok b') :
    ∃ d0 xs, (∀ d, d0 ≤ d → openFile { r with depth := d } b'.intoInner = .ok xs) ∧
      ∀ t ∈ b'.inner.tags, ShowsChunk o.custom t (seen t.type xs) := by
  obtain ⟨d0, xs, h1, h2, h3⟩ := wav_disk_partial hty hb hw hsz hs hok hcu hord h
  refine ⟨d0, xs, h1, fun t ht => ?_⟩
  have hs' : b'.inner.Sound := by rw [(run_eq h).1]; exact fold_sound hs _
  have ht' : b'.inner.type = .wav := by rw [(run_eq h).1, fold_type]; exact hty
  have hm : b'.inner.tag t.type = some t := tag_of_mem hs'.1 ht
  have hl := congrArg Ledger.memory (fold_ledger hs t.type (as ++ [.save]) [])
  rw [← (run_eq h).1, hty] at hl
  simp only [hm, show lastOf t.type [] = none from rfl] at hl
  have hd := hs'.2 t ht
  rw [ht'] at hd
  simp only [documented, List.map_cons, List.map_nil, List.mem_cons, List.not_mem_nil, or_false] at hd
  rcases hd with e | e <;> rw [e] at hl ⊢
  · rw [memory_disk (by simp [documented]) hl] at h3
    exact h3
  · rw [memory_disk (by simp [documented]) hl] at h2
    exact h2

/-- **C88, AIFF files after a save.** The same. -/
theorem aiff_reflects_partial {o : Options} {r : ReadOptions} {b b' : Bound α} {form : Bytes} {cs : List Iff.Chunk} {wt : IffFiles.AiffTags}
    {as : List Act} (hform : form = ascii "AIFF" ∨ form = ascii "AIFC") (hty : b.inner.type = .aiff) (hb : b.file = Iff.aiff form cs)
    (hw : IffFiles.AiffHas r.files cs wt)
    (hs : b.inner.Sound) (hok : IffFiles.AiffOk r.files ((written b.inner (as ++ [.save])).map (toAiffSave o)) (Iff.aiff form cs))
    (hcu : r.custom = o.custom) (hord : ∀ l, (o.order l).Perm l) (h : b.run o (as ++ [.save]) = .ok b') :
    ∃ d0 xs, (∀ d, d0 ≤ d → openFile { r with depth := d } b'.intoInner = .ok xs) ∧
      ∀ t ∈ b'.inner.tags, ShowsChunk o.custom t (seen t.type xs) := by
  obtain ⟨d0, xs, h1, h2, h3⟩ := aiff_disk_partial hform hty hb hw hs hok hcu hord h
  refine ⟨d0, xs, h1, fun t ht => ?_⟩
  have hs' : b'.inner.Sound := by rw [(run_eq h).1]; exact fold_sound hs _
  have ht' : b'.inner.type = .aiff := by rw [(run_eq h).1, fold_type]; exact hty
  have hm : b'.inner.tag t.type = some t := tag_of_mem hs'.1 ht
  have hl := congrArg Ledger.memory (fold_ledger hs t.type (as ++ [.save]) [])
  rw [← (run_eq h).1, hty] at hl
  simp only [hm, show lastOf t.type [] = none from rfl] at hl
  have hd := hs'.2 t ht
  rw [ht'] at hd
  simp only [documented, List.map_cons, List.map_nil, List.mem_cons, List.not_mem_nil, or_false] at hd
  rcases hd with e | e <;> rw [e] at hl ⊢
  · rw [memory_disk (by simp [documented]) hl] at h3
    exact h3
  · rw [memory_disk (by simp [documented]) hl] at h2
    exact h2

/-! ## Examples -/

/-- A bound WAV file without tags. -/
def exWavBound : Bound Unit := ⟨⟨.wav, none, []⟩, Iff.wav IffFiles.exWav⟩

/-- A bound AIFF file without tags. -/
def exAiffBound : Bound Unit := ⟨⟨.aiff, none, []⟩, Iff.aiff (ascii "AIFF") IffFiles.exAiff⟩

/-- Two tags are inserted. -/
def exTwo (ty : TagType) : List Act := [.insert (titled ty), .insert (titled .id3v2)]

example : ∃ b', exWavBound.run exWrite (exTwo .riffInfo ++ [.save]) = .ok b' ∧ ∃ d0 xs,
    (∀ d, d0 ≤ d → openFile { exRead with depth := d } b'.intoInner = .ok xs) ∧ (seen .riffInfo xs).getStrings .TrackTitle = [str "x"] := by
  have h0 : IffFiles.WavHas exRead.files IffFiles.exWav ⟨[], none⟩ := by
    refine ⟨fun d hd => ⟨?_, ?_⟩, .inl ⟨by decide, rfl⟩, .inl ⟨by decide, rfl⟩⟩
    · simp only [IffFiles.exWav, List.mem_cons, List.not_mem_nil, or_false] at hd
      rcases hd with rfl | rfl <;> exact IffFiles.ok_fourcc (by simp) (by decide)
    · revert d; decide
  have hs : (exWavBound.run exWrite (exTwo .riffInfo ++ [.save])).toOption.isSome = true := by decide +kernel
  cases hg : exWavBound.run exWrite (exTwo .riffInfo ++ [.save]) with
  | error e => rw [hg] at hs; cases hs
  | ok b' =>
    obtain ⟨d0, xs, h1, h2⟩ := wav_reflects_partial (r := exRead) (b := exWavBound) rfl rfl h0 (by decide) ⟨List.nodup_nil, fun _ h => nomatch h⟩
      titled_wav rfl (fun l => List.Perm.refl l) hg
    refine ⟨b', rfl, d0, xs, h1, ?_⟩
    have := h2 (titled .riffInfo) (by rw [(run_eq hg).1]; exact List.mem_cons_self ..)
    exact (this .TrackTitle (by decide +kernel) (by decide) (by decide +kernel)).trans (by decide +kernel)

example : ∃ b', exAiffBound.run exWrite (exTwo .aiffText ++ [.save]) = .ok b' ∧ ∃ d0 xs,
    (∀ d, d0 ≤ d → openFile { exRead with depth := d } b'.intoInner = .ok xs) ∧ (seen .aiffText xs).getStrings .TrackTitle = [str "x"] := by
  have h0 : IffFiles.AiffHas exRead.files IffFiles.exAiff ⟨⟨none, none, none, none, none⟩, none⟩ := by
    refine ⟨fun d hd => ?_, ⟨IffFiles.exComm, by decide, rfl⟩, ⟨⟨none, none, none, none, none⟩, by decide, ?_, ?_, by decide⟩, .inl ⟨by decide, rfl⟩⟩
    · simp only [IffFiles.exAiff, List.mem_cons, List.not_mem_nil, or_false] at hd
      rcases hd with rfl | rfl <;> exact IffFiles.ok_fourcc (by simp) (by decide)
    · unfold Iff.Aiff.Fits; decide +kernel
    · unfold Iff.Aiff.Clean Iff.Comment.Ok Iff.EvenInit; decide +kernel
  have hs : (exAiffBound.run exWrite (exTwo .aiffText ++ [.save])).toOption.isSome = true := by decide +kernel
  cases hg : exAiffBound.run exWrite (exTwo .aiffText ++ [.save]) with
  | error e => rw [hg] at hs; cases hs
  | ok b' =>
    obtain ⟨d0, xs, h1, h2⟩ := aiff_reflects_partial (r := exRead) (b := exAiffBound) (.inl rfl) rfl rfl h0 ⟨List.nodup_nil, fun _ h => nomatch h⟩
      titled_aiff rfl (fun l => List.Perm.refl l) hg
    refine ⟨b', rfl, d0, xs, h1, ?_⟩
    have := h2 (titled .aiffText) (by rw [(run_eq hg).1]; exact List.mem_cons_self ..)
    exact (this .TrackTitle).trans (by rw [if_pos (by decide)]; decide +kernel)

end Lofty.Bound
