import Verif.Lemmas.Bound
/-!
# C88: a bound file and the file it is bound to

A history of changes and saves of a `BoundTaggedFile` (`Bound.run`).  `Ledger` says what is in memory and what was written last, for
each type of tag (`ledger_sound`).  The theorems about reopening the file are for MPEG, AAC, Monkey's Audio, Musepack and WavPack files.
-/
namespace Lofty.Bound
open Item File FileType FileType.Spec Save Opened Convert

variable {α : Type}

/-- What reopening the file shows of a tag that was written: `u` is the tag of that type in the opened file. -/
def Shows (custom : Rating.Provider) (t u : Tag) : Prop :=
  match t.type with
  | .id3v2 => Through custom false t u
  | .id3v1 =>
    (∀ k n, (k, n) ∈ [(ItemKey.TrackTitle, 30), (.TrackArtist, 30), (.AlbumTitle, 30), (.Comment, 28)] →
      u.getStrings k = (Id3v1.field n (t.getString k)).toList) ∧
    (∀ n, 0 < n → n < 256 → t.getString .TrackNumber = some (toDec n) → u.getStrings .TrackNumber = [toDec n]) ∧
    (∀ y ≤ 9999, t.getString .Year = some (toDec y) → u.getStrings .Year = [toDec y]) ∧
    (∀ g ∈ Id3v1.genres, t.getString .Genre = some g → u.getStrings .Genre = [g])
  | .ape =>
    (∀ k, Plain k → supports .ape k = true → u.getStrings k =
      (t.items.filter fun i => readAs .ape i.key = k).flatMap fun i => apeSplit i.value) ∧
    (∀ number total n, (number, total, n) ∈ pairNames → (∀ s, t.getString number = some s → '/' ∉ s) →
      u.getStrings number = ((t.getString number).or ((t.getString total).map fun _ => str "0")).toList ∧
      u.getStrings total = (t.getString total).toList)
  | _ => False

/-- **C88, changes.** Until it is saved, no change of a bound file changes the file. -/
theorem unsaved {o : Options} {b : Bound α} {as : List Act} (h : Act.save ∉ as) : ∃ b', b.run o as = .ok b' ∧ b'.intoInner = b.file := by
  induction as generalizing b with
  | nil => exact ⟨b, rfl, rfl⟩
  | cons a as ih =>
    simp only [List.mem_cons, not_or] at h
    obtain ⟨b', h1, h2⟩ := ih (b := { b with inner := a.tags b.inner }) h.2
    refine ⟨b', ?_, h2⟩
    cases a with
    | save => exact absurd rfl h.1
    | _ => exact h1

/-- **C88, saves.** A save that succeeds keeps just the tags that are not empty, and leaves the file as saving the tags one after
the other does. -/
theorem saved {o : Options} {b b' : Bound α} (h : b.save o = .ok b') :
    saveAll o b.inner.type b.inner.tags b.file = .ok b'.intoInner ∧ b'.inner.type = b.inner.type ∧
      ∀ t, t ∈ b'.inner.tags ↔ t ∈ b.inner.tags ∧ (t.items ≠ [] ∨ t.pictures ≠ []) := by
  unfold Bound.save at h
  obtain ⟨f, hf, h⟩ := bind_ok h
  obtain rfl := (Except.ok.injEq _ _).mp h
  refine ⟨hf, rfl, fun t => ?_⟩
  show t ∈ b.inner.tags.filter _ ↔ _
  rw [List.mem_filter]
  refine and_congr_right fun _ => ?_
  have : t.len = 0 ↔ t.items = [] ∧ t.pictures = [] := by
    unfold Tag.len
    rw [← List.length_eq_zero_iff, ← List.length_eq_zero_iff]
    omega
  simp only [ne_eq, decide_not, Bool.not_eq_true', decide_eq_false_iff_not, this]
  by_cases h1 : t.items = [] <;> simp [h1]

/-- **C88, histories.** After any history, the tag of a type in memory is the one of the ledger, and the file is what saving some tags
one after the other leaves of it, the last one of each type being the one of the ledger. -/
theorem ledger_sound {o : Options} {b b' : Bound α} {as : List Act} (hs : b.inner.Sound) (h : b.run o as = .ok b') :
    ∃ ts, saveAll o b.inner.type ts b.file = .ok b'.intoInner ∧ ∀ ty,
      as.foldl (Ledger.after b.inner.type ty) ⟨b.inner.tag ty, none⟩ = ⟨b'.inner.tag ty, lastOf ty ts⟩ := by
  obtain ⟨h1, h2⟩ := run_eq h
  refine ⟨written b.inner as, h2, fun ty => ?_⟩
  have := fold_ledger hs ty as []
  rw [List.nil_append] at this
  rw [h1]
  exact this

/-- The tags of an opened file have different types, which files of its type can have. -/
theorem open_sound {r : ReadOptions} {f : Bytes} {ft : FileType} {xs : List Tag} (hv : verified f = .ok ft) (h : openFile r f = .ok xs) :
    (⟨ft, none, xs⟩ : Tagged α).Sound := by
  unfold openFile at h
  rw [hv] at h
  have h : openAs r f ft = .ok xs := h
  have h1 : ∀ c x, (ofId3v2 c x).type = .id3v2 := fun _ _ => rfl
  have h2 : ∀ x, (ofApe x).type = .ape := fun _ => rfl
  have h3 := ofId3v1_type
  have h4 : ∀ c x, (ofVorbis c x).type = .vorbisComments := fun _ _ => rfl
  have h5 : ∀ x, (ofRiff x).type = .riffInfo := fun _ => rfl
  have h6 : ∀ x, (ofAiff x).type = .aiffText := fun _ => rfl
  have h7 := ofIlst_type
  unfold Tagged.Sound
  simp only
  have hm : ∀ {β : Type} {x : Except Err β} {g : β → List Tag}, x.map g = .ok xs → ∃ y, x = .ok y ∧ xs = g y := by
    intro β x g hx
    cases x with
    | error e => cases hx
    | ok y => exact ⟨y, rfl, ((Except.ok.injEq _ _).mp hx).symm⟩
  cases ft with
  | aac =>
    obtain ⟨m, -, rfl⟩ := hm h
    cases m.id3v2 <;> cases m.id3v1 <;> simp [tagsOf, h1, h3, documented]
  | aiff =>
    obtain ⟨m, -, rfl⟩ := hm h
    unfold aiffTagsOf
    cases m.id3v2 <;> cases (Own.aiffText m.text).isEmpty <;> simp [h1, h6, documented]
  | ape =>
    obtain ⟨⟨a, b, c, s⟩, -, rfl⟩ := hm h
    cases a <;> cases b <;> cases c <;> simp [macTagsOf, h1, h2, h3, documented]
  | flac =>
    have h : openFlac r f = .ok xs := h
    unfold openFlac at h
    obtain ⟨⟨x, _⟩, -, h⟩ := bind_ok h
    obtain ⟨v, -, h⟩ := bind_ok h
    obtain ⟨m, -, h⟩ := bind_ok h
    obtain rfl := (Except.ok.injEq _ _).mp h
    unfold flacTagsOf
    cases v <;> cases m.comments <;> cases m.pictures.isEmpty <;> simp [h1, h4, documented]
  | mpeg =>
    obtain ⟨⟨a, b, c, s⟩, -, rfl⟩ := hm h
    cases a <;> cases b <;> cases c <;> simp [tagsOf, h1, h2, h3, documented]
  | mpc =>
    obtain ⟨⟨a, b, c, s⟩, -, rfl⟩ := hm h
    cases a <;> cases b <;> cases c <;> simp [tagsOf, h1, h2, h3, documented]
  | opus => obtain ⟨m, -, rfl⟩ := hm h; simp [h4, documented]
  | vorbis => obtain ⟨m, -, rfl⟩ := hm h; simp [h4, documented]
  | speex => obtain ⟨m, -, rfl⟩ := hm h; simp [h4, documented]
  | mp4 =>
    obtain ⟨m, -, rfl⟩ := hm h
    cases m.2.ilst <;> simp [h7, documented]
  | wav =>
    obtain ⟨m, -, rfl⟩ := hm h
    unfold wavTagsOf
    cases m.id3v2 <;> cases m.info.isEmpty <;> simp [h1, h5, documented]
  | wavPack =>
    obtain ⟨⟨a, b, c, s⟩, hw, rfl⟩ := hm h
    have : a = none := by
      unfold FileTags.readWavPack at hw
      obtain ⟨t, -, hw⟩ := bind_ok hw
      obtain ⟨st, -, hw⟩ := bind_ok hw
      split at hw
      · obtain ⟨st, -, hw⟩ := bind_ok hw
        exact (congrArg FileTags.TagsOf.id3v2 ((Except.ok.injEq _ _).mp hw)).symm
      · exact (congrArg FileTags.TagsOf.id3v2 ((Except.ok.injEq _ _).mp hw)).symm
    subst this
    cases b <;> cases c <;> simp [macTagsOf, h2, h3, documented]

/-- **C88, opening.** A bound file has the tags of its file, one of each type, and leaves the file alone. -/
theorem opened {r : ReadOptions} {f : Bytes} {b : Bound α} (h : Bound.readFrom r f = .ok b) :
    b.intoInner = f ∧ verified f = .ok b.inner.type ∧ openFile r f = .ok b.inner.tags ∧ b.inner.Sound := by
  unfold Bound.readFrom at h
  obtain ⟨ft, h1, h⟩ := bind_ok h
  obtain ⟨xs, h2, h⟩ := bind_ok h
  obtain rfl := (Except.ok.injEq _ _).mp h
  exact ⟨rfl, h1, h2, open_sound h1 h2⟩

theorem frames_none {o : Options} (hord : ∀ l, (o.order l).Perm l) {t : Tag} (h : t.items = [] ∧ t.pictures = []) : frames o t = [] := by
  have hf : fromTag o.custom false [] = [] := rfl
  unfold frames
  rw [h.1, h.2, hf, List.Perm.eq_nil (hord [])]
  rfl

theorem apeRef_none {t : Tag} (h : t.items = [] ∧ t.pictures = []) : apeRef t = [] := by
  obtain ⟨ty, ps, is, c⟩ := t
  obtain ⟨rfl, rfl⟩ := h
  rfl

theorem id3v1Ref_none {t : Tag} (h : t.items = [] ∧ t.pictures = []) : id3v1Ref t = .empty := by
  obtain ⟨ty, ps, is, c⟩ := t
  obtain ⟨rfl, rfl⟩ := h
  rfl

/-- **C88, the file.** A bound file, to whose file the tags `before` were saved (none, if it is audio without tags), and any history with
the same write options.  The file opens, and shows of each type the tag that was written last: nothing if there is none or it is empty. -/
theorem disk_partial {o : Options} {r : ReadOptions} {b b' : Bound α} {audio : Bytes} {before : List Tag} {as : List Act}
    (hft : b.inner.type ∈ around) (ha : FileTags.Audio r.files audio) (hv : verified audio = .ok b.inner.type)
    (hpl : Playable b.inner.type audio) (hb : saveAll o b.inner.type before audio = .ok b.file)
    (hbd : ∀ t ∈ before, (t.type, false) ∈ documented b.inner.type) (hs : b.inner.Sound)
    (hok : ∀ t ∈ before ++ written b.inner as, (toSave o t).Ok r.files audio) (hj : r.junk = o.junk) (hc : r.cover = true)
    (hcu : r.custom = o.custom) (hord : ∀ l, (o.order l).Perm l) (h : b.run o as = .ok b') :
    ∃ d0, ∀ d, d0 ≤ d → ∃ xs, openFile { r with depth := d } b'.intoInner = .ok xs ∧ ∀ ty, (ty, false) ∈ documented b.inner.type →
      match (as.foldl (Ledger.after b.inner.type ty) ⟨b.inner.tag ty, lastOf ty before⟩).disk with
      | none => tagIn ty xs = none
      | some t => Shows o.custom t (seen ty xs) ∧ (t.items = [] ∧ t.pictures = [] →
          seen ty xs = Tag.new ty ∧ (ty ≠ .id3v1 → tagIn ty xs = none)) := by
  have hg : saveAll o b.inner.type (before ++ written b.inner as) audio = .ok b'.file := by
    rw [saveAll_append, hb]
    exact (run_eq h).2
  have hd : ∀ t ∈ before ++ written b.inner as, (t.type, false) ∈ documented b.inner.type := fun t ht =>
    (List.mem_append.mp ht).elim (hbd t) (written_sub b.inner as t)
  have hl := fun ty => congrArg Ledger.disk (fold_ledger hs ty as before)
  simp only at hl
  generalize before ++ written b.inner as = ts at hok hg hd hl
  have hdoc : ∀ t ∈ ts, t.type ∈ [TagType.id3v2, .id3v1, .ape] := fun t ht => (documented_around hft (hd t ht)).1
  obtain ⟨d1, h1⟩ := around_end_to_end_partial hft ha hv hpl hd hok hj hc hcu hord hg
  have hg' := hg
  rw [saveAll_around (r := r.files) hft ha hv hj _ hd hok, ← hj] at hg'
  obtain ⟨d2, h2⟩ := open_around hft ha hv hpl hd hok hg'
  obtain ⟨e1, e2, e3, e4⟩ := fold_last o r.files ts hdoc
  refine ⟨max d1 d2, fun d hdd => ?_⟩
  obtain ⟨xs, hx, a1, a2, a3, a4⟩ := h1 d (by omega)
  obtain ⟨ys, hy, x1, x2, x3⟩ := h2 d (by omega)
  obtain rfl := (Except.ok.injEq _ _).mp (hx.symm.trans hy)
  refine ⟨xs, hx, fun ty hty => ?_⟩
  rw [hl ty]
  obtain ⟨hin, hap⟩ := documented_around hft hty
  cases hlast : lastOf ty ts with
  | none =>
    refine a1 ty hin (fun e => ?_) hlast
    obtain ⟨e5, e6⟩ := Prod.mk.injEq _ _ _ _ ▸ e
    exact hap e5 e6
  | some t =>
    have hty' := (lastOf_mem hlast).2
    simp only [List.mem_cons, List.not_mem_nil, or_false] at hin
    rcases hin with rfl | rfl | rfl
    · refine ⟨?_, fun he => ?_⟩
      · unfold Shows
        rw [hty']
        exact a2 t hlast
      · have : tagIn .id3v2 xs = none := by
          rw [x1, e1, hlast]
          simp [frames_none hord he]
        exact ⟨by unfold seen; rw [this]; rfl, fun _ => this⟩
    · refine ⟨?_, fun he => ⟨?_, fun hne => absurd rfl hne⟩⟩
      · unfold Shows
        rw [hty']
        exact a3 t hlast
      · have := e4 t hlast
        rw [id3v1Ref_none he] at this
        unfold seen
        rw [x2]
        cases hT : (ts.map (toSave o)).foldl (FileTags.Tags.after r.files) ⟨none, none, none⟩ |>.id3v1 with
        | none => rfl
        | some v =>
          rw [hT] at this
          have hv : v = .empty := this
          subst hv
          exact ofId3v1_empty
    · refine ⟨?_, fun he => ?_⟩
      · unfold Shows
        rw [hty']
        exact a4 t hlast
      · have : tagIn .ape xs = none := by
          rw [x3 fun e => hap e rfl, e2, hlast]
          simp [apeRef_none he]
        exact ⟨by unfold seen; rw [this]; rfl, fun _ => this⟩

theorem ledger_gone {ft : FileType} {ty : TagType} {as : List Act} (hw : (ty, false) ∈ documented ft) (hr : ∀ a ∈ as, a ≠ .clear ∧ ∀ t, a ≠ .remove t) (l : Ledger)
    (h : l.memory = none → ∀ t, l.disk = some t → t.items = [] ∧ t.pictures = []) :
    (as.foldl (Ledger.after ft ty) l).memory = none → ∀ t, (as.foldl (Ledger.after ft ty) l).disk = some t → t.items = [] ∧ t.pictures = [] := by
  induction as generalizing l with
  | nil => exact h
  | cons a as ih =>
    refine ih (fun a ha => hr a (by simp [ha])) _ ?_
    obtain ⟨h1, h2⟩ := hr a (by simp)
    cases a with
    | insert x =>
      simp only [Ledger.after]
      split
      · intro e; cases e
      · exact h
    | remove t => exact absurd rfl (h2 t)
    | clear => exact absurd rfl h1
    | modify x g hg =>
      simp only [Ledger.after]
      split
      · intro e; exact h (by simpa using e)
      · exact h
    | save =>
      obtain ⟨m, d⟩ := l
      simp only [Ledger.after]
      cases m with
      | none =>
        intro _ t ht
        split at ht
        · exact h rfl t ht
        · exact h rfl t ht
      | some x =>
        simp only [Option.filter]
        intro e t ht
        have hx : x.items = [] ∧ x.pictures = [] := by
          by_cases h1 : x.items = [] <;> by_cases h2 : x.pictures = [] <;> simp_all
        rw [if_pos hw] at ht
        obtain rfl := (Option.some.injEq _ _).mp ht
        exact hx

/-- **C88.** After any history that ends with a save, the file shows the tags in memory, by the rules of their types, for all types that
can be written.  Without removals it shows no others, if memory had a tag for each one in the file to begin with. -/
theorem reflects_partial {o : Options} {r : ReadOptions} {b b' : Bound α} {audio : Bytes} {before : List Tag} {as : List Act}
    (hft : b.inner.type ∈ around) (ha : FileTags.Audio r.files audio) (hv : verified audio = .ok b.inner.type)
    (hpl : Playable b.inner.type audio) (hb : saveAll o b.inner.type before audio = .ok b.file)
    (hbd : ∀ t ∈ before, (t.type, false) ∈ documented b.inner.type) (hs : b.inner.Sound)
    (hok : ∀ t ∈ before ++ written b.inner (as ++ [.save]), (toSave o t).Ok r.files audio) (hj : r.junk = o.junk) (hc : r.cover = true)
    (hcu : r.custom = o.custom) (hord : ∀ l, (o.order l).Perm l) (h : b.run o (as ++ [.save]) = .ok b') :
    ∃ d0, ∀ d, d0 ≤ d → ∃ xs, openFile { r with depth := d } b'.intoInner = .ok xs ∧ ∀ ty, (ty, false) ∈ documented b.inner.type →
      (∀ t, b'.inner.tag ty = some t → Shows o.custom t (seen ty xs)) ∧
      ((∀ a ∈ as, a ≠ .clear ∧ ∀ t, a ≠ .remove t) →
        (b.inner.tag ty = none → ∀ t, lastOf ty before = some t → t.items = [] ∧ t.pictures = []) → b'.inner.tag ty = none →
        seen ty xs = Tag.new ty ∧ (ty ≠ .id3v1 → tagIn ty xs = none)) := by
  obtain ⟨d0, h0⟩ := disk_partial hft ha hv hpl hb hbd hs hok hj hc hcu hord h
  have hl := fun ty => fold_ledger hs ty (as ++ [.save]) before
  rw [← (run_eq h).1] at hl
  refine ⟨d0, fun d hd => ?_⟩
  obtain ⟨xs, hx, hall⟩ := h0 d hd
  refine ⟨xs, hx, fun ty hty => ?_⟩
  have hall := hall ty hty
  have hm := congrArg Ledger.memory (hl ty)
  simp only at hm
  rw [← hm]
  refine ⟨fun t ht => ?_, fun hr hcov hn => ?_⟩
  · rw [List.foldl_append, List.foldl_cons, List.foldl_nil] at hall ht
    generalize as.foldl (Ledger.after b.inner.type ty) ⟨b.inner.tag ty, lastOf ty before⟩ = l at hall ht
    simp only [Ledger.after] at hall ht
    rw [if_pos hty] at hall
    obtain ⟨ht, -⟩ := Option.filter_eq_some_iff.mp ht
    rw [ht] at hall
    exact hall.1
  · have := ledger_gone (ft := b.inner.type) (ty := ty) (as := as ++ [.save]) hty (fun a ha => ?_) ⟨b.inner.tag ty, lastOf ty before⟩ hcov hn
    · split at hall
      · exact ⟨by unfold seen; rw [hall]; rfl, fun _ => hall⟩
      · rename_i t ht
        exact hall.2 (this t ht)
    · rcases List.mem_append.mp ha with ha | ha
      · exact hr a ha
      · obtain rfl := List.mem_singleton.mp ha
        exact ⟨nofun, fun _ => nofun⟩

/-! ## Where the file and the memory differ -/

/-- A bound MP3 file without tags. -/
def exBound : Bound Unit := ⟨⟨.mpeg, none, []⟩, mp3⟩

/-- A bound Monkey's Audio file without tags. -/
def exMac : Bound Unit := ⟨⟨.ape, none, []⟩, FileTags.macFile⟩

/-- The types of the tags in memory and of those in the file after a history. -/
def typesAfter (b : Bound Unit) (as : List Act) : Option (List TagType × List TagType) :=
  match b.run exWrite as with
  | .error _ => none
  | .ok b' => (openFile exRead b'.intoInner).toOption.map fun xs => (b'.inner.tags.map (·.type), xs.map (·.type))

/-- **A removal is not saved**: a tag that was saved, then removed, is gone from memory after the next save, but still in the
file. -/
theorem removal_unsaved : typesAfter exBound [.insert (titled .id3v2), .save, .remove .id3v2, .save] = some ([], [.id3v2]) := by
  decide +kernel

/-- **Nor is `clear`.** -/
theorem clear_unsaved : typesAfter exBound [.insert (titled .id3v2), .insert (titled .ape), .save, .clear, .save] =
    some ([], [.id3v2, .ape]) := by
  decide +kernel

/-- **A read-only tag** stays in memory, but is never in the file. -/
theorem read_only_unsaved : typesAfter exMac [.insert (titled .id3v2), .save] = some ([.id3v2], []) := by
  decide +kernel

/-- **An empty ID3v1 tag** is dropped from memory, but added to the file. -/
theorem empty_id3v1_saved : typesAfter exBound [.insert (Tag.new .id3v1), .save] = some ([], [.id3v1]) := by
  decide +kernel

/-- **A tag of which nothing can be stored** stays in memory, but is not in the file. -/
theorem unstorable_kept : typesAfter exBound [.insert ⟨.id3v2, [], [TagItem.new .EncoderSettings (.binary [1])], false⟩, .save] =
    some ([.id3v2], []) := by
  decide +kernel

/-! ## Examples -/

/-- The example of the documentation: an empty tag is not in the file after a save, nor in memory. -/
example : typesAfter exBound [.insert (titled .id3v2), .save, .insert (Tag.new .id3v2), .save] = some ([], []) := by
  decide +kernel

/-- Three tags are inserted. -/
def exInserts : List Act := [.insert (titled .id3v1), .insert (titled .id3v2), .insert (titled .ape)]

example : ∃ b', exBound.run exWrite (exInserts ++ [.save]) = .ok b' ∧
    ∃ d0, ∀ d, d0 ≤ d → ∃ xs, openFile { exRead with depth := d } b'.intoInner = .ok xs ∧
      Through Rating.default false (titled .id3v2) (seen .id3v2 xs) ∧ (seen .ape xs).getStrings .TrackTitle = [str "x"] := by
  have hs : (exBound.run exWrite (exInserts ++ [.save])).toOption.isSome =
      true := by decide +kernel
  cases hg : exBound.run exWrite (exInserts ++ [.save]) with
  | error e =>
    rw [hg] at hs; cases hs
  | ok b' =>
    have hs : exBound.inner.Sound := ⟨List.nodup_nil, fun _ h => nomatch h⟩
    have hok : ∀ t ∈ [] ++ written exBound.inner (exInserts ++ [.save]),
        (toSave exWrite t).Ok exRead.files mp3 := titled_saves
    obtain ⟨d0, h0⟩ := reflects_partial (b := exBound) (before := []) (r := exRead) (by decide) (FileTags.threeFrames_audio true false)
      mp3_verified ⟨_, _, FileTags.threeFrames_first⟩ rfl (fun _ h => nomatch h) hs hok rfl rfl rfl (fun l => List.Perm.refl l) hg
    have hi := (run_eq hg).1
    refine ⟨b', rfl, d0, fun d hd => ?_⟩
    obtain ⟨xs, h1, h2⟩ := h0 d hd
    refine ⟨xs, h1, ?_, ?_⟩
    · exact (h2 .id3v2 (by decide)).1 (titled .id3v2) (by rw [hi]; rfl)
    · have := (h2 .ape (by decide)).1 (titled .ape) (by rw [hi]; rfl)
      rw [this.1 _ (by decide) (by decide +kernel)]
      decide +kernel

example : ∃ b', exBound.run exWrite [.insert (titled .ape), .remove .ape] = .ok b' ∧ b'.intoInner = mp3 := unsaved (by simp)

example : ((Bound.readFrom exRead mp3 : Except Err (Bound Unit)).toOption.map fun b => (b.inner.type, b.inner.tags.length, b.intoInner = mp3)) =
    some (.mpeg, 0, True) := by
  have h : ((Bound.readFrom exRead mp3 : Except Err (Bound Unit)).toOption.map fun b => (b.inner.type, b.inner.tags.length)) =
      some (.mpeg, 0) := by decide +kernel
  cases hb : (Bound.readFrom exRead mp3 : Except Err (Bound Unit)) with
  | error e => rw [hb] at h; cases h
  | ok b =>
    rw [hb] at h
    have h' := (Option.some.injEq _ _).mp h
    simp only [Prod.mk.injEq] at h'
    simp [Except.toOption, h'.1, h'.2, (opened hb).1]

end Lofty.Bound
