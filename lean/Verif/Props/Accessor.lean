import Verif.Lemmas.AccessorVorbis
import Verif.Lemmas.AccessorId3v2
/-! # C72: the accessors in every format -/
namespace Lofty.Accessor

/-- An ID3v1 tag without anything. -/
def noId3v1 : Id3v1.Tag := ⟨none, none, none, none, none, none, none⟩

/-- AIFF text chunks without anything. -/
def noAiff : Iff.Aiff := ⟨none, none, none, none, none⟩

/-! ## Every field is independent of the others -/

/-- **C72.** After any calls on any tag the fields of the generic tag are what the calls say, whatever else the tag holds;
the type of the tag has to have the fields that are set. -/
theorem generic_history (t : Item.Tag) (ops : List Op)
    (h : ∀ f v, Op.set f v ∈ ops → Proper f v ∧ Item.supports t.type (genericKey f) = true) :
    view generic (ops.foldl (Op.run generic) t) = ops.foldl Op.spec (view generic t) :=
  (history (Ok := fun t' => t'.type = t.type)
    (P := fun _ op => ∀ f v, op = .set f v → Proper f v ∧ Item.supports t.type (genericKey f) = true)
    (fun t' op ht hp => by
      obtain ⟨h1, h2⟩ := generic_step t' op fun f v e => by rw [ht]; exact hp f v e
      exact ⟨h1.trans ht, h2⟩)
    ops t rfl (follows_of ops _ fun _ ho f v e => h f v (e ▸ ho))).2

example : view generic ([Op.set .artist (.text (str "x")), .set .track (.number 7), .remove .artist,
    .set .date (.date ⟨2020, some 2, none, none, none, none⟩)].foldl (Op.run generic) (.new .ape)) .track = some (.number 7) := by
  rw [generic_history _ _ (by
    intro f v h
    simp only [List.mem_cons, List.not_mem_nil, or_false] at h
    rcases h with h | h | h | h <;> cases h
    · exact ⟨trivial, by decide +kernel⟩
    · exact ⟨(by decide : 7 < 2 ^ 32), by decide +kernel⟩
    · exact ⟨by show Timestamp.InRange _; constructor <;> simp, by decide +kernel⟩)]
  rfl

/-- **C72.** So it is for ID3v1, with the values there is room for. -/
theorem id3v1_history (t : Id3v1.Tag) (ops : List Op) (h : ∀ f v, Op.set f v ∈ ops → Id3v1Fits f v) :
    view id3v1 (ops.foldl (Op.run id3v1) t) = ops.foldl Op.spec (view id3v1 t) :=
  (history (Ok := fun _ => True) (P := fun _ op => ∀ f v, op = .set f v → Id3v1Fits f v)
    (fun t' op _ hp => ⟨trivial, id3v1_step t' op hp⟩)
    ops t trivial (follows_of ops _ fun _ ho f v e => h f v (e ▸ ho))).2

example : view id3v1 ([Op.set .genre (.text (str "Rock")), .set .track (.number 7), .set .comment (.text (str "c")),
    .remove .track].foldl (Op.run id3v1) noId3v1) .genre = some (.text (str "Rock")) := by
  rw [id3v1_history _ _ (by
    intro f v h
    simp only [List.mem_cons, List.not_mem_nil, or_false] at h
    rcases h with h | h | h | h <;> cases h
    · exact (by decide +kernel : str "Rock" ∈ Id3v1.genres)
    · exact (by decide : 7 < 256)
    · exact (by decide +kernel : (utf8 (str "c")).length ≤ 28))]
  rfl

theorem vorbisOk_of {t : Vorbis.Tag} (h : VorbisOnce t) : VorbisOk t := by
  intro k
  cases k <;> exact h _ (by simp [vorbisNames, VKey.name])

theorem vorbisOnce_of {t : Vorbis.Tag} (h : VorbisOk t) : VorbisOnce t := by
  intro k hk
  simp only [vorbisNames, List.mem_cons, List.not_mem_nil, or_false] at hk
  rcases hk with rfl | rfl | rfl | rfl | rfl | rfl | rfl | rfl | rfl | rfl | rfl | rfl | rfl | rfl
  · exact h .artist
  · exact h .title
  · exact h .album
  · exact h .genre
  · exact h .comment
  · exact h .trackNumber
  · exact h .trackNum
  · exact h .trackTotal
  · exact h .totalTracks
  · exact h .discNumber
  · exact h .discTotal
  · exact h .totalDiscs
  · exact h .date
  · exact h .year

/-- **C72.** So it is for Vorbis comments without repeated keys, which stay without.  Missing: repeated keys
(`vorbis_track_changes_artist`). -/
theorem vorbis_history_partial (t : Vorbis.Tag) (ht : VorbisOnce t) (ops : List Op) (h : ∀ f v, Op.set f v ∈ ops → Proper f v) :
    VorbisOnce (ops.foldl (Op.run vorbis) t) ∧
    view vorbis (ops.foldl (Op.run vorbis) t) = ops.foldl Op.spec (view vorbis t) := by
  obtain ⟨h1, h2⟩ := history (Ok := VorbisOk) (P := fun _ op => ∀ f v, op = .set f v → Proper f v)
    (fun t' op ht hp => vorbis_step t' op ht hp)
    ops t (vorbisOk_of ht) (follows_of ops _ fun _ ho f v e => h f v (e ▸ ho))
  exact ⟨vorbisOnce_of h1, h2⟩

/-- Beside repeated keys that no accessor looks at. -/
example : view vorbis ([Op.set .trackTotal (.number 9), .remove .track].foldl (Op.run vorbis)
    ⟨str "v", [(str "PERFORMER", str "a"), (str "performer", str "b"), (str "tracknum", str "3"), (str "Artist", str "x")], []⟩) .artist =
      some (.text (str "x")) := by
  rw [(vorbis_history_partial _ (by unfold VorbisOnce; decide +kernel) _ (by
    intro f v h
    simp only [List.mem_cons, List.not_mem_nil, or_false] at h
    rcases h with h | h <;> cases h
    exact (by decide : 9 < 2 ^ 32))).2]
  decide +kernel

/-- **C72.** In any Vorbis comments a field that is set is the one got, and a field that is removed is gone. -/
theorem vorbis_set_remove (t : Vorbis.Tag) (f : Field) :
    (∀ v, Proper f v → vorbis.get f (vorbis.set f v t) = some v) ∧ vorbis.get f (vorbis.remove f t) = none := by
  have g1 : ∀ (t : Vorbis.Tag) (k : VKey) (v : Str), Vorbis.get (Vorbis.insert t k.name v) k.name = some v := by
    intro t k v
    have := congrFun (vmap_insert t k v) k
    simpa [vmap] using this
  have r1 : ∀ (t : Vorbis.Tag) (k : VKey), Vorbis.get (Vorbis.remove t k.name).2 k.name = none := by
    intro t k
    have hs := (drainFilter_spec (fun i : Vorbis.Item => eqIc i.1 k.name) t.items).2.1
    unfold Vorbis.get
    rw [if_pos k.verify, Option.map_eq_none_iff, List.find?_eq_none]
    intro i hi
    have := hs.mem_iff.mp hi
    simpa using (List.mem_filter.mp this).2
  have r2 : ∀ (t : Vorbis.Tag) (k q : VKey), Vorbis.get t q.name = none → Vorbis.get (Vorbis.remove t k.name).2 q.name = none := by
    intro t k q h
    have hs := (drainFilter_spec (fun i : Vorbis.Item => eqIc i.1 k.name) t.items).2.1
    unfold Vorbis.get at h ⊢
    rw [if_pos q.verify, Option.map_eq_none_iff, List.find?_eq_none] at h ⊢
    intro i hi
    exact h i (List.mem_filter.mp (hs.mem_iff.mp hi)).1
  have g2 : ∀ (t : Vorbis.Tag) (k k' : VKey) (v : Str), k' ≠ k →
      Vorbis.get (Vorbis.remove (Vorbis.insert t k.name v) k'.name).2 k.name = some v := by
    intro t k k' v hk
    have hs := (drainFilter_spec (fun i : Vorbis.Item => eqIc i.1 k'.name) (Vorbis.insert t k.name v).items).2.1
    have hf := hs.filter (fun i => eqIc i.1 k.name)
    have e : (((Vorbis.insert t k.name v).items.filter fun i => !eqIc i.1 k'.name).filter fun i => eqIc i.1 k.name) =
        [(k.name, v)] := by
      rw [List.filter_filter]
      have : ((Vorbis.insert t k.name v).items.filter fun i => eqIc i.1 k.name && !eqIc i.1 k'.name) =
          commentsOf (Vorbis.insert t k.name v) k := by
        apply List.filter_congr
        intro i _
        cases hi : eqIc i.1 k.name with
        | false => rfl
        | true =>
          cases hi' : eqIc i.1 k'.name with
          | false => rfl
          | true =>
            have := eqIc_trans (eqIc_comm i.1 k'.name ▸ hi') hi
            rw [VKey.eqIc_name] at this
            exact absurd (by simpa using this) hk
      rw [this, commentsOf_insert, if_pos rfl]
    rw [e] at hf
    have hf' := List.perm_singleton.mp hf
    unfold Vorbis.get
    rw [if_pos k.verify, ← List.head?_filter]
    show Option.map _ (((drainFilter (fun i : Vorbis.Item => eqIc i.1 k'.name) (Vorbis.insert t k.name v).items).2.filter
      fun i => eqIc i.1 k.name).head?) = some v
    rw [hf']; rfl
  have num : ∀ (t : Vorbis.Tag) (k q : VKey) (n : Nat), n < 2 ^ 32 → Vorbis.get t k.name = some (toDec n) →
      (Vorbis.number t k.name q.name).map Value.number = some (.number n) := by
    intro t k q n hn h
    rw [number_or, h]
    simp [parseU32_toDec hn]
  have numNone : ∀ (t : Vorbis.Tag) (k q : VKey), Vorbis.get t k.name = none → Vorbis.get t q.name = none →
      (Vorbis.number t k.name q.name).map Value.number = none := by
    intro t k q h h'
    rw [number_or, h, h']; rfl
  constructor
  · intro v hp
    cases f <;> cases v <;> try exact hp.elim
    case artist.text s => exact congrArg (Option.map Value.text) (g1 t .artist s)
    case title.text s => exact congrArg (Option.map Value.text) (g1 t .title s)
    case album.text s => exact congrArg (Option.map Value.text) (g1 t .album s)
    case genre.text s => exact congrArg (Option.map Value.text) (g1 t .genre s)
    case comment.text s => exact congrArg (Option.map Value.text) (g1 t .comment s)
    case track.number n => exact num _ .trackNumber .trackNum n hp (g1 _ .trackNumber _)
    case trackTotal.number n => exact num _ .trackTotal .totalTracks n hp (g2 _ .trackTotal .totalTracks _ (by decide))
    case disk.number n =>
      show ((Vorbis.get (Vorbis.insert t VKey.discNumber.name (toDec n)) VKey.discNumber.name).bind parseU32).map Value.number = _
      rw [g1]; simp [parseU32_toDec hp]
    case diskTotal.number n => exact num _ .discTotal .totalDiscs n hp (g2 _ .discTotal .totalDiscs _ (by decide))
    case date.date d =>
      show (((Vorbis.get (Vorbis.remove (Vorbis.insert t VKey.date.name d.fmt) VKey.year.name).2 VKey.date.name).or _).bind tryParse).map _ = _
      rw [g2 _ .date .year _ (by decide)]
      simp [tryParse_fmt hp]
  · cases f
    case artist => exact congrArg (Option.map Value.text) (r1 t .artist)
    case title => exact congrArg (Option.map Value.text) (r1 t .title)
    case album => exact congrArg (Option.map Value.text) (r1 t .album)
    case genre => exact congrArg (Option.map Value.text) (r1 t .genre)
    case comment => exact congrArg (Option.map Value.text) (r1 t .comment)
    case track => exact numNone _ .trackNumber .trackNum (r2 _ .trackNum .trackNumber (r1 t .trackNumber)) (r1 _ .trackNum)
    case trackTotal => exact numNone _ .trackTotal .totalTracks (r2 _ .totalTracks .trackTotal (r1 t .trackTotal)) (r1 _ .totalTracks)
    case disk =>
      show ((Vorbis.get (Vorbis.remove t VKey.discNumber.name).2 VKey.discNumber.name).bind parseU32).map Value.number = _
      rw [r1]; rfl
    case diskTotal => exact numNone _ .discTotal .totalDiscs (r2 _ .totalDiscs .discTotal (r1 t .discTotal)) (r1 _ .totalDiscs)
    case date =>
      show (((Vorbis.get (vorbisRemove2 t VKey.date.name VKey.year.name) VKey.date.name).or
        (Vorbis.get (vorbisRemove2 t VKey.date.name VKey.year.name) VKey.year.name)).bind tryParse).map _ = _
      rw [vorbisRemove2, r2 _ .year .date (r1 t .date), r1]; rfl

/-- **C72.** So it is for RIFF INFO lists without repeated keys, which stay without.  Missing: repeated keys
(`riff_removed_artist_shown`). -/
theorem riff_history_partial (l : List Iff.Item) (hl : RiffOk l) (ops : List Op)
    (h : ∀ f v, Op.set f v ∈ ops → Proper f v ∧ f ≠ .disk ∧ f ≠ .diskTotal) :
    RiffOk (ops.foldl (Op.run riff) l) ∧ view riff (ops.foldl (Op.run riff) l) = ops.foldl Op.spec (view riff l) :=
  history (Ok := RiffOk) (P := fun _ op => ∀ f v, op = .set f v → Proper f v ∧ f ≠ .disk ∧ f ≠ .diskTotal)
    (fun t' op ht hp => riff_step t' op ht hp)
    ops l hl (follows_of ops _ fun _ ho f v e => h f v (e ▸ ho))

example : view riff ([Op.set .track (.number 9), .remove .artist].foldl (Op.run riff)
    [(str "ISFT", str "a"), (str "IPRT", str "3"), (str "IART", str "x")]) .track = some (.number 9) := by
  rw [(riff_history_partial _ (by
    intro f k h
    cases f <;> cases h <;> decide +kernel) _ (by
    intro f v h
    simp only [List.mem_cons, List.not_mem_nil, or_false] at h
    rcases h with h | h <;> cases h
    exact ⟨(by decide : 9 < 2 ^ 32), by decide, by decide⟩)).2]
  rfl

/-- **C72.** So it is for AIFF text chunks without a `COMT` chunk.  Missing: comments (`aiff_removed_comment_shown`). -/
theorem aiff_history_partial (t : Iff.Aiff) (ht : t.comments.getD [] = []) (ops : List Op)
    (h : ∀ f v, Op.set f v ∈ ops → Proper f v ∧ (f = .artist ∨ f = .title ∨ f = .comment)) :
    view aiff (ops.foldl (Op.run aiff) t) = ops.foldl Op.spec (view aiff t) :=
  (history (Ok := fun t' => t'.comments.getD [] = [])
    (P := fun _ op => ∀ f v, op = .set f v → Proper f v ∧ (f = .artist ∨ f = .title ∨ f = .comment))
    (fun t' op ht hp => aiff_step t' op ht hp)
    ops t ht (follows_of ops _ fun _ ho f v e => h f v (e ▸ ho))).2

example : view aiff ([Op.set .comment (.text (str "a")), .set .comment (.text (str "b"))].foldl (Op.run aiff) noAiff) .comment =
    some (.text (str "b")) := by
  rw [aiff_history_partial _ rfl _ (by
    intro f v h
    simp only [List.mem_cons, List.not_mem_nil, or_false] at h
    rcases h with h | h <;> cases h <;> exact ⟨trivial, .inr (.inr rfl)⟩)]
  rfl

/-! ## Numbers and totals together -/

/-- **C72.** After any calls on any APE tag the fields are what the calls say, a 0 counting as no number, as long as a
number with a total is not removed.  Missing: that removal (`pairs_share_removal`) and 0 (`pairs_share_zero`). -/
theorem ape_history_partial (l : List Ape.Item) (ops : List Op) (h : ∀ f v, Op.set f v ∈ ops → Proper f v)
    (hr : Follows Op.seenSpec TotalGone (seenView ape l) ops) :
    seenView ape (ops.foldl (Op.run ape) l) = ops.foldl Op.seenSpec (seenView ape l) :=
  (history (Ok := fun _ => True) (P := fun s op => (∀ f v, op = .set f v → Proper f v) ∧ TotalGone s op)
    (fun t' op _ hp => ⟨trivial, ape_step t' op hp.1 hp.2⟩)
    ops l trivial (follows_and _ _ (follows_of ops _ fun _ ho f v e => h f v (e ▸ ho)) hr)).2

theorem totalGone_set (s : View) (f : Field) (v : Value) : TotalGone s (.set f v) :=
  ⟨fun e => (by cases e), fun e => (by cases e)⟩

theorem totalGone_other (s : View) (f : Field) (h1 : f ≠ .track) (h2 : f ≠ .disk) : TotalGone s (.remove f) :=
  ⟨fun e => (by cases e; exact absurd rfl h1), fun e => (by cases e; exact absurd rfl h2)⟩

/-- A total alone, then a number, then no total and no number. -/
example : (fun s : View => (s .track, s .trackTotal, s .title)) (seenView ape
    ([Op.set .trackTotal (.number 9), .set .track (.number 3), .remove .trackTotal, .remove .track].foldl
      (Op.run ape) [⟨true, str "TITLE", .text (str "x")⟩])) = (none, none, some (.text (str "x"))) := by
  rw [ape_history_partial]
  · rfl
  · intro f v h
    simp only [List.mem_cons, List.not_mem_nil, or_false] at h
    rcases h with h | h | h | h <;> cases h
    · exact (by decide : 9 < 2 ^ 32)
    · exact (by decide : 3 < 2 ^ 32)
  · exact ⟨totalGone_set _ _ _, totalGone_set _ _ _, totalGone_other _ _ (by decide) (by decide),
      ⟨fun _ => rfl, fun e => (by cases e)⟩, trivial⟩

/-- **C72.** So it is for MP4 tags with at most one atom for every identifier, which stay so, and numbers of 16 bits.
Missing: greater numbers (`mp4_number_cut`), repeated atoms, and as for APE tags. -/
theorem mp4_history_partial (t : Ilst.Tag) (ht : Ilst.Unique t) (ops : List Op)
    (h : ∀ f v, Op.set f v ∈ ops → Proper f v ∧ ∀ n, v = .number n → n < 65536)
    (hr : Follows Op.seenSpec TotalGone (seenView mp4 t) ops) :
    Ilst.Unique (ops.foldl (Op.run mp4) t) ∧
    seenView mp4 (ops.foldl (Op.run mp4) t) = ops.foldl Op.seenSpec (seenView mp4 t) :=
  history (Ok := Ilst.Unique)
    (P := fun s op => (∀ f v, op = .set f v → Proper f v ∧ ∀ n, v = .number n → n < 65536) ∧ TotalGone s op)
    (fun t' op ht hp => mp4_step t' op ht hp.1 hp.2)
    ops t ht (follows_and _ _ (follows_of ops _ fun _ ho f v e => h f v (e ▸ ho)) hr)

example : (fun s : View => (s .track, s .trackTotal, s .title)) (seenView mp4
    ([Op.set .trackTotal (.number 9), .set .track (.number 3), .remove .trackTotal].foldl
      (Op.run mp4) [⟨Ilst.four 0xA9 "nam", .single (.utf16 (str "x"))⟩, ⟨Ilst.covr, .multiple []⟩])) =
    (some (.number 3), none, some (.text (str "x"))) := by
  rw [(mp4_history_partial _ (by unfold Ilst.Unique; decide +kernel) _ ?_ ?_).2]
  · decide +kernel
  · intro f v h
    simp only [List.mem_cons, List.not_mem_nil, or_false] at h
    rcases h with h | h | h <;> cases h
    · exact ⟨(by decide : 9 < 2 ^ 32), fun n hn => by cases hn; decide⟩
    · exact ⟨(by decide : 3 < 2 ^ 32), fun n hn => by cases hn; decide⟩
  · exact ⟨totalGone_set _ _ _, totalGone_set _ _ _, totalGone_other _ _ (by decide) (by decide), trivial⟩

theorem id3v2Ok_of {t : Id3v2Tag} (h : Id3v2Once t.frames) : Id3v2Ok t := by
  refine ⟨fun k => ?_, fun k h1 h2 f hf hid => ?_⟩
  · cases k
    case comm =>
      refine Nat.le_trans (Nat.le_of_eq ?_) h.comment
      congr 1
      apply List.filter_congr
      intro f _
      cases f with
      | leaf fl c =>
        cases c <;> try rfl
        rename_i c _
        simp only [IKey.sees, plainComment]
        by_cases hd : c.desc = [] <;> simp [hd]
      | chapter => rfl
      | toc => rfl
    case tdrc => exact h.date
    all_goals exact h.once _ (by simp [id3v2TextIds, IKey.id])
  · refine h.text k.id ?_ f hf hid
    cases k <;> first | exact absurd rfl h1 | exact absurd rfl h2 | simp [id3v2TextIds, IKey.id]

/-- **C72.** So it is for ID3v2 tags with at most one frame for every field, but for dates, which cannot be set.
Missing: dates (`id3v2_date_ignored`), texts with NUL and genres that are numbers or lists (`id3v2_texts_change`),
repeated frames, and as for APE tags. -/
theorem id3v2_history_partial (t : Id3v2Tag) (ht : Id3v2Once t.frames) (ops : List Op)
    (h : ∀ f v, Op.set f v ∈ ops → Id3v2Fits f v)
    (hr : Follows Op.seenSpec TotalGone (seenView id3v2 t) ops) :
    seenView id3v2 (ops.foldl (Op.run id3v2) t) = ops.foldl Op.seenSpec (seenView id3v2 t) :=
  (history (Ok := Id3v2Ok)
    (P := fun s op => (∀ f v, op = .set f v → Id3v2Fits f v) ∧ TotalGone s op)
    (fun t' op ht hp => id3v2_step t' op ht hp.1 hp.2)
    ops t (id3v2Ok_of ht) (follows_and _ _ (follows_of ops _ fun _ ho f v e => h f v (e ▸ ho)) hr)).2

/-- The tag of the example: two comments, one of which has a description, a title and a date. -/
def exampleId3v2 : Id3v2Tag :=
  ⟨.v4, [.leaf {} (.comment ⟨.utf8, (101, 110, 103), str "d", str "c"⟩), .leaf {} (.comment ⟨.utf8, (101, 110, 103), [], str "old"⟩),
    .leaf {} (.text ⟨.valid (str "TIT2"), .utf16, str "x"⟩), .leaf {} (.time ⟨.valid (str "TDRC"), .utf8, ⟨2020, none, none, none, none, none⟩⟩)]⟩

theorem example_once : Id3v2Once exampleId3v2.frames where
  once := by
    intro id hid
    simp only [id3v2TextIds, List.mem_cons, List.not_mem_nil, or_false] at hid
    rcases hid with rfl | rfl | rfl | rfl | rfl | rfl <;> decide +kernel
  text := by
    intro id hid f hf e
    simp only [exampleId3v2, List.mem_cons, List.not_mem_nil, or_false] at hf
    rcases hf with rfl | rfl | rfl | rfl
    · subst e; exact absurd hid (by decide +kernel)
    · subst e; exact absurd hid (by decide +kernel)
    · exact ⟨_, _, rfl⟩
    · subst e; exact absurd hid (by decide +kernel)
  date := by decide +kernel
  comment := by decide +kernel

example : (fun s : View => [s .genre, s .comment, s .disk, s .diskTotal, s .title, s .date]) (seenView id3v2
    ([Op.set .genre (.text (str "Dub")), .set .diskTotal (.number 2), .set .comment (.text (str "new"))].foldl
      (Op.run id3v2) exampleId3v2)) =
    [some (.text (str "Dub")), some (.text (str "new")), none, some (.number 2), some (.text (str "x")),
      some (.date ⟨2020, none, none, none, none, none⟩)] := by
  rw [id3v2_history_partial _ example_once _ ?_ ?_]
  · decide +kernel
  · intro f v h
    simp only [List.mem_cons, List.not_mem_nil, or_false] at h
    rcases h with h | h | h <;> cases h
    · exact ⟨by decide, by decide, by decide, by decide, by decide, by decide⟩
    · exact (by decide : 2 < 2 ^ 32)
    · trivial
  · exact ⟨totalGone_set _ _ _, totalGone_set _ _ _, totalGone_set _ _ _, trivial⟩

/-! ## Where the code does otherwise -/

theorem filter_takeFirst_set (s s' : Str) (id : Id3v2.FrameId) (l : List Id3v2.Frame) :
    Id3v2.takeFirst (fun g => Id3v2.sameFrame g (newText id s)) l = Id3v2.takeFirst (fun g => Id3v2.sameFrame g (newText id s')) l := by
  have : (fun g => Id3v2.sameFrame g (newText id s)) = fun g => Id3v2.sameFrame g (newText id s') := by
    funext g
    rw [same_newText, same_newText]
  rw [this]

/-- **C72.** In an ID3v2 tag the date that is set does not matter to the date that is got: `set_date` stores a text,
`date` looks for a time. -/
theorem id3v2_date_ignored (t : Id3v2Tag) (d d' : Timestamp) :
    id3v2.get .date (id3v2.set .date (.date d) t) = id3v2.get .date (id3v2.set .date (.date d') t) := by
  show (id3v2Date (Id3v2.insert t.frames (newText IKey.tdrc.id d.fmt)).2).map Value.date =
    (id3v2Date (Id3v2.insert t.frames (newText IKey.tdrc.id d'.fmt)).2).map Value.date
  have e : ∀ s, (Id3v2.insert t.frames (newText IKey.tdrc.id s)).2 =
      (Id3v2.takeFirst (fun g => Id3v2.sameFrame g (newText IKey.tdrc.id s)) t.frames).2 ++ [newText IKey.tdrc.id s] := by
    intro s
    unfold Id3v2.insert
    have : Id3v2.onePerTag.contains (newText IKey.tdrc.id s).id.asStr = false := IKey.tdrc.many
    rw [this]; rfl
  rw [e, e, filter_takeFirst_set d'.fmt d.fmt]
  generalize (Id3v2.takeFirst (fun g => Id3v2.sameFrame g (newText IKey.tdrc.id d.fmt)) t.frames).2 = l
  unfold id3v2Date Id3v2.get
  rw [List.find?_append, List.find?_append]
  cases l.find? fun f => decide (f.id = id3v2Id .date) with
  | some g => rfl
  | none => rfl

/-- So a new tag has no date after one has been set, and the text is lost when a date is removed. -/
theorem id3v2_date_lost :
    id3v2.get .date (id3v2.set .date (.date ⟨2020, none, none, none, none, none⟩) ⟨.v4, []⟩) = none
    ∧ id3v2.get .date (id3v2.set .date (.date ⟨2021, none, none, none, none, none⟩) exampleId3v2) =
        some (.date ⟨2020, none, none, none, none, none⟩) := by decide +kernel

/-- **C72.** In an ID3v2 tag a genre that is a number shows as the name of that number, an empty one not at all, one in
parentheses without them, and a title with NUL with slashes. -/
theorem id3v2_texts_change :
    id3v2.get .genre (id3v2.set .genre (.text (str "17")) ⟨.v4, []⟩) = some (.text (str "Rock"))
    ∧ id3v2.get .genre (id3v2.set .genre (.text []) ⟨.v4, []⟩) = none
    ∧ id3v2.get .genre (id3v2.set .genre (.text (str "(Rock) live")) ⟨.v4, []⟩) = some (.text (str "Rock /  live"))
    ∧ id3v2.get .title (id3v2.set .title (.text ['a', '\x00', 'b']) ⟨.v4, []⟩) = some (.text (str "a/b")) := by decide +kernel

/-- **C72.** Where number and total are stored together, removing the number removes the total. -/
theorem pairs_share_removal :
    id3v2.get .trackTotal (id3v2.remove .track (id3v2.set .trackTotal (.number 9) ⟨.v4, []⟩)) = none
    ∧ ape.get .trackTotal (ape.remove .track (ape.set .trackTotal (.number 9) [])) = none
    ∧ mp4.get .trackTotal (mp4.remove .track (mp4.set .trackTotal (.number 9) [])) = none := by decide +kernel

/-- **C72.** Where number and total are stored together, setting a total makes the number 0; in MP4 tags setting a
number makes the total 0 as well, and removing the total does not remove that 0. -/
theorem pairs_share_zero :
    id3v2.get .disk (id3v2.set .diskTotal (.number 9) ⟨.v4, []⟩) = some (.number 0)
    ∧ ape.get .disk (ape.set .diskTotal (.number 9) []) = some (.number 0)
    ∧ mp4.get .disk (mp4.set .diskTotal (.number 9) []) = some (.number 0)
    ∧ mp4.get .diskTotal (mp4.set .disk (.number 9) []) = some (.number 0)
    ∧ mp4.get .diskTotal (mp4.remove .diskTotal (mp4.set .disk (.number 9) [])) = some (.number 0) := by decide +kernel

/-- **C72.** An MP4 tag keeps the lower 16 bits of a number. -/
theorem mp4_number_cut : mp4.get .track (mp4.set .track (.number 65537) []) = some (.number 1) := by decide +kernel

/-- **C72.** An ID3v1 tag keeps the lower 8 bits of a track, ignores an unknown genre, cuts a comment, and takes the year
of a date. -/
theorem id3v1_cuts :
    id3v1.get .track (id3v1.set .track (.number 257) noId3v1) = some (.number 1)
    ∧ id3v1.get .genre (id3v1.set .genre (.text (str "rock!")) noId3v1) = none
    ∧ id3v1.get .comment (id3v1.set .comment (.text (str "12345678901234567890123456789")) noId3v1) =
        some (.text (str "1234567890123456789012345678"))
    ∧ id3v1.get .date (id3v1.set .date (.date ⟨2020, some 2, some 3, none, none, none⟩) noId3v1) =
        some (.date ⟨2020, none, none, none, none, none⟩) := by decide +kernel

/-- **C72.** With two artists in a RIFF INFO list, removing or setting the artist takes away the first only: the second
shows.  A key in lower case is not seen, but replaced. -/
theorem riff_removed_artist_shown :
    riff.get .artist (riff.remove .artist [(str "IART", str "a"), (str "IART", str "b")]) = some (.text (str "b"))
    ∧ riff.get .artist (riff.set .artist (.text (str "c")) [(str "IART", str "a"), (str "IART", str "b")]) = some (.text (str "b"))
    ∧ riff.get .artist [(str "iart", str "a")] = none
    ∧ riff.set .artist (.text (str "b")) [(str "iart", str "a")] = [(str "IART", str "b")] := by decide +kernel

/-- **C72.** With two artists in Vorbis comments, setting the track changes which one shows. -/
theorem vorbis_track_changes_artist :
    let t : Vorbis.Tag := ⟨[], [(str "ARTIST", str "a"), (str "ARTIST", str "b"), (str "TRACKNUMBER", str "1")], []⟩
    vorbis.get .artist t = some (.text (str "a")) ∧
    vorbis.get .artist (vorbis.set .track (.number 2) t) = some (.text (str "b")) := by decide +kernel

/-- **C72.** With a `COMT` chunk, AIFF text chunks show its comment after the comment has been removed. -/
theorem aiff_removed_comment_shown :
    aiff.get .comment (aiff.remove .comment { noAiff with comments := some [⟨0, 0, str "a"⟩] }) = some (.text (str "a")) := by decide +kernel

end Lofty.Accessor
