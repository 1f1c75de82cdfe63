import Verif.Lemmas.AccessorOthers
/-! # C73: the accessors leave everything else alone -/
namespace Lofty.Accessor

/-- **C73.** After any calls the items of the generic tag that no call is about are what they were, in their order, and so
are its pictures and its type. -/
theorem generic_others (t : Item.Tag) (ops : List Op) :
    ((ops.foldl (Op.run generic) t).items.filter (other genericOwn ops)) = t.items.filter (other genericOwn ops)
    ∧ (ops.foldl (Op.run generic) t).pictures = t.pictures ∧ (ops.foldl (Op.run generic) t).type = t.type := by
  refine ⟨others_eq (fun t op h => generic_others_step t op h) ops t other_own, ?_⟩
  have := stays (f := fun t : Item.Tag => (t.type, t.pictures, t.companion)) generic_rest_step ops t
  simp only [Prod.mk.injEq] at this
  exact ⟨this.2.1, this.1⟩

/-- Of three items the two that are not set. -/
example : ((([Op.set .title (.text (str "t")), .remove .date].foldl (Op.run generic)
    ⟨.ape, [], [.new .Genre (.text (str "g")), .new .Year (.text (str "2020")), .new .AlbumTitle (.text (str "a"))], false⟩).items).filter
      (other genericOwn [Op.set .title (.text (str "t")), .remove .date])) =
    [.new .Genre (.text (str "g")), .new .AlbumTitle (.text (str "a"))] := by
  rw [(generic_others _ _).1]
  decide +kernel

/-- **C73.** The same for Vorbis comments, but for the order. -/
theorem vorbis_others (t : Vorbis.Tag) (ops : List Op) :
    ((ops.foldl (Op.run vorbis) t).items.filter (other vorbisOwn ops)).Perm (t.items.filter (other vorbisOwn ops))
    ∧ (ops.foldl (Op.run vorbis) t).vendor = t.vendor ∧ (ops.foldl (Op.run vorbis) t).pictures = t.pictures := by
  refine ⟨others (items := Vorbis.Tag.items) (fun t op h => vorbis_others_step t op h) ops t other_own, ?_⟩
  have := stays (f := fun t : Vorbis.Tag => (t.vendor, t.pictures)) vorbis_rest_step ops t
  simpa only [Prod.mk.injEq] using this

/-- A performer that occurs twice still does. -/
example : (((([Op.set .track (.number 1), .remove .artist].foldl (Op.run vorbis)
    ⟨[], [(str "PERFORMER", str "a"), (str "Artist", str "x"), (str "PERFORMER", str "b"), (str "TRACKNUM", str "7")], []⟩).items).filter
      (other vorbisOwn [Op.set .track (.number 1), .remove .artist])).Perm [(str "PERFORMER", str "a"), (str "PERFORMER", str "b")]) := by
  have := (vorbis_others ⟨[], [(str "PERFORMER", str "a"), (str "Artist", str "x"), (str "PERFORMER", str "b"), (str "TRACKNUM", str "7")], []⟩
    [Op.set .track (.number 1), .remove .artist]).1
  refine this.trans (.of_eq ?_)
  decide +kernel

/-- **C73.** APE tags. -/
theorem ape_others (l : List Ape.Item) (ops : List Op) :
    (ops.foldl (Op.run ape) l).filter (other apeOwn ops) = l.filter (other apeOwn ops) :=
  others_eq (items := id) (fun l op h => ape_others_step l op h) ops l other_own

/-- Read-only items too. -/
example : (([Op.set .disk (.number 1), .set .genre (.text (str "x"))].foldl (Op.run ape)
    [⟨true, str "Artist", .text (str "a")⟩, ⟨true, str "genre", .text (str "b")⟩, ⟨false, str "Cover", .binary [1]⟩]).filter
      (other apeOwn [Op.set .disk (.number 1), .set .genre (.text (str "x"))])) =
    [⟨true, str "Artist", .text (str "a")⟩, ⟨false, str "Cover", .binary [1]⟩] := by
  rw [ape_others]
  decide +kernel

/-- **C73.** MP4 tags, but for the order. -/
theorem mp4_others (t : Ilst.Tag) (ops : List Op) :
    ((ops.foldl (Op.run mp4) t).filter (other mp4Own ops)).Perm (t.filter (other mp4Own ops)) :=
  others (items := id) (fun t op h => mp4_others_step t op h) ops t other_own

example : (([Op.remove .track, .set .title (.text (str "x"))].foldl (Op.run mp4)
    [⟨Ilst.trkn, .single (.unknown 0 [0, 0, 0, 1, 0, 2, 0, 0])⟩, ⟨Ilst.four 0xA9 "too", .single (.utf8 (str "e"))⟩]).filter
      (other mp4Own [Op.remove .track, .set .title (.text (str "x"))])).Perm [⟨Ilst.four 0xA9 "too", .single (.utf8 (str "e"))⟩] := by
  refine (mp4_others _ _).trans (.of_eq ?_)
  decide +kernel

/-- **C73.** RIFF INFO lists. -/
theorem riff_others (l : List Iff.Item) (ops : List Op) :
    (ops.foldl (Op.run riff) l).filter (other riffOwn ops) = l.filter (other riffOwn ops) :=
  others_eq (items := id) (fun l op h => riff_others_step l op h) ops l other_own

example : (([Op.remove .track, .set .title (.text (str "x"))].foldl (Op.run riff)
    [(str "ISFT", str "a"), (str "IPRT", str "1"), (str "IART", str "b")]).filter
      (other riffOwn [Op.remove .track, .set .title (.text (str "x"))])) = [(str "ISFT", str "a"), (str "IART", str "b")] := by
  rw [riff_others]
  decide +kernel

/-- **C73.** AIFF text chunks: the copyright and the `COMT` comments, and the author and the name unless a call is about
them. -/
theorem aiff_others (t : Iff.Aiff) (ops : List Op) :
    (ops.foldl (Op.run aiff) t).copyright = t.copyright ∧ (ops.foldl (Op.run aiff) t).comments = t.comments
    ∧ ((∀ op ∈ ops, op.field ≠ .artist) → (ops.foldl (Op.run aiff) t).author = t.author)
    ∧ ((∀ op ∈ ops, op.field ≠ .title) → (ops.foldl (Op.run aiff) t).name = t.name)
    ∧ ((∀ op ∈ ops, op.field ≠ .comment) → (ops.foldl (Op.run aiff) t).annotations = t.annotations) := by
  induction ops generalizing t with
  | nil => simp
  | cons op ops ih =>
    obtain ⟨h1, h2, h3, h4, h5⟩ := ih (op.run aiff t)
    refine ⟨h1.trans ?_, h2.trans ?_, fun h => (h3 fun o ho => h o (by simp [ho])).trans ?_,
      fun h => (h4 fun o ho => h o (by simp [ho])).trans ?_, fun h => (h5 fun o ho => h o (by simp [ho])).trans ?_⟩
    · cases op with
      | set f v => cases f <;> cases v <;> rfl
      | remove f => cases f <;> rfl
    · cases op with
      | set f v => cases f <;> cases v <;> rfl
      | remove f => cases f <;> rfl
    all_goals
      have := h op (by simp)
      cases op with
      | set f v => cases f <;> cases v <;> first | rfl | exact absurd rfl this
      | remove f => cases f <;> first | rfl | exact absurd rfl this

example : ([Op.set .comment (.text (str "x")), .remove .artist].foldl (Op.run aiff)
    ⟨some (str "n"), some (str "a"), some (str "c"), none, some [⟨1, 2, str "t"⟩]⟩).name = some (str "n") :=
  (aiff_others _ _).2.2.2.1 (by decide)

/-- **C73.** ID3v2 tags, but for the order: among others, comments with a description stay when the comment is set or
removed. -/
theorem id3v2_others (t : Id3v2Tag) (ops : List Op) :
    ((ops.foldl (Op.run id3v2) t).frames.filter (other id3v2Own ops)).Perm (t.frames.filter (other id3v2Own ops))
    ∧ (ops.foldl (Op.run id3v2) t).version = t.version :=
  ⟨others (items := Id3v2Tag.frames) (fun t op h => id3v2_others_step t op h) ops t other_own,
   stays (f := Id3v2Tag.version) id3v2_rest_step ops t⟩

/-- Of two comments the one with a description. -/
example : (([Op.remove .comment, .set .title (.text (str "x"))].foldl (Op.run id3v2)
    ⟨.v4, [.leaf {} (.comment ⟨.utf8, (88, 88, 88), str "d", str "1"⟩), .leaf {} (.comment ⟨.utf8, (88, 88, 88), [], str "2"⟩)]⟩).frames.filter
      (other id3v2Own [Op.remove .comment, .set .title (.text (str "x"))])).Perm
    [.leaf {} (.comment ⟨.utf8, (88, 88, 88), str "d", str "1"⟩)] := by
  refine (id3v2_others _ _).1.trans (.of_eq ?_)
  rfl

end Lofty.Accessor
