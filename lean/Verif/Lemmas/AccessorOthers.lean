import Verif.Spec.AccessorOthers
import Verif.Lemmas.AccessorVorbis
import Verif.Lemmas.AccessorId3v2
/-! Lemmas about what the accessors leave alone. -/
namespace Lofty.Accessor

/-- From one call to all calls. -/
theorem others {T I : Type} {A : Impl T} {items : T → List I} {own : Field → I → Bool} {p : I → Bool}
    (step : ∀ (t : T) (op : Op), (∀ i, p i = true → own op.field i = false) → ((items (op.run A t)).filter p).Perm ((items t).filter p)) :
    ∀ (ops : List Op) (t : T), (∀ op ∈ ops, ∀ i, p i = true → own op.field i = false) →
      ((items (ops.foldl (Op.run A) t)).filter p).Perm ((items t).filter p)
  | [], _, _ => .refl _
  | op :: ops, t, h => (others step ops _ fun o ho => h o (by simp [ho])).trans (step t op (h op (by simp)))

theorem others_eq {T I : Type} {A : Impl T} {items : T → List I} {own : Field → I → Bool} {p : I → Bool}
    (step : ∀ (t : T) (op : Op), (∀ i, p i = true → own op.field i = false) → (items (op.run A t)).filter p = (items t).filter p) :
    ∀ (ops : List Op) (t : T), (∀ op ∈ ops, ∀ i, p i = true → own op.field i = false) →
      (items (ops.foldl (Op.run A) t)).filter p = (items t).filter p
  | [], _, _ => rfl
  | op :: ops, t, h => (others_eq step ops _ fun o ho => h o (by simp [ho])).trans (step t op (h op (by simp)))

theorem other_own {I : Type} {own : Field → I → Bool} {ops : List Op} :
    ∀ op ∈ ops, ∀ i, other own ops i = true → own op.field i = false := by
  intro op ho i h
  simpa using (List.all_eq_true.mp h) op ho

/-- What stays the same in every call. -/
theorem stays {T X : Type} {A : Impl T} {f : T → X} (step : ∀ (t : T) (op : Op), f (Op.run A t op) = f t) :
    ∀ (ops : List Op) (t : T), f (ops.foldl (Op.run A) t) = f t
  | [], _ => rfl
  | op :: ops, t => (stays step ops _).trans (step t op)

theorem filter_filter_own {I : Type} {p q : I → Bool} (h : ∀ i, p i = true → q i = false) (l : List I) :
    (l.filter fun i => !q i).filter p = l.filter p := by
  rw [List.filter_filter]
  apply List.filter_congr
  intro i _
  cases hp : p i <;> simp [h i, hp]

theorem drain_own {I : Type} {p q : I → Bool} (h : ∀ i, p i = true → q i = false) (l : List I) :
    ((drainFilter q l).2.filter p).Perm (l.filter p) := by
  have := ((drainFilter_spec q l).2.1).filter p
  rwa [filter_filter_own h] at this

theorem append_own {I : Type} {p : I → Bool} {l : List I} {i : I} (h : p i = false) : (l ++ [i]).filter p = l.filter p := by
  simp [List.filter_append, h]

theorem not_of_own {I : Type} {p : I → Bool} {own : I → Bool} (h : ∀ i, p i = true → own i = false) {i : I} (ho : own i = true) :
    p i = false := by
  cases hp : p i with
  | false => rfl
  | true => rw [h i hp] at ho; cases ho

/-! ## The generic tag -/

theorem gsetText_own {t : Item.Tag} {k : Item.ItemKey} {s : Str} {p : Item.TagItem → Bool}
    (h : ∀ i, p i = true → decide (i.key = k) = false) : (t.setText k s).items.filter p = t.items.filter p := by
  unfold Item.Tag.setText Item.Tag.insertText Item.Tag.insert
  split
  · unfold Item.Tag.insertUnchecked
    dsimp only
    rw [append_own (not_of_own h (by simp [Item.TagItem.new]))]
    have e : (fun j : Item.TagItem => decide (j.key ≠ (Item.TagItem.new k (.text s)).key)) = fun j => !decide (j.key = k) := by
      funext j
      exact decide_not
    rw [e, filter_filter_own h]
  · rfl

theorem gremove_own {t : Item.Tag} {k : Item.ItemKey} {p : Item.TagItem → Bool}
    (h : ∀ i, p i = true → decide (i.key = k) = false) : (t.removeKey k).items.filter p = t.items.filter p := by
  have e : (fun j : Item.TagItem => decide (j.key ≠ k)) = fun j => !decide (j.key = k) := by
    funext j
    simp
  unfold Item.Tag.removeKey
  dsimp only
  rw [e, filter_filter_own h]

theorem gsetText_rest (t : Item.Tag) (k : Item.ItemKey) (s : Str) :
    ((t.setText k s).type, (t.setText k s).pictures, (t.setText k s).companion) = (t.type, t.pictures, t.companion) := by
  unfold Item.Tag.setText Item.Tag.insertText Item.Tag.insert
  split <;> rfl

theorem own_or {I : Type} {p a b : I → Bool} (h : ∀ i, p i = true → (a i || b i) = false) :
    (∀ i, p i = true → a i = false) ∧ ∀ i, p i = true → b i = false := by
  constructor <;> intro i hi <;> have := h i hi <;> simp at this
  · exact this.1
  · exact this.2

theorem generic_others_step {p : Item.TagItem → Bool} (t : Item.Tag) (op : Op)
    (h : ∀ i, p i = true → genericOwn op.field i = false) : ((op.run generic t).items).filter p = t.items.filter p := by
  cases op with
  | set f v =>
    cases f <;> cases v <;> first | rfl | exact gsetText_own h | skip
    rename_i d
    obtain ⟨h1, h2⟩ := own_or h
    show ((t.removeKey .Year).setText .RecordingDate d.fmt).items.filter p = _
    rw [gsetText_own h1, gremove_own h2]
  | remove f =>
    cases f <;> first | exact gremove_own h | skip
    obtain ⟨h1, h2⟩ := own_or h
    show ((t.removeKey .Year).removeKey .RecordingDate).items.filter p = _
    rw [gremove_own h1, gremove_own h2]

theorem generic_rest_step (t : Item.Tag) (op : Op) :
    ((op.run generic t).type, (op.run generic t).pictures, (op.run generic t).companion) = (t.type, t.pictures, t.companion) := by
  cases op with
  | set f v => cases f <;> cases v <;> first | rfl | exact gsetText_rest _ _ _
  | remove f => cases f <;> rfl

/-! ## Vorbis comments -/

theorem vinsert_own {t : Vorbis.Tag} {k s : Str} {p : Vorbis.Item → Bool} (h : ∀ i, p i = true → eqIc i.1 k = false) :
    (Vorbis.insert t k s).items.filter p = t.items.filter p := by
  unfold Vorbis.insert
  split
  · dsimp only
    rw [append_own (not_of_own (own := fun i => eqIc i.1 k) h (by simp [eqIc_refl])), filter_filter_own h]
  · rfl

theorem vremove_own {t : Vorbis.Tag} {k : Str} {p : Vorbis.Item → Bool} (h : ∀ i, p i = true → eqIc i.1 k = false) :
    ((Vorbis.remove t k).2.items.filter p).Perm (t.items.filter p) := drain_own h t.items

theorem vorbis_others_step {p : Vorbis.Item → Bool} (t : Vorbis.Tag) (op : Op)
    (h : ∀ i, p i = true → vorbisOwn op.field i = false) : ((op.run vorbis t).items.filter p).Perm (t.items.filter p) := by
  cases op with
  | set f v =>
    cases f <;> cases v <;> first | exact .refl _ | exact .of_eq (vinsert_own h) | skip
    case track.number =>
      obtain ⟨h1, h2⟩ := own_or h
      exact (List.Perm.of_eq (vinsert_own h1)).trans ((vremove_own h2).trans (vremove_own h1))
    all_goals
      obtain ⟨h1, h2⟩ := own_or h
      exact (vremove_own h2).trans (.of_eq (vinsert_own h1))
  | remove f =>
    cases f <;> first | exact vremove_own h | skip
    all_goals
      obtain ⟨h1, h2⟩ := own_or h
      exact (vremove_own h2).trans (vremove_own h1)

theorem vinsert_rest (t : Vorbis.Tag) (k s : Str) :
    ((Vorbis.insert t k s).vendor, (Vorbis.insert t k s).pictures) = (t.vendor, t.pictures) := by
  unfold Vorbis.insert
  split <;> rfl

theorem vorbis_rest_step (t : Vorbis.Tag) (op : Op) :
    ((op.run vorbis t).vendor, (op.run vorbis t).pictures) = (t.vendor, t.pictures) := by
  cases op with
  | set f v => cases f <;> cases v <;> first | rfl | exact vinsert_rest _ _ _
  | remove f => cases f <;> rfl

/-! ## APE -/

theorem ainsert_own {l : List Ape.Item} {i : Ape.Item} {p : Ape.Item → Bool} (h : ∀ j, p j = true → eqIc j.key i.key = false) :
    (Ape.insert l i).filter p = l.filter p := by
  unfold Ape.insert Ape.remove
  rw [append_own (not_of_own (own := fun j => eqIc j.key i.key) h (by simp [eqIc_refl])), filter_filter_own h]

theorem aremove_own {l : List Ape.Item} {k : Str} {p : Ape.Item → Bool} (h : ∀ j, p j = true → eqIc j.key k = false) :
    (Ape.remove l k).filter p = l.filter p := filter_filter_own h l

theorem apair_own {l : List Ape.Item} {k : Str} {p : Ape.Item → Bool} (h : ∀ j, p j = true → eqIc j.key k = false)
    (o : Pairs.Op) : (Ape.stepPair k l o).filter p = l.filter p := by
  have pair : ∀ a b, (Ape.insertNumberPair l k a b).filter p = l.filter p := by
    intro a b
    unfold Ape.insertNumberPair
    split
    · exact ainsert_own h
    · rfl
  cases o
  · exact pair _ _
  · exact pair _ _
  · exact aremove_own h
  · rw [Ape.stepPair]
    split
    · rw [ainsert_own h, aremove_own h]
    · exact aremove_own h

theorem ape_others_step {p : Ape.Item → Bool} (l : List Ape.Item) (op : Op)
    (h : ∀ i, p i = true → apeOwn op.field i = false) : (op.run ape l).filter p = l.filter p := by
  cases op with
  | set f v =>
    cases f <;> cases v <;> first
      | rfl
      | exact ainsert_own h
      | exact apair_own (k := str "Track") h (.setNumber _)
      | exact apair_own (k := str "Track") h (.setTotal _)
      | exact apair_own (k := str "Disc") h (.setNumber _)
      | exact apair_own (k := str "Disc") h (.setTotal _)
  | remove f =>
    cases f <;> first
      | exact aremove_own h
      | exact apair_own (k := str "Track") h .removeTotal
      | exact apair_own (k := str "Disc") h .removeTotal

/-! ## MP4 -/

theorem mremove_own {t : Ilst.Tag} {k : Mp4.Ident} {p : Ilst.Atom → Bool} (h : ∀ j, p j = true → decide (j.ident = k) = false) :
    ((Ilst.remove t k).2.filter p).Perm (t.filter p) := drain_own h t

theorem mreplace_own {t : Ilst.Tag} {a : Ilst.Atom} {p : Ilst.Atom → Bool}
    (h : ∀ j, p j = true → decide (j.ident = a.ident) = false) : ((Ilst.replace t a).filter p).Perm (t.filter p) := by
  unfold Ilst.replace
  rw [append_own (not_of_own h (by simp))]
  exact mremove_own h

theorem mp4_others_step {p : Ilst.Atom → Bool} (t : Ilst.Tag) (op : Op)
    (h : ∀ i, p i = true → mp4Own op.field i = false) : ((op.run mp4 t).filter p).Perm (t.filter p) := by
  have tot : ∀ k, (∀ j, p j = true → decide (j.ident = k) = false) → ((Ilst.removeTotal t k).filter p).Perm (t.filter p) := by
    intro k h
    unfold Ilst.removeTotal
    dsimp only
    split
    · exact (mreplace_own h).trans (mremove_own h)
    · exact mremove_own h
  cases op with
  | set f v => cases f <;> cases v <;> first | exact .refl _ | exact mreplace_own h
  | remove f => cases f <;> first | exact mremove_own h | exact tot _ h

/-! ## RIFF INFO -/

theorem erase_own {k : Str} {p : Iff.Item → Bool} (h : ∀ j, p j = true → eqIc j.1 k = false) :
    ∀ l : List Iff.Item, (Iff.eraseKey k l).filter p = l.filter p
  | [] => rfl
  | i :: l => by
    unfold Iff.eraseKey
    split
    · rename_i hk
      rw [List.filter_cons, if_neg]
      rw [not_of_own (own := fun j : Iff.Item => eqIc j.1 k) h hk]; simp
    · rw [List.filter_cons, List.filter_cons, erase_own h l]

theorem riff_others_step {p : Iff.Item → Bool} (l : List Iff.Item) (op : Op)
    (h : ∀ i, p i = true → riffOwn op.field i = false) : (op.run riff l).filter p = l.filter p := by
  have ins : ∀ k s, (∀ j, p j = true → eqIc j.1 k = false) → (Iff.insert l k s).filter p = l.filter p := by
    intro k s h
    unfold Iff.insert
    split
    · rw [append_own (not_of_own (own := fun j => eqIc j.1 k) h (by simp [eqIc_refl])), erase_own h]
    · rfl
  cases op with
  | set f v => cases f <;> cases v <;> first | rfl | exact ins _ _ h
  | remove f => cases f <;> first | rfl | exact erase_own h l

/-! ## ID3v2 -/

theorem takeFirst_own {q p : Id3v2.Frame → Bool} (h : ∀ j, p j = true → q j = false) :
    ∀ l : List Id3v2.Frame, (Id3v2.takeFirst q l).2.filter p = l.filter p
  | [] => rfl
  | f :: l => by
    unfold Id3v2.takeFirst
    split
    · rename_i hk
      rw [List.filter_cons, if_neg]
      rw [not_of_own h hk]; simp
    · dsimp only
      rw [List.filter_cons, List.filter_cons, takeFirst_own h l]

theorem iremove_own {l : List Id3v2.Frame} {k : Id3v2.FrameId} {p : Id3v2.Frame → Bool}
    (h : ∀ j, p j = true → decide (j.id = k) = false) : ((Id3v2.remove l k).2.filter p).Perm (l.filter p) := drain_own h l

theorem iinsert_own {l : List Id3v2.Frame} {k : Id3v2.FrameId} {s : Str} {p : Id3v2.Frame → Bool}
    (h : ∀ j, p j = true → decide (j.id = k) = false) : ((Id3v2.insert l (newText k s)).2.filter p).Perm (l.filter p) := by
  have hn : p (newText k s) = false := not_of_own h (by simp [newText, Id3v2.Frame.id, Id3v2.Content.id])
  unfold Id3v2.insert
  split
  · dsimp only
    rw [append_own hn]
    exact iremove_own h
  · dsimp only
    rw [append_own hn, takeFirst_own]
    intro j hj
    cases hs : Id3v2.sameFrame j (newText k s) with
    | false => rfl
    | true =>
      have := h j hj
      simp [same_newText_id hs] at this

theorem setComment_own {s : Str} {p : Id3v2.Frame → Bool} (h : ∀ j, p j = true → id3v2Own .comment j = false) :
    ∀ l : List Id3v2.Frame, (id3v2SetComment s l).filter p = l.filter p
  | [] => by
    rw [id3v2SetComment, List.filter_cons, if_neg]
    rw [not_of_own h (by simp [id3v2Own])]; simp
  | f :: l => by
    have hc : ∀ j, (plainComment j).isSome = id3v2Own .comment j := by
      intro j
      unfold plainComment id3v2Own
      dsimp only
      split
      · split <;> simp_all
      · simp
    rw [id3v2SetComment]
    split
    · rename_i hf
      rw [hc] at hf
      have h1 : p f = false := not_of_own h hf
      have h2 : p (withContent s f) = false := by
        apply not_of_own h
        unfold id3v2Own at hf ⊢
        dsimp only at hf ⊢
        split at hf
        · exact hf
        · cases hf
      rw [List.filter_cons, if_neg (by simp [h2]), List.filter_cons, if_neg (by simp [h1])]
      have : (fun g => (plainComment g).isNone) = fun g => !id3v2Own .comment g := by
        funext g
        rw [← hc]
        cases plainComment g <;> rfl
      rw [this, filter_filter_own h]
    · rw [List.filter_cons, List.filter_cons, setComment_own h l]

theorem id3v2_others_step {p : Id3v2.Frame → Bool} (t : Id3v2Tag) (op : Op)
    (h : ∀ i, p i = true → id3v2Own op.field i = false) : ((op.run id3v2 t).frames.filter p).Perm (t.frames.filter p) := by
  have pair : ∀ k a b, (∀ j, p j = true → decide (j.id = k) = false) →
      ((id3v2InsertPair t.frames k a b).filter p).Perm (t.frames.filter p) := by
    intro k a b h
    unfold id3v2InsertPair
    split
    · exact iinsert_own h
    · exact .refl _
  have tot : ∀ k, (∀ j, p j = true → decide (j.id = k) = false) →
      ((id3v2RemoveTotal t.frames k).filter p).Perm (t.frames.filter p) := by
    intro k h
    unfold id3v2RemoveTotal
    split
    · exact (iinsert_own h).trans (iremove_own h)
    · exact iremove_own h
  cases op with
  | set f v =>
    cases f <;> cases v <;>
      first | exact .refl _ | exact iinsert_own h | exact pair _ _ _ h | exact .of_eq (setComment_own h _)
  | remove f =>
    cases f <;> first | exact iremove_own h | exact tot _ h | skip
    show ((t.frames.filter fun g => (plainComment g).isNone).filter p).Perm _
    have : (fun g => (plainComment g).isNone) = fun g => !id3v2Own .comment g := by
      funext g
      unfold plainComment id3v2Own
      dsimp only
      split
      · split <;> simp_all
      · simp
    rw [this, filter_filter_own (q := id3v2Own .comment) h]

theorem id3v2_rest_step (t : Id3v2Tag) (op : Op) : (op.run id3v2 t).version = t.version := by
  cases op with
  | set f v => cases f <;> cases v <;> rfl
  | remove f => cases f <;> rfl

end Lofty.Accessor
