import Verif.Model.Count
import Verif.Model.Accessor
import Verif.Props.Ape
/-!
# How many items a tag has and which (C92)

`len`, `is_empty`, `contains`, `clear` and the getters of the tags agree with each other.
-/
namespace Lofty.Save
open Item

/-- The lists of an AIFF tag are there only if they hold something. -/
def Own.Proper : Own → Prop
  | .aiffText t => t.annotations ≠ some [] ∧ t.comments ≠ some []
  | _ => True

theorem one_zero {o : Option α} : one o = 0 ↔ o = none := by cases o <;> simp [one]

/-- **A tag is empty exactly if it has no items.** -/
theorem empty_len {t : Own} (h : t.Proper) : t.isEmpty = true ↔ t.len = 0 := by
  cases t with
  | ape t => simp [Own.isEmpty, Own.len]
  | id3v2 fl fs => simp [Own.isEmpty, Own.len]
  | mp4Ilst t => simp [Own.isEmpty, Own.len]
  | vorbisComments t => simp [Own.isEmpty, Own.len]
  | riffInfo t => simp [Own.isEmpty, Own.len]
  | id3v1 t =>
    simp only [Own.isEmpty, Own.len, Id3v1.Tag.isEmpty, Bool.and_eq_true, Option.isNone_iff_eq_none, Nat.add_eq_zero_iff, one_zero]
  | aiffText t =>
    obtain ⟨h1, h2⟩ := h
    obtain ⟨n, a, c, an, co⟩ := t
    simp only [Own.isEmpty, Own.len, Bool.and_eq_true, Option.isNone_iff_eq_none, Nat.add_eq_zero_iff, one_zero]
    have hl : ∀ {β : Type} (o : Option (List β)), o ≠ some [] → ((o.map List.length).getD 0 = 0 ↔ o = none) := by
      intro β o ho
      cases o with
      | none => simp
      | some l =>
        cases l with
        | nil => exact absurd rfl ho
        | cons x l => simp
    rw [hl an h1, hl co h2]

example : (Own.aiffText ⟨none, none, none, some [str "a"], none⟩).Proper := ⟨by simp, by simp⟩

/-- An AIFF tag with an empty list of annotations has no items, but is not empty and contains a comment. -/
theorem aiff_no_items : (Own.aiffText ⟨none, none, none, some [], none⟩).len = 0 ∧
    (Own.aiffText ⟨none, none, none, some [], none⟩).isEmpty = false ∧
    (Iff.Aiff.contains ⟨none, none, none, some [], none⟩ .Comment) = true := by decide

/-- The AIFF tags that are read are proper. -/
theorem read_proper {strict : Bool} {id3 : Bytes → Except Err Unit} {f : Bytes} {t : Iff.Aiff}
    (h : Iff.readAiff strict id3 f = .ok t) : (Own.aiffText t).Proper := by
  unfold Iff.readAiff at h
  obtain ⟨_, _, h⟩ := bind_ok h
  obtain ⟨a, _, h⟩ := bind_ok h
  obtain rfl := (Except.ok.injEq _ _).mp h
  constructor
  · show (if a.annotations.isEmpty then none else some a.annotations) ≠ some []
    cases a.annotations <;> simp
  · show (if a.comments.isEmpty then none else some a.comments) ≠ some []
    cases a.comments <;> simp

/-- The AIFF tags that generic tags are converted to are proper. -/
theorem converted_proper (t : Tag) : (Own.aiffText (Convert.toAiff t)).Proper := by
  constructor
  · show (if _ then none else some _) ≠ some []
    split
    · simp
    · rename_i h
      intro e
      rw [(Option.some.injEq _ _).mp e] at h
      exact h rfl
  · show (none : Option (List Iff.Comment)) ≠ some []
    simp

/-- The accessors keep AIFF tags proper. -/
theorem accessor_proper {t : Iff.Aiff} (h : (Own.aiffText t).Proper) (f : Accessor.Field) (v : Accessor.Value) :
    (Own.aiffText (Accessor.aiff.set f v t)).Proper ∧ (Own.aiffText (Accessor.aiff.remove f t)).Proper := by
  obtain ⟨h1, h2⟩ := h
  constructor
  · cases f <;> cases v <;> first | exact ⟨h1, h2⟩ | exact ⟨by simp [Accessor.aiff], h2⟩
  · cases f <;> first | exact ⟨h1, h2⟩ | exact ⟨by simp [Accessor.aiff], h2⟩

/-- **A cleared tag** has no items and is empty; it keeps its type. -/
theorem clear_empty (t : Own) : t.clear.len = 0 ∧ t.clear.isEmpty = true ∧ t.clear.type = t.type := by
  cases t <;> exact ⟨rfl, rfl, rfl⟩

/-- The same of generic tags. -/
theorem generic_clear (t : Tag) : t.clear.len = 0 ∧ t.clear.type = t.type ∧ ∀ k, t.clear.contains k = false :=
  ⟨rfl, rfl, fun _ => rfl⟩

end Lofty.Save

namespace Lofty

theorem any_find {p : α → Bool} {l : List α} : l.any p = true ↔ ∃ x, l.find? p = some x := by
  rw [List.any_eq_true]
  constructor
  · rintro ⟨x, hx, hp⟩
    cases h : l.find? p with
    | none => exact absurd hp (List.find?_eq_none.mp h x hx)
    | some y => exact ⟨y, rfl⟩
  · rintro ⟨x, hx⟩
    exact ⟨x, List.mem_of_find?_eq_some hx, List.find?_some hx⟩

/-- **An APE tag contains a key** exactly if it has an item for it. -/
theorem Ape.contains_iff (l : List Ape.Item) (k : Str) : Ape.contains l k = true ↔ ∃ i, Ape.get l k = some i := any_find

/-- **An ID3v2 tag contains an id** exactly if it has a frame for it. -/
theorem Id3v2.contains_iff (l : List Id3v2.Frame) (id : Id3v2.FrameId) :
    Id3v2.contains l id = true ↔ ∃ f, Id3v2.get l id = some f := any_find

/-- **An MP4 tag contains an identifier** exactly if it has an atom for it. -/
theorem Ilst.contains_iff (t : Ilst.Tag) (i : Mp4.Ident) : Ilst.contains t i = true ↔ ∃ a, Ilst.get t i = some a := any_find

/-- **A generic tag contains a key** exactly if it has an item for it. -/
theorem Item.contains_iff (t : Item.Tag) (k : Item.ItemKey) : t.contains k = true ↔ ∃ i, t.get k = some i := any_find

/-- **Vorbis comments contain a key** exactly if there are values for it; `get` finds the first of them for every valid
key. -/
theorem Vorbis.contains_iff (t : Vorbis.Tag) (k : Str) :
    (Vorbis.contains t k = true ↔ Vorbis.getAll t k ≠ []) ∧
    (Vorbis.verifyKey k = true → (Vorbis.contains t k = true ↔ ∃ v, Vorbis.get t k = some v)) := by
  constructor
  · unfold Vorbis.contains Vorbis.getAll
    rw [List.any_eq_true, Ne, List.filterMap_eq_nil_iff]
    constructor
    · rintro ⟨i, hi, h⟩ hc
      have := hc i hi
      simp [h] at this
    · intro h
      apply Classical.byContradiction
      intro hc
      apply h
      intro i hi
      rw [if_neg (fun he => hc ⟨i, hi, he⟩)]
  · intro hk
    unfold Vorbis.contains Vorbis.get
    rw [if_pos hk, any_find]
    constructor
    · rintro ⟨i, hi⟩; exact ⟨i.2, by rw [hi]; rfl⟩
    · rintro ⟨v, hv⟩
      cases h : t.items.find? fun i => eqIc i.1 k with
      | none => rw [h] at hv; cases hv
      | some i => exact ⟨i, rfl⟩

/-- A comment without a key is contained, but cannot be asked for. -/
theorem Vorbis.contains_unfound : Vorbis.contains ⟨[], [([], str "x")], []⟩ [] = true ∧
    Vorbis.get ⟨[], [([], str "x")], []⟩ [] = none := by decide

/-- **A RIFF tag contains a key** exactly if it has an item for some spelling of it. -/
theorem Iff.contains_partial (l : List Iff.Item) (k : Str) :
    Iff.contains l k = true ↔ ∃ k' v, eqIc k' k = true ∧ Iff.get l k' = some v := by
  unfold Iff.contains Iff.get
  rw [List.any_eq_true]
  constructor
  · rintro ⟨i, hi, h⟩
    cases hf : l.find? fun j => decide (j.1 = i.1) with
    | none => exact absurd (decide_eq_true rfl) (List.find?_eq_none.mp hf i hi)
    | some j => exact ⟨i.1, j.2, h, by rw [hf]; rfl⟩
  · rintro ⟨k', v, hk, hv⟩
    cases hf : l.find? fun j => decide (j.1 = k') with
    | none => rw [hf] at hv; cases hv
    | some j =>
      refine ⟨j, List.mem_of_find?_eq_some hf, ?_⟩
      have : j.1 = k' := by simpa using List.find?_some hf
      rw [this]; exact hk

/-- A RIFF tag contains a key in another spelling, but cannot be asked for it. -/
theorem Iff.contains_unfound : Iff.contains [(str "IART", str "x")] (str "iart") = true ∧
    Iff.get [(str "IART", str "x")] (str "iart") = none := by decide

/-- **An AIFF tag contains a key** exactly if its generic form does. -/
theorem Iff.aiff_contains {t : Iff.Aiff} (h : (Save.Own.aiffText t).Proper) (k : Item.ItemKey) :
    t.contains k = true ↔ (Convert.ofAiff t).contains k = true := by
  obtain ⟨h1, h2⟩ := h
  obtain ⟨n, a, c, an, co⟩ := t
  have hl : ∀ {β : Type} (o : Option (List β)), o ≠ some [] → (o.isSome = true ↔ o.getD [] ≠ []) := by
    intro β o ho
    cases o with
    | none => simp
    | some l =>
      cases l with
      | nil => exact absurd rfl ho
      | cons x l => simp
  have e1 := hl an h1
  have e2 := hl co h2
  have hopt : ∀ (k k' : Item.ItemKey) (o : Option Str), ((Convert.optItem k' o).any fun i => decide (i.key = k)) =
      (decide (k' = k) && o.isSome) := by
    intro k k' o
    cases o <;> simp [Convert.optItem, Item.TagItem.new]
  have hmap : ∀ {β : Type} (k : Item.ItemKey) (l : List β) (g : β → Str),
      ((l.map fun s => Item.TagItem.new .Comment (.text (g s))).any fun i => decide (i.key = k)) =
      (decide (Item.ItemKey.Comment = k) && !l.isEmpty) := by
    intro β k l g
    induction l with
    | nil => simp
    | cons x l ih =>
      rw [List.map_cons, List.any_cons, ih]
      simp only [Item.TagItem.new, List.isEmpty_cons]
      by_cases hk : Item.ItemKey.Comment = k <;> simp [hk]
  unfold Item.Tag.contains Convert.ofAiff
  simp only [List.any_append]
  rw [hopt, hopt, hopt, hmap k (an.getD []) (fun s => s), hmap k (co.getD []) (fun c => c.text)]
  have g1 : (!(an.getD []).isEmpty) = an.isSome := by
    rw [Bool.eq_iff_iff, e1]; cases an.getD [] <;> simp
  have g2 : (!(co.getD []).isEmpty) = co.isSome := by
    rw [Bool.eq_iff_iff, e2]; cases co.getD [] <;> simp
  rw [g1, g2]
  cases k <;> simp [Iff.Aiff.contains]

theorem Id3v1.contains_insertOpt {t : Item.Tag} (ht : t.type = .id3v1) {k' : Item.ItemKey} (hk' : Item.supports .id3v1 k' = true)
    (o : Option Str) (k : Item.ItemKey) : ((Convert.insertOpt t k' o).contains k = (t.contains k || (decide (k' = k) && o.isSome))) ∧
    (Convert.insertOpt t k' o).type = .id3v1 := by
  cases o with
  | none => simp [Convert.insertOpt, ht]
  | some v =>
    simp only [Convert.insertOpt, Item.Tag.insertText, Item.Tag.insert]
    rw [if_pos (by rw [ht]; exact hk')]
    refine ⟨?_, ht⟩
    simp only [Item.Tag.insertUnchecked, Item.Tag.contains, List.any_append, List.any_cons, List.any_nil, Item.TagItem.new]
    by_cases hk : k' = k
    · subst hk; simp
    · have : ((t.items.filter fun j => decide (j.key ≠ k')).any fun i => decide (i.key = k)) = t.items.any fun i => decide (i.key = k) := by
        rw [Bool.eq_iff_iff, List.any_eq_true, List.any_eq_true]
        constructor
        · rintro ⟨x, hx, h⟩; exact ⟨x, (List.mem_filter.mp hx).1, h⟩
        · rintro ⟨x, hx, h⟩
          refine ⟨x, List.mem_filter.mpr ⟨hx, ?_⟩, h⟩
          have : x.key = k := by simpa using h
          simp [this, Ne.symm hk]
      refine (congrArg (· || (decide (k' = k) || false)) this).trans ?_
      simp [hk]

/-- **An ID3v1 tag contains a key** exactly if its generic form does, if its genre is one that has a name. -/
theorem Id3v1.contains_partial {t : Id3v1.Tag} (hg : ∀ g, t.genre = some g → g.toNat < Id3v1.genres.length) (k : Item.ItemKey) :
    t.contains k = true ↔ (Convert.ofId3v1 t).contains k = true := by
  have hname : t.genreName.isSome = t.genre.isSome := by
    unfold Id3v1.Tag.genreName
    cases h : t.genre with
    | none => rfl
    | some g => simp [List.getElem?_eq_getElem (hg g h)]
  unfold Convert.ofId3v1
  simp only
  have h1 := fun k => Id3v1.contains_insertOpt (t := Item.Tag.new .id3v1) rfl (k' := .TrackTitle) rfl t.title k
  generalize Convert.insertOpt (Item.Tag.new .id3v1) .TrackTitle t.title = a at h1 ⊢
  have h2 := fun k => Id3v1.contains_insertOpt (h1 k).2 (k' := .TrackArtist) rfl t.artist k
  generalize Convert.insertOpt a .TrackArtist t.artist = b at h2 ⊢
  have h3 := fun k => Id3v1.contains_insertOpt (h2 k).2 (k' := .AlbumTitle) rfl t.album k
  generalize Convert.insertOpt b .AlbumTitle t.album = c at h3 ⊢
  have h4 := fun k => Id3v1.contains_insertOpt (h3 k).2 (k' := .Year) rfl (t.year.map toDec) k
  generalize Convert.insertOpt c .Year (t.year.map toDec) = d at h4 ⊢
  have h5 := fun k => Id3v1.contains_insertOpt (h4 k).2 (k' := .Comment) rfl t.comment k
  generalize Convert.insertOpt d .Comment t.comment = e at h5 ⊢
  have h6 : ∀ k, ((Convert.pushOpt e .TrackNumber (t.track.map fun n => toDec n.toNat)).contains k =
      (e.contains k || (decide (Item.ItemKey.TrackNumber = k) && t.track.isSome))) ∧
      (Convert.pushOpt e .TrackNumber (t.track.map fun n => toDec n.toNat)).type = .id3v1 := by
    intro k
    cases t.track with
    | none => simp [Convert.pushOpt, (h5 k).2]
    | some v => simp [Convert.pushOpt, (h5 k).2, Item.Tag.pushUnchecked, Item.Tag.contains, Item.TagItem.new]
  generalize Convert.pushOpt e .TrackNumber (t.track.map fun n => toDec n.toNat) = f at h6 ⊢
  have h7 := fun k => Id3v1.contains_insertOpt (h6 k).2 (k' := .Genre) rfl t.genreName k
  rw [(h7 k).1, (h6 k).1, (h5 k).1, (h4 k).1, (h3 k).1, (h2 k).1, (h1 k).1, hname, Option.isSome_map]
  cases k <;> simp [Id3v1.Tag.contains, Item.Tag.contains, Item.Tag.new]

example : ∀ g, ({ Id3v1.Tag.empty with title := some (str "a"), genre := some 17 } : Id3v1.Tag).genre = some g →
    g.toNat < Id3v1.genres.length := by intro g h; cases h; decide +kernel

/-- A genre without a name is contained, but has no generic form. -/
theorem Id3v1.contains_unconverted : Id3v1.Tag.contains { Id3v1.Tag.empty with genre := some 255 } .Genre = true ∧
    (Convert.ofId3v1 { Id3v1.Tag.empty with genre := some 255 }).contains .Genre = false := by decide

/-! ## What insertion does to the number of items -/

/-- **Inserting into an APE tag** replaces the item of the key if there is one, and adds one otherwise. -/
theorem Ape.len_insert {l : List Ape.Item} (h : Ape.Distinct l) (i : Ape.Item) :
    (Ape.insert l i).length = if Ape.contains l i.key then l.length else l.length + 1 := by
  unfold Ape.insert
  rw [List.length_append, List.length_singleton]
  have hr : (Ape.remove l i.key).length + (if Ape.contains l i.key then 1 else 0) = l.length := by
    induction l with
    | nil => rfl
    | cons j l ih =>
      unfold Ape.Distinct at h
      rw [List.pairwise_cons] at h
      unfold Ape.remove Ape.contains at ih ⊢
      rw [List.filter_cons, List.any_cons]
      by_cases hj : eqIc j.key i.key = true
      · have hnone : (l.any fun x => eqIc x.key i.key) = false := by
          rw [List.any_eq_false]
          intro x hx hxi
          have := h.1 x hx
          rw [Ape.eqIc_false] at this
          exact this ((Ape.eqIc_true.mp hj).trans (Ape.eqIc_true.mp hxi).symm)
        have := ih h.2
        rw [hnone] at this
        rw [hj]
        simp at this ⊢
        exact this
      · have := ih h.2
        simp only [Bool.not_eq_true] at hj
        rw [hj]
        simp only [Bool.not_false, if_true, List.length_cons, Bool.false_or]
        omega
  cases hc : Ape.contains l i.key <;> rw [hc] at hr <;> simp at hr ⊢ <;> omega

/-- The other operations on an APE tag. -/
theorem Ape.len_remove (l : List Ape.Item) (k : Str) (h : Ape.contains l k = false) : Ape.remove l k = l := by
  unfold Ape.contains at h
  rw [List.any_eq_false] at h
  unfold Ape.remove
  rw [List.filter_eq_self]
  intro x hx
  simpa using h x hx

example : Ape.Distinct [⟨false, str "Title", .text (str "a")⟩, ⟨false, str "Artist", .text (str "b")⟩] := by
  unfold Ape.Distinct; decide

end Lofty
