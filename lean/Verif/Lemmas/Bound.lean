import Verif.Spec.Bound
import Verif.Props.TaggedFile
import Verif.Props.EndToEnd
/-! # Lemmas about bound files -/
namespace Lofty.Bound
open Item File FileType FileType.Spec Save Opened Convert

variable {α : Type}

/-- The tags a history writes, in order. -/
def written (f : Tagged α) : List Act → List Tag
  | [] => []
  | .save :: as => f.saved ++ written f.afterSave as
  | .insert t :: as => written (Act.tags f (.insert t)) as
  | .remove t :: as => written (Act.tags f (.remove t)) as
  | .clear :: as => written (Act.tags f .clear) as
  | .modify t g h :: as => written (Act.tags f (.modify t g h)) as

/-- The actions as operations on a tagged file. -/
def Act.op : Act → Op
  | .insert t => .insert t
  | .remove t => .remove t
  | .clear => .clear
  | .modify t g h => .modify t g h
  | .save => .save

theorem tags_step (f : Tagged α) (a : Act) : a.tags f = File.step f a.op := by cases a <;> rfl

theorem tags_type (f : Tagged α) (a : Act) : (a.tags f).type = f.type := by
  cases a with
  | insert t =>
    show (f.insertTag t).2.type = _
    unfold Tagged.insertTag
    split
    · show (f.remove t.type).2.type = _
      unfold Tagged.remove; split <;> rfl
    · rfl
  | remove t => show (f.remove t).2.type = _; unfold Tagged.remove; split <;> rfl
  | clear => rfl
  | modify t g h => rfl
  | save => rfl

theorem written_sub (f : Tagged α) (as : List Act) : ∀ t ∈ written f as, (t.type, false) ∈ documented f.type := by
  induction as generalizing f with
  | nil => intro t ht; cases ht
  | cons a as ih =>
    have key : ∀ t ∈ written (a.tags f) as, (t.type, false) ∈ documented f.type := fun t ht => by
      have := ih _ t ht
      rwa [tags_type] at this
    cases a with
    | save =>
      intro t ht
      rcases List.mem_append.mp ht with h | h
      · exact (support_documented f.type t.type).2.mp (List.mem_filter.mp h).2
      · exact key t h
    | _ => exact key

theorem saveAll_filter (o : Options) (ft : FileType) : ∀ (ts : List Tag) (f : Bytes),
    saveAll o ft ts f = saveAll o ft (ts.filter fun x => (ft.tagSupport x.type).writable) f
  | [], _ => rfl
  | t :: ts, f => by
    cases h : (ft.tagSupport t.type).writable with
    | false =>
      rw [List.filter_cons_of_neg (by simp [h]), saveAll, if_pos (by simp [h])]
      exact saveAll_filter o ft ts f
    | true =>
      rw [List.filter_cons_of_pos (by simpa using h), saveAll, saveAll, if_neg (by simp [h]), if_neg (by simp [h])]
      cases saveTo o t f with
      | error e => rfl
      | ok g => exact saveAll_filter o ft ts g

theorem saveAll_append (o : Options) (ft : FileType) : ∀ (ts us : List Tag) (f : Bytes),
    saveAll o ft (ts ++ us) f = (saveAll o ft ts f).bind (saveAll o ft us)
  | [], _, _ => rfl
  | t :: ts, us, f => by
    rw [List.cons_append, saveAll, saveAll]
    split
    · exact saveAll_append o ft ts us f
    · cases saveTo o t f with
      | error e => rfl
      | ok g => exact saveAll_append o ft ts us g

/-- What a history does: the tags in memory, and the saves. -/
theorem run_eq {o : Options} {as : List Act} {b b' : Bound α} (h : b.run o as = .ok b') :
    b'.inner = as.foldl Act.tags b.inner ∧ saveAll o b.inner.type (written b.inner as) b.file = .ok b'.file := by
  induction as generalizing b with
  | nil => obtain rfl := (Except.ok.injEq _ _).mp h; exact ⟨rfl, rfl⟩
  | cons a as ih =>
    cases a with
    | save =>
      rw [Bound.run, Bound.step, Bound.save] at h
      cases hs : saveAll o b.inner.type b.inner.tags b.file with
      | error e => rw [hs] at h; cases h
      | ok g =>
        rw [hs] at h
        obtain ⟨h1, h2⟩ := ih (b := ⟨b.inner.afterSave, g⟩) h
        refine ⟨h1, ?_⟩
        rw [written, saveAll_append]
        show (saveAll o b.inner.type (b.inner.tags.filter _) b.file).bind _ = _
        rw [← saveAll_filter, hs]
        exact h2
    | insert t =>
      obtain ⟨h1, h2⟩ := ih (b := { b with inner := Act.tags b.inner (.insert t) }) h
      rw [tags_type] at h2
      exact ⟨h1, h2⟩
    | remove t =>
      obtain ⟨h1, h2⟩ := ih (b := { b with inner := Act.tags b.inner (.remove t) }) h
      rw [tags_type] at h2
      exact ⟨h1, h2⟩
    | clear =>
      obtain ⟨h1, h2⟩ := ih (b := { b with inner := Act.tags b.inner .clear }) h
      exact ⟨h1, h2⟩
    | modify t g hg =>
      obtain ⟨h1, h2⟩ := ih (b := { b with inner := Act.tags b.inner (.modify t g hg) }) h
      exact ⟨h1, h2⟩

theorem lastOf_append (ty : TagType) (a b : List Tag) : lastOf ty (a ++ b) = (lastOf ty b).or (lastOf ty a) := by
  unfold lastOf
  rw [List.reverse_append, List.find?_append]

theorem find_reverse {l : List Tag} (h : (l.map (·.type)).Nodup) (ty : TagType) :
    l.reverse.find? (fun x => x.type = ty) = l.find? fun x => x.type = ty := by
  cases hf : l.find? fun x => x.type = ty with
  | none =>
    rw [List.find?_eq_none] at hf ⊢
    intro x hx
    exact hf x (List.mem_reverse.mp hx)
  | some x =>
    have hx := List.mem_of_find?_eq_some hf
    have ht : x.type = ty := by simpa using List.find?_some hf
    subst ht
    refine find_unique ?_ (List.mem_reverse.mpr hx)
    rw [List.map_reverse]
    exact List.nodup_reverse.mpr h

theorem lastOf_saved {f : Tagged α} (h : f.Sound) (ty : TagType) :
    lastOf ty f.saved = if (ty, false) ∈ documented f.type then f.tag ty else none := by
  unfold lastOf Tagged.saved
  rw [find_reverse (nodup_filter_types h.1 _), find_filter_unique h.1]
  unfold Tagged.tag
  cases hf : f.tags.find? fun x => x.type = ty with
  | none => simp
  | some x =>
    have ht : x.type = ty := by simpa using List.find?_some hf
    simp only [Option.bind_some, ht]
    by_cases hd : (ty, false) ∈ documented f.type
    · rw [if_pos hd, if_pos ((support_documented _ _).2.mpr hd)]
    · rw [if_neg hd, if_neg fun h => hd ((support_documented _ _).2.mp h)]

theorem tags_sound {f : Tagged α} (h : f.Sound) (a : Act) : (a.tags f).Sound := by
  rw [tags_step]; exact step_sound h _

theorem fold_sound {f : Tagged α} (h : f.Sound) (as : List Act) : (as.foldl Act.tags f).Sound := by
  induction as generalizing f with
  | nil => exact h
  | cons a as ih => exact ih (tags_sound h a)

theorem fold_type (f : Tagged α) (as : List Act) : (as.foldl Act.tags f).type = f.type := by
  induction as generalizing f with
  | nil => rfl
  | cons a as ih => exact (ih _).trans (tags_type f a)

/-- The tag in memory is that of the ledger. -/
theorem tags_memory {f : Tagged α} (h : f.Sound) (a : Act) (ty : TagType) (disk : Option Tag) :
    (a.tags f).tag ty = (Ledger.after f.type ty ⟨f.tag ty, disk⟩ a).memory := by
  have := congrArg Prod.fst (step_latest h a.op ty)
  rw [tags_step]
  refine this.trans ?_
  cases a with
  | insert x =>
    simp only [Act.op, latest, Ledger.after]
    by_cases hx : x.type = ty ∧ ty ∈ (documented f.type).map (·.1)
    · rw [if_pos hx, if_pos hx]
    · rw [if_neg hx, if_neg hx]
  | remove t =>
    simp only [Act.op, latest, Ledger.after]
    split <;> rfl
  | clear => rfl
  | modify t g hg =>
    simp only [Act.op, latest, Ledger.after]
    split <;> rfl
  | save =>
    simp only [Act.op, latest, Ledger.after]
    cases f.tag ty with
    | none => rfl
    | some x =>
      simp only [Option.bind_some, Option.filter]
      by_cases h1 : x.items = [] <;> by_cases h2 : x.pictures = [] <;> simp [h1, h2]

/-- **The ledger** of a history. -/
theorem fold_ledger {f : Tagged α} (h : f.Sound) (ty : TagType) (as : List Act) (before : List Tag) :
    as.foldl (Ledger.after f.type ty) ⟨f.tag ty, lastOf ty before⟩ =
      ⟨(as.foldl Act.tags f).tag ty, lastOf ty (before ++ written f as)⟩ := by
  induction as generalizing f before with
  | nil => simp [written]
  | cons a as ih =>
    have hm := tags_memory h a ty (lastOf ty before)
    have ht := tags_type f a
    have key := ih (tags_sound h a)
    cases a with
    | save =>
      rw [List.foldl_cons, List.foldl_cons, written, ← List.append_assoc]
      refine Eq.trans ?_ (key (before ++ f.saved))
      rw [ht]
      congr 1
      rw [hm, lastOf_append, lastOf_saved h]
      simp only [Ledger.after]
      congr 1
      split <;> simp
    | insert x =>
      rw [List.foldl_cons, List.foldl_cons, written, ← key before, ht, hm]
      congr 1
      simp only [Ledger.after]; split <;> rfl
    | remove x =>
      rw [List.foldl_cons, List.foldl_cons, written, ← key before, ht, hm]
      congr 1
      simp only [Ledger.after]; split <;> rfl
    | clear =>
      rw [List.foldl_cons, List.foldl_cons, written, ← key before, ht, hm]
      rfl
    | modify x g hg =>
      rw [List.foldl_cons, List.foldl_cons, written, ← key before, ht, hm]
      congr 1
      simp only [Ledger.after]; split <;> rfl

/-! ## The type of a generic tag made from `ilst` -/

theorem insertText_type (t : Tag) (k : ItemKey) (s : Str) : (t.insertText k s).2.type = t.type := by
  unfold Tag.insertText Tag.insert
  split <;> first | rfl | (split <;> rfl)

theorem insertPositive_type (t : Tag) (k : ItemKey) (n : Nat) : (insertPositive t k n).type = t.type := by
  unfold insertPositive
  split
  · exact insertText_type ..
  · rfl

theorem splitData_type (i : Mp4.Ident) (m : Mapping) (t : Tag) (d : Ilst.Data) : (splitData i m t d).2.type = t.type := by
  have h1 : ∀ s, (pushMapped t m s).type = t.type := by intro s; unfold pushMapped; split <;> rfl
  have h2 : ∀ p, (pushCover t m p).type = t.type := by intro p; unfold pushCover; split <;> rfl
  unfold splitData
  split
  · exact h1 _
  · exact h1 _
  · exact h1 _
  · exact h2 _
  · split
    · split
      · simp only [insertPositive_type]
      · rfl
    · rfl
  · rfl

theorem splitValuesOf_type (i : Mp4.Ident) (m : Mapping) : ∀ (l : List Ilst.Data) (t : Tag), (splitValuesOf i m l t).2.type = t.type
  | [], _ => rfl
  | d :: l, t => by
    rw [splitValuesOf]
    exact (splitValuesOf_type i m l _).trans (splitData_type i m t d)

theorem splitAtoms_type : ∀ (l : Ilst.Tag) (t : Tag), (splitAtoms l t).2.type = t.type
  | [], _ => rfl
  | a :: l, t => by
    have ha : (splitAtom a t).2.type = t.type := by
      unfold splitAtom
      split
      · rfl
      · exact splitValuesOf_type ..
    have e : (splitAtoms (a :: l) t).2 = (splitAtoms l (splitAtom a t).2).2 := by rw [splitAtoms]
    rw [e, splitAtoms_type l, ha]

theorem ofIlst_type (l : Ilst.Tag) : (ofIlst false l).tag.type = .mp4Ilst := by
  show (splitIlst l).2.type = _
  unfold splitIlst
  simp only
  unfold splitRating
  split
  · rw [insertText_type]; exact splitAtoms_type ..
  · exact splitAtoms_type ..

end Lofty.Bound
