import Verif.Props.FileType
/-!
# Files with their tags (C41)
-/
namespace Lofty.File
open Item FileType FileType.Spec

variable {α : Type}

/-- At most one tag of each type, and only tags the file type can have. -/
def Tagged.Sound (f : Tagged α) : Prop :=
  (f.tags.map (·.type)).Nodup ∧ ∀ x ∈ f.tags, x.type ∈ (documented f.type).map (·.1)

/-- What users of a tagged file can do to it; changes of a tag through `tag_mut` keep its type (see `remap_duplicates`). -/
inductive Op
  | insert (t : Tag)
  | remove (t : TagType)
  | clear
  | changeType (t : FileType)
  | modify (t : TagType) (g : Tag → Tag) (keeps : ∀ x, (g x).type = x.type)
  | save

/-- One step. -/
def step (f : Tagged α) : Op → Tagged α
  | .insert t => (f.insertTag t).2
  | .remove t => (f.remove t).2
  | .clear => f.clear
  | .changeType t => f.changeFileType t
  | .modify t g _ => f.modify t g
  | .save => f.afterSave

/-- With distinct types, the tags of a type are at most the first one. -/
theorem find_unique {l : List Tag} (h : (l.map (·.type)).Nodup) {x : Tag} (hx : x ∈ l) :
    l.find? (fun y => y.type = x.type) = some x := by
  induction l with
  | nil => cases hx
  | cons y l ih =>
    simp only [List.map_cons, List.nodup_cons] at h
    by_cases hy : y.type = x.type
    · rw [List.find?_cons_of_pos (by simpa using hy)]
      rcases List.mem_cons.mp hx with rfl | hx
      · rfl
      · exact absurd (List.mem_map.mpr ⟨x, hx, hy.symm⟩) h.1
    · rw [List.find?_cons_of_neg (by simpa using hy)]
      rcases List.mem_cons.mp hx with rfl | hx
      · exact absurd rfl hy
      · exact ih h.2 hx

/-- Removing the first tag of a type leaves the others, in order. -/
theorem remove_spec (l : List Tag) (h : (l.map (·.type)).Nodup) (t : TagType) :
    (match l.findIdx? fun x => x.type = t with
      | none => (none, l)
      | some i => (l[i]?, l.eraseIdx i)) = (l.find? (fun x => x.type = t), l.filter fun x => x.type ≠ t) := by
  induction l with
  | nil => rfl
  | cons y l ih =>
    simp only [List.map_cons, List.nodup_cons] at h
    by_cases hy : y.type = t
    · rw [List.findIdx?_cons, List.find?_cons_of_pos (by simpa using hy), List.filter_cons_of_neg (by simpa using hy)]
      simp only [hy, decide_true, if_true]
      have : l.filter (fun x => decide (x.type ≠ t)) = l := by
        rw [List.filter_eq_self]
        intro x hx
        simp only [decide_eq_true_eq]
        intro hxt
        exact h.1 (List.mem_map.mpr ⟨x, hx, by rw [hxt, hy]⟩)
      rw [this]
      rfl
    · have ih := ih h.2
      rw [List.findIdx?_cons, List.find?_cons_of_neg (by simpa using hy), List.filter_cons_of_pos (by simpa using hy)]
      simp only [hy, decide_false, Bool.false_eq_true, if_false]
      cases hi : l.findIdx? (fun x => decide (x.type = t)) with
      | none =>
        rw [hi] at ih
        simp only [Option.map_none] at ih ⊢
        rw [Prod.mk.injEq] at ih
        rw [← ih.1, ← ih.2]
      | some i =>
        rw [hi] at ih
        simp only [Option.map_some] at ih ⊢
        rw [Prod.mk.injEq] at ih
        rw [← ih.1, ← ih.2]
        simp

/-- **Removing** gives back the tag of the type and leaves the others alone. -/
theorem Tagged.remove_eq {f : Tagged α} (h : (f.tags.map (·.type)).Nodup) (t : TagType) :
    f.remove t = (f.tag t, { f with tags := f.tags.filter fun x => x.type ≠ t }) := by
  have := remove_spec f.tags h t
  unfold Tagged.remove Tagged.tag
  cases hi : f.tags.findIdx? (fun x => decide (x.type = t)) with
  | none =>
    rw [hi] at this
    simp only [Prod.mk.injEq] at this ⊢
    rw [← this.1, ← this.2]
    exact ⟨rfl, rfl⟩
  | some i =>
    rw [hi] at this
    simp only [Prod.mk.injEq] at this ⊢
    rw [← this.1, ← this.2]
    exact ⟨rfl, rfl⟩

/-- **Inserting** a tag the file type supports gives back the tag it replaces; the new tag is the last one, the tags of
other types are untouched.  A tag that is not supported is not inserted and nothing changes. -/
theorem Tagged.insert_eq {f : Tagged α} (h : f.Sound) (x : Tag) :
    f.insertTag x = if x.type ∈ (documented f.type).map (·.1)
      then (f.tag x.type, { f with tags := (f.tags.filter fun y => y.type ≠ x.type) ++ [x] })
      else (none, f) := by
  unfold Tagged.insertTag
  have hs := (support_documented f.type x.type).1
  by_cases hr : (f.type.tagSupport x.type).readable = true
  · rw [if_pos hr, if_pos (hs.mp hr), Tagged.remove_eq h.1]
  · rw [if_neg hr, if_neg (fun hx => hr (hs.mpr hx))]

theorem modifyFirst_types (t : TagType) (g : Tag → Tag) (hg : ∀ x, (g x).type = x.type) (l : List Tag) :
    (modifyFirst t g l).map (·.type) = l.map (·.type) := by
  induction l with
  | nil => rfl
  | cons x l ih =>
    unfold modifyFirst
    by_cases h : x.type = t
    · rw [if_pos h]; simp [hg]
    · rw [if_neg h]; simp [ih]

theorem nodup_filter_types {l : List Tag} (h : (l.map (·.type)).Nodup) (p : Tag → Bool) : ((l.filter p).map (·.type)).Nodup :=
  h.sublist (List.filter_sublist.map _)

theorem step_sound {f : Tagged α} (h : f.Sound) (op : Op) : (step f op).Sound := by
  cases op with
  | insert x =>
    show (f.insertTag x).2.Sound
    rw [Tagged.insert_eq h]
    split
    · next hx =>
      refine ⟨?_, ?_⟩
      · show (((f.tags.filter fun y => y.type ≠ x.type) ++ [x]).map (·.type)).Nodup
        rw [List.map_append, List.nodup_append]
        refine ⟨nodup_filter_types h.1 _, by simp, ?_⟩
        intro a ha b hb
        simp only [List.map_cons, List.map_nil, List.mem_singleton] at hb
        obtain ⟨y, hy, rfl⟩ := List.mem_map.mp ha
        have := (List.mem_filter.mp hy).2
        simp only [decide_eq_true_eq] at this
        rw [hb]
        exact this
      · intro y hy
        rcases List.mem_append.mp hy with hy | hy
        · exact h.2 y (List.mem_filter.mp hy).1
        · rw [List.mem_singleton.mp hy]; exact hx
    · exact h
  | remove t =>
    show (f.remove t).2.Sound
    rw [Tagged.remove_eq h.1]
    exact ⟨nodup_filter_types h.1 _, fun y hy => h.2 y (List.mem_filter.mp hy).1⟩
  | clear => exact ⟨List.nodup_nil, fun y hy => by cases hy⟩
  | changeType t =>
    refine ⟨nodup_filter_types h.1 _, ?_⟩
    intro y hy
    exact (support_documented t y.type).1.mp (List.mem_filter.mp hy).2
  | modify t g hg =>
    refine ⟨?_, ?_⟩
    · show ((modifyFirst t g f.tags).map (·.type)).Nodup
      rw [modifyFirst_types t g hg]; exact h.1
    · intro y hy
      have : y.type ∈ (modifyFirst t g f.tags).map (·.type) := List.mem_map.mpr ⟨y, hy, rfl⟩
      rw [modifyFirst_types t g hg] at this
      obtain ⟨z, hz, hzy⟩ := List.mem_map.mp this
      rw [← hzy]
      exact h.2 z hz
  | save => exact ⟨nodup_filter_types h.1 _, fun y hy => h.2 y (List.mem_filter.mp hy).1⟩

/-- **Any history of operations** leaves at most one tag of each type, all of them supported by the file type. -/
theorem history_sound {f : Tagged α} (h : f.Sound) (ops : List Op) : (ops.foldl step f).Sound := by
  induction ops generalizing f with
  | nil => exact h
  | cons op ops ih => exact ih (step_sound h op)

/-- The latest tag of a type that was inserted, if it was not removed afterwards: the specification of histories. -/
def latest (t : TagType) : Option Tag × FileType → Op → Option Tag × FileType
  | (cur, ft), .insert x => if x.type = t ∧ t ∈ (documented ft).map (·.1) then (some x, ft) else (cur, ft)
  | (cur, ft), .remove t' => if t' = t then (none, ft) else (cur, ft)
  | (_, ft), .clear => (none, ft)
  | (cur, _), .changeType ft => if t ∈ (documented ft).map (·.1) then (cur, ft) else (none, ft)
  | (cur, ft), .modify t' g _ => if t' = t then (cur.map g, ft) else (cur, ft)
  | (cur, ft), .save => (cur.bind fun x => if x.items = [] ∧ x.pictures = [] then none else some x, ft)

theorem find_filter_other {l : List Tag} {t t' : TagType} (h : t' ≠ t) :
    (l.filter fun x => x.type ≠ t').find? (fun x => x.type = t) = l.find? (fun x => x.type = t) := by
  rw [List.find?_filter]
  congr 1
  funext x
  by_cases hx : x.type = t
  · simp [hx, Ne.symm h]
  · simp [hx]

theorem find_filter_same {l : List Tag} {t : TagType} :
    (l.filter fun x => x.type ≠ t).find? (fun x => x.type = t) = none := by
  rw [List.find?_eq_none]
  intro x hx
  have := (List.mem_filter.mp hx).2
  simpa using this

theorem find_filter_unique {l : List Tag} (h : (l.map (·.type)).Nodup) (t : TagType) (p : Tag → Bool) :
    (l.filter p).find? (fun x => x.type = t) = (l.find? fun x => x.type = t).bind fun x => if p x then some x else none := by
  induction l with
  | nil => rfl
  | cons y l ih =>
    simp only [List.map_cons, List.nodup_cons] at h
    by_cases hy : y.type = t
    · rw [List.find?_cons_of_pos (by simpa using hy)]
      simp only [Option.bind_some]
      by_cases hp : p y = true
      · rw [List.filter_cons_of_pos hp, List.find?_cons_of_pos (by simpa using hy), if_pos hp]
      · rw [List.filter_cons_of_neg hp, if_neg hp, List.find?_eq_none]
        intro x hx
        simp only [decide_eq_true_eq]
        intro hxt
        exact h.1 (List.mem_map.mpr ⟨x, (List.mem_filter.mp hx).1, by rw [hxt, hy]⟩)
    · rw [List.find?_cons_of_neg (by simpa using hy)]
      by_cases hp : p y = true
      · rw [List.filter_cons_of_pos hp, List.find?_cons_of_neg (by simpa using hy), ih h.2]
      · rw [List.filter_cons_of_neg hp, ih h.2]

theorem find_modifyFirst (l : List Tag) (t t' : TagType) (g : Tag → Tag) (hg : ∀ x, (g x).type = x.type) :
    (modifyFirst t' g l).find? (fun x => x.type = t) =
      if t' = t then (l.find? fun x => x.type = t).map g else l.find? fun x => x.type = t := by
  induction l with
  | nil => simp [modifyFirst]
  | cons y l ih =>
    unfold modifyFirst
    by_cases hy : y.type = t'
    · rw [if_pos hy]
      by_cases ht : t' = t
      · rw [if_pos ht, List.find?_cons_of_pos (by simp [hg, hy, ht]), List.find?_cons_of_pos (by simp [hy, ht])]
        rfl
      · rw [if_neg ht, List.find?_cons_of_neg (by simp [hg, hy, ht]), List.find?_cons_of_neg (by simp [hy, ht])]
    · rw [if_neg hy]
      by_cases hyt : y.type = t
      · have ht : ¬ t' = t := fun h => hy (by rw [hyt, h])
        rw [if_neg ht, List.find?_cons_of_pos (by simpa using hyt), List.find?_cons_of_pos (by simpa using hyt)]
      · rw [List.find?_cons_of_neg (by simpa using hyt), ih, List.find?_cons_of_neg (by simpa using hyt)]

theorem step_latest {f : Tagged α} (h : f.Sound) (op : Op) (t : TagType) :
    ((step f op).tag t, (step f op).type) = latest t (f.tag t, f.type) op := by
  cases op with
  | insert x =>
    show ((f.insertTag x).2.tag t, (f.insertTag x).2.type) = _
    rw [Tagged.insert_eq h]
    by_cases hx : x.type ∈ (documented f.type).map (·.1)
    · rw [if_pos hx]
      simp only [latest]
      by_cases ht : x.type = t
      · rw [if_pos ⟨ht, by rw [← ht]; exact hx⟩]
        unfold Tagged.tag
        simp only
        rw [List.find?_append, ← ht, find_filter_same]
        simp
      · rw [if_neg (fun hc => ht hc.1)]
        unfold Tagged.tag
        simp only
        rw [List.find?_append, find_filter_other ht]
        simp [ht]
    · rw [if_neg hx]
      simp only [latest]
      rw [if_neg (by rintro ⟨h1, h2⟩; rw [h1] at hx; exact hx h2)]
  | remove t' =>
    show ((f.remove t').2.tag t, (f.remove t').2.type) = _
    rw [Tagged.remove_eq h.1]
    simp only [latest]
    by_cases ht : t' = t
    · rw [if_pos ht]
      unfold Tagged.tag
      simp only
      rw [ht, find_filter_same]
    · rw [if_neg ht]
      unfold Tagged.tag
      simp only
      rw [find_filter_other ht]
  | clear => rfl
  | changeType ft =>
    show ((f.changeFileType ft).tag t, ft) = _
    simp only [latest, Tagged.changeFileType, Tagged.tag]
    rw [find_filter_unique h.1]
    by_cases ht : t ∈ (documented ft).map (·.1)
    · rw [if_pos ht]
      have hr := (support_documented ft t).1.mpr ht
      cases hf : f.tags.find? (fun x => decide (x.type = t)) with
      | none => rfl
      | some x =>
        have hx : x.type = t := by simpa using List.find?_some hf
        simp [hx, hr]
    · rw [if_neg ht]
      have hr : ¬ (ft.tagSupport t).readable = true := fun hc => ht ((support_documented ft t).1.mp hc)
      cases hf : f.tags.find? (fun x => decide (x.type = t)) with
      | none => rfl
      | some x =>
        have hx : x.type = t := by simpa using List.find?_some hf
        simp [hx, hr]
  | modify t' g hg =>
    show ((f.modify t' g).tag t, f.type) = _
    simp only [latest, Tagged.modify, Tagged.tag]
    rw [find_modifyFirst _ _ _ _ hg]
    split <;> rfl
  | save =>
    show (f.afterSave.tag t, f.type) = _
    simp only [latest, Tagged.afterSave, Tagged.tag]
    rw [find_filter_unique h.1]
    congr 2
    funext x
    have : (x.len = 0) ↔ (x.items = [] ∧ x.pictures = []) := by
      unfold Tag.len
      rw [Nat.add_eq_zero_iff, List.length_eq_zero_iff, List.length_eq_zero_iff]
    by_cases hx : x.len = 0
    · rw [if_pos (this.mp hx), if_neg (by simp [hx])]
    · rw [if_neg (fun hc => hx (this.mpr hc)), if_pos (by simp [hx])]

/-- **The tag of a type after any history** is the one put in last, with its changes. -/
theorem history_latest {f : Tagged α} (h : f.Sound) (ops : List Op) (t : TagType) :
    ((ops.foldl step f).tag t, (ops.foldl step f).type) = ops.foldl (latest t) (f.tag t, f.type) := by
  induction ops generalizing f with
  | nil => rfl
  | cons op ops ih =>
    simp only [List.foldl_cons]
    rw [ih (step_sound h op), step_latest h op t]

/-- **Saving** writes each tag that is not read-only, once. -/
theorem saved_spec {f : Tagged α} (h : f.Sound) (x : Tag) :
    x ∈ f.saved ↔ x ∈ f.tags ∧ (x.type, false) ∈ documented f.type := by
  unfold Tagged.saved
  rw [List.mem_filter, (support_documented f.type x.type).2]

/-- **`re_map` through `tag_mut`** changes the type of a tag behind the back of the file: afterwards a file has two tags of
the same type, or one it does not support. -/
theorem remap_duplicates :
    let f : Tagged Unit := ⟨.mpeg, none, [Tag.new .id3v2, Tag.new .ape]⟩
    f.Sound ∧ ((f.modify .ape fun t => t.reMap .id3v2).tags.map (·.type) = [.id3v2, .id3v2]) ∧
      ((f.modify .ape fun t => t.reMap .mp4Ilst).tags.map (·.type) = [.id3v2, .mp4Ilst]) := by
  refine ⟨⟨by decide, ?_⟩, rfl, rfl⟩
  intro x hx
  simp only [List.mem_cons, List.not_mem_nil, or_false] at hx
  rcases hx with rfl | rfl <;> decide

/-- An MPEG file with an ID3v2 and an APE tag; the APE tag is replaced, then the file becomes a WavPack file. -/
example : let f : Tagged Unit := ⟨.mpeg, none, [Tag.new .id3v2, Tag.new .ape]⟩
    let a : Tag := ⟨.ape, [], [TagItem.new .TrackTitle (.text ['x'])], false⟩
    (f.insertTag a).1 = some (Tag.new .ape) ∧
    (((f.insertTag a).2.changeFileType .wavPack).tags = [a]) ∧ (f.insertTag (Tag.new .riffInfo)).1 = none := by decide

/-- **C41.** The properties of the sound do not survive a change of the file type; nothing else touches them. -/
theorem step_properties (f : Tagged α) (op : Op) :
    (step f op).properties = match op with | .changeType _ => none | _ => f.properties := by
  have hr : ∀ t, (f.remove t).2.properties = f.properties := by
    intro t; unfold Tagged.remove; cases List.findIdx? _ f.tags <;> rfl
  cases op with
  | changeType t => rfl
  | insert t =>
    simp only [step, Tagged.insertTag]
    split
    · exact hr _
    · rfl
  | remove t => exact hr t
  | clear => rfl
  | modify t g h => rfl
  | save => rfl

example : (step (⟨.mpeg, some 5, []⟩ : Tagged Nat) (.changeType .wav)).properties = none ∧
    (step (⟨.mpeg, some 5, []⟩ : Tagged Nat) .clear).properties = some 5 := ⟨rfl, rfl⟩

end Lofty.File
