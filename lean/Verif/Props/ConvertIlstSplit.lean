import Verif.Props.ConvertIlstBack
/-!
# MP4 tags that go through a generic tag (C52)
-/
namespace Lofty.Convert
open Lofty.Item
open Lofty.Mp4 (Ident)
open Lofty.Ilst (Atom Data Storage covr trkn disk rtng)

/-! ## What stays behind -/

/-- The values that have no place in a generic tag: integers and unknown data, except for pairs of numbers. -/
def stays (i : Ident) : Data → Bool
  | .utf8 _ | .utf16 _ | .bool _ | .picture _ => false
  | .unknown code d => !(decide (code = 0 ∧ 6 ≤ d.length) && (pairOf i).isSome)
  | _ => true

theorem splitData_fst (i : Ident) (m : Mapping) (t : Tag) (d : Data) : (splitData i m t d).1 = stays i d := by
  cases d with
  | unknown code data =>
    unfold splitData stays
    by_cases h : code = 0 ∧ 6 ≤ data.length
    · simp only [h, and_self, if_true]; cases pairOf i <;> simp
    · simp only [h, if_false]; simp
  | _ => rfl

theorem splitValuesOf_fst (i : Ident) (m : Mapping) (l : List Data) (t : Tag) :
    (splitValuesOf i m l t).1 = l.filter (stays i) := by
  induction l generalizing t with
  | nil => rfl
  | cons d l ih =>
    simp only [splitValuesOf, splitData_fst, ih]
    cases h : stays i d <;> simp [h]

/-- What is left of an atom. -/
def residue (a : Atom) : Option Atom :=
  if mappingOf a.ident = .kept then some a
  else (restore a.data (a.data.toList.filter (stays a.ident))).map fun s => { a with data := s }

theorem splitAtom_fst (a : Atom) (t : Tag) : (splitAtom a t).1 = residue a := by
  unfold splitAtom residue
  cases h : mappingOf a.ident with
  | kept => rfl
  | mapped k => simp only [splitValuesOf_fst]; rfl
  | picture => simp only [splitValuesOf_fst]; rfl

theorem splitAtoms_fst (l : Ilst.Tag) (t : Tag) : (splitAtoms l t).1 = l.filterMap residue := by
  induction l generalizing t with
  | nil => rfl
  | cons a l ih =>
    simp only [splitAtoms, splitAtom_fst, ih, List.filterMap_cons]
    cases residue a <;> rfl

theorem restore_toList {s s' : Storage} {l : List Data} (h : restore s l = some s') (hs : ∀ d, s = .single d → l.length ≤ 1) :
    s'.toList = l := by
  unfold restore at h
  split at h
  · cases h
  · rename_i d d' r
    have := hs _ rfl
    cases r with
    | nil => obtain rfl := Option.some.inj h; rfl
    | cons _ _ => simp at this
  · obtain rfl := Option.some.inj h; rfl

theorem restore_none {s : Storage} {l : List Data} (h : restore s l = none) : l = [] := by
  unfold restore at h
  split at h
  · rfl
  · cases h
  · cases h

theorem residue_spec {a b : Atom} (h : residue a = some b) : b.ident = a.ident ∧
    b.data.toList = if mappingOf a.ident = .kept then a.data.toList else a.data.toList.filter (stays a.ident) := by
  unfold residue at h
  split at h
  · rename_i hk; obtain rfl := Option.some.inj h; exact ⟨rfl, by rw [if_pos hk]⟩
  · rename_i hk
    cases hr : restore a.data (a.data.toList.filter (stays a.ident)) with
    | none => rw [hr] at h; cases h
    | some s =>
      rw [hr] at h
      obtain rfl := Option.some.inj h
      refine ⟨rfl, ?_⟩
      rw [if_neg hk]
      refine restore_toList hr ?_
      intro d hd
      rw [hd]
      exact Nat.le_trans (List.length_filter_le _ _) (Nat.le_refl 1)

/-- Values of a kind, of the atoms with some identifier. -/
def valuesOf {β : Type} (a : Ilst.Tag) (p : Ident → Bool) (g : Ident → Data → Option β) : List β :=
  a.flatMap fun x => if p x.ident then x.data.toList.filterMap (g x.ident) else []

theorem valuesOf_append {β : Type} (a b : Ilst.Tag) (p : Ident → Bool) (g : Ident → Data → Option β) :
    valuesOf (a ++ b) p g = valuesOf a p g ++ valuesOf b p g := by
  unfold valuesOf; rw [List.flatMap_append]

theorem valuesOf_perm {β : Type} {a b : Ilst.Tag} (h : a.Perm b) (p : Ident → Bool) (g : Ident → Data → Option β) :
    (valuesOf a p g).Perm (valuesOf b p g) := h.flatMap_right _

/-- Values that stay are all there in what is left. -/
theorem valuesOf_residue {β : Type} (l : Ilst.Tag) (p : Ident → Bool) (g : Ident → Data → Option β)
    (hg : ∀ i d, p i = true → stays i d = false → mappingOf i = .kept ∨ g i d = none) :
    valuesOf (l.filterMap residue) p g = valuesOf l p g := by
  induction l with
  | nil => rfl
  | cons a l ih =>
    have hc : ∀ (x : Atom) (m : Ilst.Tag), valuesOf (x :: m) p g = (if p x.ident then x.data.toList.filterMap (g x.ident) else []) ++ valuesOf m p g := by
      intro x m; unfold valuesOf; rw [List.flatMap_cons]
    rw [List.filterMap_cons, hc a l]
    have key : ∀ (hp : p a.ident = true) (hk : mappingOf a.ident ≠ .kept),
        (a.data.toList.filter (stays a.ident)).filterMap (g a.ident) = a.data.toList.filterMap (g a.ident) := by
      intro hp hk
      rw [List.filterMap_filter]
      apply filterMap_congr'
      intro d _
      cases hs : stays a.ident d with
      | true => simp
      | false =>
        rcases hg _ d hp hs with h | h
        · exact absurd h hk
        · simp [h]
    cases hr : residue a with
    | none =>
      simp only
      rw [ih]
      unfold residue at hr
      split at hr
      · cases hr
      · rename_i hk
        have h0 := restore_none (Option.map_eq_none_iff.mp hr)
        by_cases hp : p a.ident = true
        · rw [if_pos hp, ← key hp hk, h0]; rfl
        · rw [if_neg hp]; rfl
    | some b =>
      simp only
      rw [hc b, ih]
      obtain ⟨h1, h2⟩ := residue_spec hr
      rw [h1]
      refine congrArg (· ++ valuesOf l p g) ?_
      by_cases hp : p a.ident = true
      · rw [if_pos hp, if_pos hp, h2]
        by_cases hk : mappingOf a.ident = .kept
        · rw [if_pos hk]
        · rw [if_neg hk, key hp hk]
      · rw [if_neg hp, if_neg hp]

/-- Values that do not stay are gone. -/
theorem valuesOf_residue_none {β : Type} (l : Ilst.Tag) (p : Ident → Bool) (g : Ident → Data → Option β)
    (hg : ∀ i d, p i = true → mappingOf i ≠ .kept ∧ (stays i d = true → g i d = none)) :
    valuesOf (l.filterMap residue) p g = [] := by
  induction l with
  | nil => rfl
  | cons a l ih =>
    rw [List.filterMap_cons]
    cases hr : residue a with
    | none => exact ih
    | some b =>
      simp only
      have hc : valuesOf (b :: l.filterMap residue) p g =
          (if p b.ident then b.data.toList.filterMap (g b.ident) else []) ++ valuesOf (l.filterMap residue) p g := by
        unfold valuesOf; rw [List.flatMap_cons]
      rw [hc, ih, List.append_nil]
      obtain ⟨h1, h2⟩ := residue_spec hr
      rw [h1]
      split
      · rename_i hp
        have hk := (hg a.ident (.signed 0) hp).1
        rw [h2, if_neg hk, List.filterMap_eq_nil_iff]
        intro d hd
        exact (hg a.ident d hp).2 (List.mem_filter.mp hd).2
      · rfl

/-! ## The generic tag -/

theorem mapping_fixed {i : Ident} {k : ItemKey} (h : mappingOf i = .mapped k) : readAs .mp4Ilst k = k ∧ supports .mp4Ilst k = true := by
  unfold mappingOf at h
  split at h
  · rename_i k' hk
    cases h
    obtain ⟨s, h1, h2⟩ := mapKey_fromKey hk
    refine ⟨?_, by rw [supports_map (by decide), h1]; rfl⟩
    rw [fromKey_mapKey h1] at h2
    exact Option.some.inj h2
  · split at h <;> cases h

/-- The text that a value stands for; a flag is `1` or `0`. -/
def textData : Data → Option Str
  | .utf8 s | .utf16 s => some s
  | .bool b => some (flagText b)
  | _ => none

/-- The number at an offset of a pair of numbers. -/
def numberIn (off : Nat) : Data → Option Nat
  | .unknown code d => if code = 0 ∧ 6 ≤ d.length then some (fromBE ((d.drop off).take 2)) else none
  | _ => none

/-- The atom and the offset of a number. -/
def slot : ItemKey → Ident × Nat
  | .TrackNumber => (trkn, 2)
  | .TrackTotal => (trkn, 4)
  | .DiscNumber => (disk, 2)
  | _ => (disk, 4)

/-- The picture in a value. -/
def pictureIn : Data → Option Picture.Pic
  | .picture p => some p
  | _ => none

/-- An item as `split_tag` makes them. -/
def Made (i : TagItem) : Prop :=
  ∃ k s, i = TagItem.new k (.text s) ∧ supports .mp4Ilst k = true ∧ (k ∉ ilstNumbers → readAs .mp4Ilst k = k)

/-- A generic tag as `split_tag` makes them. -/
def MadeTag (t : Tag) : Prop := t.type = .mp4Ilst ∧ ∀ i ∈ t.items, Made i

theorem number_supported {k : ItemKey} (h : k ∈ ilstNumbers) : supports .mp4Ilst k = true :=
  (ident_table k k.mem_all).2.2.1 (Or.inl h)

theorem insertText_mp4 {t : Tag} {k : ItemKey} {s : Str} (ht : t.type = .mp4Ilst) (hk : supports .mp4Ilst k = true) :
    (t.insertText k s).2 = { t with items := t.items.filter (fun j => decide (j.key ≠ k)) ++ [TagItem.new k (.text s)] } := by
  simp only [Tag.insertText, Tag.insert]
  rw [if_pos (by rw [ht]; exact hk)]
  rfl

theorem insertText_made {t : Tag} {k : ItemKey} {s : Str} (ht : MadeTag t) (hk : supports .mp4Ilst k = true)
    (hr : k ∉ ilstNumbers → readAs .mp4Ilst k = k) :
    MadeTag (t.insertText k s).2 := by
  rw [insertText_mp4 ht.1 hk]
  refine ⟨ht.1, ?_⟩
  intro i hi
  simp only [List.mem_append, List.mem_filter, List.mem_singleton] at hi
  rcases hi with h | h
  · exact ht.2 i h.1
  · exact ⟨k, _, h, hk, hr⟩

theorem insertText_strings {t : Tag} {k : ItemKey} {s : Str} (ht : t.type = .mp4Ilst) (hk : supports .mp4Ilst k = true) (k' : ItemKey) :
    (t.insertText k s).2.getStrings k' = if k = k' then [s] else t.getStrings k' := by
  rw [insertText_mp4 ht hk]
  unfold Tag.getStrings
  simp only [List.filterMap_append, List.filterMap_filter]
  by_cases h : k = k'
  · subst h
    rw [if_pos rfl]
    have : (t.items.filterMap fun x => if decide (x.key ≠ k) = true then (if x.key = k then x.value.textOf else none) else none) = [] := by
      rw [List.filterMap_eq_nil_iff]
      intro i _
      by_cases h : i.key = k <;> simp [h]
    rw [this]
    simp [TagItem.new, ItemValue.textOf]
  · rw [if_neg h]
    have : (t.items.filterMap fun x => if decide (x.key ≠ k) = true then (if x.key = k' then x.value.textOf else none) else none) =
        t.items.filterMap fun i => if i.key = k' then i.value.textOf else none := by
      apply filterMap_congr'
      intro i _
      by_cases h1 : i.key = k'
      · rw [if_pos h1, if_pos (by simpa [h1] using Ne.symm h)]
      · rw [if_neg h1]; split <;> rfl
    rw [this]
    simp [TagItem.new, h]

theorem insertPositive_made {t : Tag} {k : ItemKey} {n : Nat} (ht : MadeTag t) (hk : k ∈ ilstNumbers) : MadeTag (insertPositive t k n) := by
  unfold insertPositive
  split
  · exact insertText_made ht (number_supported hk) (fun h => absurd hk h)
  · exact ht

theorem insertPositive_strings {t : Tag} {k : ItemKey} {n : Nat} (ht : MadeTag t) (hk : k ∈ ilstNumbers) (k' : ItemKey) :
    (insertPositive t k n).getStrings k' = if k = k' ∧ 0 < n then [toDec n] else t.getStrings k' := by
  unfold insertPositive
  by_cases hn : 0 < n
  · simp only [hn, and_true, if_true]
    exact insertText_strings ht.1 (number_supported hk) k'
  · simp only [hn, and_false, if_false]

theorem insertPositive_pictures {t : Tag} {k : ItemKey} {n : Nat} (ht : MadeTag t) (hk : k ∈ ilstNumbers) :
    (insertPositive t k n).pictures = t.pictures := by
  unfold insertPositive
  split
  · rw [insertText_mp4 ht.1 (number_supported hk)]
  · rfl

theorem pairOf_cases (i : Ident) : (i = trkn ∧ pairOf i = some (.TrackNumber, .TrackTotal)) ∨
    (i = disk ∧ pairOf i = some (.DiscNumber, .DiscTotal)) ∨ (i ≠ trkn ∧ i ≠ disk ∧ pairOf i = none) := by
  unfold pairOf
  by_cases h1 : i = trkn
  · exact Or.inl ⟨h1, by rw [if_pos h1]⟩
  · by_cases h2 : i = disk
    · exact Or.inr (Or.inl ⟨h2, by rw [if_neg h1, if_pos h2]⟩)
    · exact Or.inr (Or.inr ⟨h1, h2, by rw [if_neg h1, if_neg h2]⟩)

/-- A mapping that an atom can have. -/
def MapOk (m : Mapping) : Prop := ∀ k, m = .mapped k → readAs .mp4Ilst k = k ∧ supports .mp4Ilst k = true

theorem pushMapped_made {t : Tag} {m : Mapping} {s : Str} (ht : MadeTag t) (hm : MapOk m) : MadeTag (pushMapped t m s) := by
  unfold pushMapped
  split
  · rename_i k
    refine ⟨ht.1, ?_⟩
    intro i hi
    simp only [Tag.pushUnchecked, List.mem_append, List.mem_singleton] at hi
    rcases hi with h | h
    · exact ht.2 i h
    · exact ⟨k, s, h, (hm k rfl).2, fun _ => (hm k rfl).1⟩
  · exact ht

theorem splitData_made {i : Ident} {m : Mapping} {t : Tag} (ht : MadeTag t) (hm : MapOk m) (d : Data) :
    MadeTag (splitData i m t d).2 := by
  cases d with
  | utf8 s => exact pushMapped_made ht hm
  | utf16 s => exact pushMapped_made ht hm
  | bool b => exact pushMapped_made ht hm
  | picture p => unfold splitData pushCover; cases m <;> exact ht
  | unknown code data =>
    unfold splitData
    by_cases hc : code = 0 ∧ 6 ≤ data.length
    · simp only [if_pos hc]
      rcases pairOf_cases i with ⟨-, h⟩ | ⟨-, h⟩ | ⟨-, -, h⟩ <;> rw [h]
      · exact insertPositive_made (insertPositive_made ht (by decide)) (by decide)
      · exact insertPositive_made (insertPositive_made ht (by decide)) (by decide)
      · exact ht
    · simp only [if_neg hc]; exact ht
  | _ => exact ht

theorem pushMapped_strings (t : Tag) (m : Mapping) (s : Str) (k : ItemKey) :
    (pushMapped t m s).getStrings k = t.getStrings k ++ if m = .mapped k then [s] else [] := by
  cases m with
  | kept => simp [pushMapped]
  | picture => simp [pushMapped]
  | mapped k' =>
    simp only [pushMapped, Tag.getStrings, Tag.pushUnchecked, List.filterMap_append]
    by_cases h : k' = k <;> simp [h, TagItem.new, ItemValue.textOf]

theorem splitData_strings {i : Ident} {m : Mapping} {t : Tag} (ht : MadeTag t) (d : Data) {k : ItemKey} (hk : k ∉ ilstNumbers) :
    (splitData i m t d).2.getStrings k = t.getStrings k ++ if m = .mapped k then (textData d).toList else [] := by
  have hne : ∀ x ∈ ilstNumbers, ¬ x = k := fun x hx he => hk (he ▸ hx)
  cases d with
  | utf8 s => exact pushMapped_strings ..
  | utf16 s => exact pushMapped_strings ..
  | bool b => exact pushMapped_strings ..
  | picture p => cases m <;> simp [splitData, pushCover, textData, Tag.pushPicture, Tag.getStrings]
  | unknown code data =>
    have : (splitData i m t (.unknown code data)).2.getStrings k = t.getStrings k := by
      unfold splitData
      by_cases hc : code = 0 ∧ 6 ≤ data.length
      · simp only [if_pos hc]
        rcases pairOf_cases i with ⟨-, h⟩ | ⟨-, h⟩ | ⟨-, -, h⟩ <;> rw [h]
        · simp only
          rw [insertPositive_strings (insertPositive_made ht (by decide)) (by decide), if_neg (fun h => hne _ (by decide) h.1),
            insertPositive_strings ht (by decide), if_neg (fun h => hne _ (by decide) h.1)]
        · simp only
          rw [insertPositive_strings (insertPositive_made ht (by decide)) (by decide), if_neg (fun h => hne _ (by decide) h.1),
            insertPositive_strings ht (by decide), if_neg (fun h => hne _ (by decide) h.1)]
      · simp only [if_neg hc]
    rw [this]; simp [textData]
  | signed n => simp [splitData, textData]
  | unsigned n => simp [splitData, textData]

theorem splitData_pictures {i : Ident} {m : Mapping} {t : Tag} (ht : MadeTag t) (d : Data) :
    (splitData i m t d).2.pictures = t.pictures ++ if m = .picture then (pictureIn d).toList else [] := by
  have hpm : ∀ s, (pushMapped t m s).pictures = t.pictures := by intro s; cases m <;> rfl
  cases d with
  | utf8 s => simp [splitData, hpm, pictureIn]
  | utf16 s => simp [splitData, hpm, pictureIn]
  | bool b => simp [splitData, hpm, pictureIn]
  | picture p => cases m <;> simp [splitData, pushCover, pictureIn, Tag.pushPicture]
  | unknown code data =>
    have : (splitData i m t (.unknown code data)).2.pictures = t.pictures := by
      unfold splitData
      by_cases hc : code = 0 ∧ 6 ≤ data.length
      · simp only [if_pos hc]
        rcases pairOf_cases i with ⟨-, h⟩ | ⟨-, h⟩ | ⟨-, -, h⟩ <;> rw [h]
        · simp only
          rw [insertPositive_pictures (insertPositive_made ht (by decide)) (by decide), insertPositive_pictures ht (by decide)]
        · simp only
          rw [insertPositive_pictures (insertPositive_made ht (by decide)) (by decide), insertPositive_pictures ht (by decide)]
      · simp only [if_neg hc]
    rw [this]; simp [pictureIn]
  | signed n => simp [splitData, pictureIn]
  | unsigned n => simp [splitData, pictureIn]

/-- The number a value gives to a key. -/
def numberFor (k : ItemKey) (i : Ident) (d : Data) : Option Nat :=
  if i = (slot k).1 then (numberIn (slot k).2 d).filter fun n => decide (0 < n) else none

theorem splitData_number {i : Ident} {m : Mapping} {t : Tag} (ht : MadeTag t) (d : Data) {k : ItemKey} (hk : k ∈ ilstNumbers)
    (hm : m = .mapped k → textData d = none) {o : Option Nat} (ho : t.getStrings k = (o.map toDec).toList) :
    (splitData i m t d).2.getStrings k = (((numberFor k i d).or o).map toDec).toList := by
  have hpm : ∀ s, textData d = some s → (pushMapped t m s).getStrings k = (o.map toDec).toList := by
    intro s hs
    rw [pushMapped_strings, if_neg (fun h => by rw [hm h] at hs; cases hs), ho]; simp
  cases d with
  | utf8 s => simp only [splitData, hpm s rfl, numberFor, numberIn]; split <;> rfl
  | utf16 s => simp only [splitData, hpm s rfl, numberFor, numberIn]; split <;> rfl
  | bool b => simp only [splitData, hpm _ rfl, numberFor, numberIn]; split <;> rfl
  | picture p =>
    have : (splitData i m t (.picture p)).2.getStrings k = t.getStrings k := by cases m <;> rfl
    rw [this, ho]; simp only [numberFor, numberIn]; split <;> rfl
  | signed n => simp only [splitData, ho, numberFor, numberIn]; split <;> rfl
  | unsigned n => simp only [splitData, ho, numberFor, numberIn]; split <;> rfl
  | unknown code data =>
    unfold splitData numberFor numberIn
    by_cases hc : code = 0 ∧ 6 ≤ data.length
    · simp only [if_pos hc]
      have hd : disk ≠ trkn := by decide
      have hd' : trkn ≠ disk := by decide
      rcases pairOf_cases i with ⟨hi, h⟩ | ⟨hi, h⟩ | ⟨hi, hi', h⟩ <;> rw [h]
      · subst hi
        simp only
        rw [insertPositive_strings (insertPositive_made ht (by decide)) (by decide), insertPositive_strings ht (by decide), ho]
        simp only [ilstNumbers, List.mem_cons, List.not_mem_nil, or_false] at hk
        rcases hk with rfl | rfl | rfl | rfl <;> simp [slot, hd, hd', Option.filter]
        all_goals (split <;> simp [*])
      · subst hi
        simp only
        rw [insertPositive_strings (insertPositive_made ht (by decide)) (by decide), insertPositive_strings ht (by decide), ho]
        simp only [ilstNumbers, List.mem_cons, List.not_mem_nil, or_false] at hk
        rcases hk with rfl | rfl | rfl | rfl <;> simp [slot, hd, hd', Option.filter]
        all_goals (split <;> simp [*])
      · simp only [ho]
        simp only [ilstNumbers, List.mem_cons, List.not_mem_nil, or_false] at hk
        rcases hk with rfl | rfl | rfl | rfl <;> simp [slot, hi, hi']
    · simp only [if_neg hc, ho]; split <;> rfl

/-! ## All values -/

theorem splitValues_spec (i : Ident) (m : Mapping) (hm : MapOk m) (l : List Data) (t : Tag) (ht : MadeTag t) :
    MadeTag (splitValuesOf i m l t).2 ∧
    (∀ k ∉ ilstNumbers, (splitValuesOf i m l t).2.getStrings k = t.getStrings k ++ if m = .mapped k then l.filterMap textData else []) ∧
    (splitValuesOf i m l t).2.pictures = t.pictures ++ (if m = .picture then l.filterMap pictureIn else []) ∧
    (∀ k ∈ ilstNumbers, (m = .mapped k → ∀ d ∈ l, textData d = none) → ∀ o, t.getStrings k = (o.map toDec).toList →
      (splitValuesOf i m l t).2.getStrings k = (((l.filterMap (numberFor k i)).getLast?.or o).map toDec).toList) := by
  induction l generalizing t with
  | nil => refine ⟨ht, fun k _ => by simp [splitValuesOf], by simp [splitValuesOf], fun k _ _ o ho => by simpa [splitValuesOf] using ho⟩
  | cons d l ih =>
    obtain ⟨h1, h2, h3, h4⟩ := ih _ (splitData_made (i := i) ht hm d)
    have hc : ∀ {β : Type} (f : Data → Option β), (d :: l).filterMap f = (f d).toList ++ l.filterMap f := by
      intro β f; rw [List.filterMap_cons]; cases f d <;> rfl
    refine ⟨h1, ?_, ?_, ?_⟩
    · intro k hk
      have e : (splitValuesOf i m (d :: l) t).2 = (splitValuesOf i m l (splitData i m t d).2).2 := rfl
      rw [e, h2 k hk, splitData_strings ht d hk, hc]
      split <;> simp
    · have e : (splitValuesOf i m (d :: l) t).2 = (splitValuesOf i m l (splitData i m t d).2).2 := rfl
      rw [e, h3, splitData_pictures ht, hc]
      split <;> simp
    · intro k hk hm' o ho
      have e : (splitValuesOf i m (d :: l) t).2 = (splitValuesOf i m l (splitData i m t d).2).2 := rfl
      rw [e, h4 k hk (fun h x hx => hm' h x (by simp [hx])) _ (splitData_number ht d hk (fun h => hm' h d (by simp)) ho), hc,
        getLast_cons_or]

theorem slot_mapped {k : ItemKey} (hk : k ∈ ilstNumbers) {i : Ident} (h : mappingOf i = .kept) : i ≠ (slot k).1 := by
  simp only [ilstNumbers, List.mem_cons, List.not_mem_nil, or_false] at hk
  rintro rfl
  rcases hk with rfl | rfl | rfl | rfl
  · have : mappingOf trkn = .kept := h
    rw [mapping_trkn] at this; cases this
  · have : mappingOf trkn = .kept := h
    rw [mapping_trkn] at this; cases this
  · have : mappingOf disk = .kept := h
    rw [mapping_disk] at this; cases this
  · have : mappingOf disk = .kept := h
    rw [mapping_disk] at this; cases this

theorem splitAtom_snd (a : Atom) (t : Tag) : (splitAtom a t).2 =
    if mappingOf a.ident = .kept then t else (splitValuesOf a.ident (mappingOf a.ident) a.data.toList t).2 := by
  unfold splitAtom
  cases mappingOf a.ident with
  | kept => simp
  | mapped k => rw [if_neg (by simp)]
  | picture => rw [if_neg (by simp)]

theorem valuesOf_cons {β : Type} (x : Atom) (m : Ilst.Tag) (p : Ident → Bool) (g : Ident → Data → Option β) :
    valuesOf (x :: m) p g = (if p x.ident then x.data.toList.filterMap (g x.ident) else []) ++ valuesOf m p g := by
  unfold valuesOf; rw [List.flatMap_cons]

/-- The texts of the atoms of a generic key. -/
def textsUnder (a : Ilst.Tag) (k : ItemKey) : List Str := valuesOf a (fun i => decide (mappingOf i = .mapped k)) fun _ => textData

/-- The pictures of the `covr` atoms. -/
def coversOf (a : Ilst.Tag) : List Picture.Pic := valuesOf a (fun i => decide (i = covr)) fun _ => pictureIn

/-- The numbers above zero that the pairs give to a key. -/
def numbersFor (a : Ilst.Tag) (k : ItemKey) : List Nat :=
  (valuesOf a (fun i => decide (i = (slot k).1)) fun _ => numberIn (slot k).2).filter fun n => decide (0 < n)

theorem numbersFor_cons (x : Atom) (a : Ilst.Tag) (k : ItemKey) :
    numbersFor (x :: a) k = x.data.toList.filterMap (numberFor k x.ident) ++ numbersFor a k := by
  unfold numbersFor
  rw [valuesOf_cons, List.filter_append]
  refine congrArg (· ++ _) ?_
  by_cases h : x.ident = (slot k).1
  · rw [if_pos (by simpa using h), List.filter_filterMap]
    apply filterMap_congr'
    intro d _
    unfold numberFor
    rw [if_pos h]
  · rw [if_neg (by simpa using h)]
    symm
    rw [List.filter_nil, List.filterMap_eq_nil_iff]
    intro d _
    unfold numberFor
    rw [if_neg h]

theorem mapping_picture {i : Ident} : mappingOf i = .picture ↔ i = covr := by
  constructor
  · intro h
    unfold mappingOf at h
    split at h
    · cases h
    · split at h
      · assumption
      · cases h
  · rintro rfl; exact mapping_covr

/-- The generic tag of `split_tag`, by what can be asked about it. -/
theorem splitAtoms_spec (a : Ilst.Tag) (t : Tag) (ht : MadeTag t) :
    MadeTag (splitAtoms a t).2 ∧
    (∀ k ∉ ilstNumbers, (splitAtoms a t).2.getStrings k = t.getStrings k ++ textsUnder a k) ∧
    (splitAtoms a t).2.pictures = t.pictures ++ coversOf a ∧
    (∀ k ∈ ilstNumbers, textsUnder a k = [] → ∀ o, t.getStrings k = (o.map toDec).toList →
      (splitAtoms a t).2.getStrings k = (((numbersFor a k).getLast?.or o).map toDec).toList) := by
  induction a generalizing t with
  | nil =>
    refine ⟨ht, fun k _ => by simp [splitAtoms, textsUnder, valuesOf], by simp [splitAtoms, coversOf, valuesOf], fun k _ _ o ho => ?_⟩
    simpa [splitAtoms, numbersFor, valuesOf] using ho
  | cons x a ih =>
    have e : (splitAtoms (x :: a) t).2 = (splitAtoms a (splitAtom x t).2).2 := by simp only [splitAtoms]
    rw [e, splitAtom_snd]
    by_cases hk : mappingOf x.ident = .kept
    · rw [if_pos hk]
      obtain ⟨h1, h2, h3, h4⟩ := ih t ht
      have htx : ∀ k, textsUnder (x :: a) k = textsUnder a k := by
        intro k
        unfold textsUnder
        rw [valuesOf_cons, if_neg (by rw [hk]; simp)]; rfl
      refine ⟨h1, fun k hk' => by rw [h2 k hk', htx], ?_, ?_⟩
      · rw [h3]
        unfold coversOf
        rw [valuesOf_cons, if_neg (by simp only [decide_eq_true_eq]; rintro h; rw [h, mapping_covr] at hk; cases hk)]; rfl
      · intro k hk' hn o ho
        rw [htx] at hn
        rw [h4 k hk' hn o ho, numbersFor_cons]
        have : x.data.toList.filterMap (numberFor k x.ident) = [] := by
          rw [List.filterMap_eq_nil_iff]
          intro d _
          unfold numberFor
          rw [if_neg (slot_mapped hk' hk)]
        rw [this]; rfl
    · rw [if_neg hk]
      have hok : MapOk (mappingOf x.ident) := fun k h => mapping_fixed h
      obtain ⟨g1, g2, g3, g4⟩ := splitValues_spec x.ident (mappingOf x.ident) hok x.data.toList t ht
      obtain ⟨h1, h2, h3, h4⟩ := ih _ g1
      refine ⟨h1, ?_, ?_, ?_⟩
      · intro k hk'
        rw [h2 k hk', g2 k hk', List.append_assoc]
        unfold textsUnder
        rw [valuesOf_cons]
        by_cases h : mappingOf x.ident = .mapped k
        · rw [if_pos h, if_pos (by simpa using h)]
        · rw [if_neg h, if_neg (by simpa using h)]
      · rw [h3, g3, List.append_assoc]
        unfold coversOf
        rw [valuesOf_cons]
        by_cases h : x.ident = covr
        · rw [if_pos (mapping_picture.mpr h), if_pos (by simpa using h)]
        · rw [if_neg (fun h' => h (mapping_picture.mp h')), if_neg (by simpa using h)]
      · intro k hk' hn o ho
        unfold textsUnder at hn
        rw [valuesOf_cons, List.append_eq_nil_iff] at hn
        have hn1 : mappingOf x.ident = .mapped k → ∀ d ∈ x.data.toList, textData d = none := by
          intro h d hd
          have := hn.1
          rw [if_pos (by simpa using h), List.filterMap_eq_nil_iff] at this
          exact this d hd
        rw [h4 k hk' hn.2 _ (g4 k hk' hn1 o ho), numbersFor_cons, List.getLast?_append, Option.or_assoc]

/-! ## The remainder and the new atoms -/

theorem madeTag_new : MadeTag (Tag.new .mp4Ilst) := ⟨rfl, by intro i hi; cases hi⟩

theorem valuesOf_atoms {β : Type} (l : List TagItem) (p : Ident → Bool) (g : Ident → Data → Option β) :
    valuesOf (l.filterMap atomOf) p g = l.filterMap fun i => (identOfKey i.key).bind fun id =>
      i.value.textOf.bind fun s => (dataOf i.key s).bind fun d => if p id = true then g id d else none := by
  induction l with
  | nil => rfl
  | cons i l ih =>
    have hc : ∀ (f : TagItem → Option β), (i :: l).filterMap f = (f i).toList ++ l.filterMap f := by
      intro f; rw [List.filterMap_cons]; cases f i <;> rfl
    have h : (i :: l).filterMap atomOf = (atomOf i).toList ++ l.filterMap atomOf := by
      rw [List.filterMap_cons]; cases atomOf i <;> rfl
    rw [h, valuesOf_append, ih, hc]
    refine congrArg (· ++ _) ?_
    unfold atomOf
    cases identOfKey i.key with
    | none => rfl
    | some id =>
      cases i.value.textOf with
      | none => rfl
      | some s =>
        simp only [Option.bind_some]
        cases dataOf i.key s with
        | none => rfl
        | some d =>
          simp only [Option.bind_some, Option.map_some, Option.toList_some]
          rw [valuesOf_cons]
          by_cases hp : p id = true
          · rw [if_pos hp, if_pos hp]
            simp only [Storage.toList, valuesOf, List.flatMap_nil, List.append_nil]
            cases h : g id d <;> simp [h]
          · rw [if_neg hp, if_neg hp]; rfl

theorem valuesOf_nil_of {β : Type} {a : Ilst.Tag} {p : Ident → Bool} {g : Ident → Data → Option β}
    (h : ∀ x ∈ a, p x.ident = true → ∀ d ∈ x.data.toList, g x.ident d = none) : valuesOf a p g = [] := by
  unfold valuesOf
  rw [List.flatMap_eq_nil_iff]
  intro x hx
  split
  · rename_i hp; rw [List.filterMap_eq_nil_iff]; exact h x hx hp
  · rfl

theorem valuesOf_cover {β : Type} (l : List Picture.Pic) (p : Ident → Bool) (g : Ident → Data → Option β) :
    valuesOf (coverAtom l) p g = if p covr = true then l.filterMap fun q => g covr (.picture (untyped q)) else [] := by
  cases l with
  | nil => simp [coverAtom, valuesOf]
  | cons q l =>
    obtain ⟨s, h1, h2⟩ := coverAtom_eq q l
    rw [h1, valuesOf_cons, h2]
    split
    · rw [List.filterMap_map]; simp only [valuesOf, List.flatMap_nil, List.append_nil]; rfl
    · rfl

/-- The value of a pair of numbers. -/
def pairValue (x y : Nat) : Data := .unknown 0 ([0, 0] ++ beBytes 2 x ++ beBytes 2 y ++ [0, 0])

theorem valuesOf_pair {β : Type} (i : Ident) (x y : Option Nat) (p : Ident → Bool) (g : Ident → Data → Option β) :
    valuesOf (intPair i (x, y)) p g =
      if (x.isSome ∨ y.isSome) ∧ p i = true then (g i (pairValue (x.getD 0) (y.getD 0))).toList else [] := by
  have one : ∀ d, valuesOf [⟨i, .single d⟩] p g = if p i = true then (g i d).toList else [] := by
    intro d
    rw [valuesOf_cons]
    split
    · simp only [Storage.toList, valuesOf, List.flatMap_nil, List.append_nil]
      cases h : g i d <;> simp [h]
    · rfl
  cases x with
  | none =>
    cases y with
    | none => simp [intPair, valuesOf]
    | some y => simp only [intPair]; rw [one]; simp [pairValue]
  | some x => simp only [intPair]; rw [one]; simp [pairValue]

/-- An MP4 tag after it went through a generic tag. -/
def throughTag (preserve : Bool) (a : Ilst.Tag) : Ilst.Tag := toIlst preserve (ofIlst preserve a)

/-- What is kept beside the generic tag. -/
def remainder (preserve : Bool) (a : Ilst.Tag) : Ilst.Tag := if preserve then (splitIlst a).1 else []

theorem throughTag_eq (preserve : Bool) (a : Ilst.Tag) :
    throughTag preserve a = mergeIlst (remainder preserve a) (splitIlst a).2 := by
  unfold throughTag toIlst ofIlst remainder
  cases preserve with
  | false => simp
  | true =>
    simp only [if_true, true_and]
    by_cases h : (splitIlst a).1 = []
    · rw [if_neg (by simpa using h), h]; rfl
    · rw [if_pos (by simpa using h)]; rfl

/-- The remainder consists of the residues, without the advisory rating if one was found. -/
theorem splitIlst_fst (a : Ilst.Tag) :
    (splitIlst a).1 = match Ilst.rating (a.filterMap residue) with
      | some _ => (Ilst.remove (a.filterMap residue) rtng).2
      | none => a.filterMap residue := by
  unfold splitIlst splitRating
  simp only [splitAtoms_fst]
  cases Ilst.rating (a.filterMap residue) <;> rfl

theorem advisory_supported : supports .mp4Ilst .ParentalAdvisory = true :=
  (ident_table .ParentalAdvisory ItemKey.ParentalAdvisory.mem_all).2.2.1 (Or.inr (Or.inr rfl))

theorem splitIlst_snd (a : Ilst.Tag) :
    MadeTag (splitIlst a).2 ∧
    (∀ k ∉ ilstNumbers, k ≠ .ParentalAdvisory → (splitIlst a).2.getStrings k = textsUnder a k) ∧
    (splitIlst a).2.pictures = coversOf a ∧
    (∀ k ∈ ilstNumbers, textsUnder a k = [] → (splitIlst a).2.getStrings k = ((numbersFor a k).getLast?.map toDec).toList) ∧
    ((splitIlst a).2.getStrings .ParentalAdvisory = match Ilst.rating (a.filterMap residue) with
      | some n => [toDec n]
      | none => textsUnder a .ParentalAdvisory) := by
  obtain ⟨h1, h2, h3, h4⟩ := splitAtoms_spec a _ madeTag_new
  have h0 : ∀ k, (Tag.new .mp4Ilst).getStrings k = [] := fun _ => rfl
  unfold splitIlst splitRating
  simp only [splitAtoms_fst]
  cases Ilst.rating (a.filterMap residue) with
  | none =>
    simp only
    refine ⟨h1, fun k hk _ => by rw [h2 k hk, h0]; rfl, by rw [h3]; rfl, fun k hk hn => ?_, by rw [h2 _ (by decide), h0]; rfl⟩
    rw [h4 k hk hn none (h0 k)]; simp
  | some n =>
    simp only
    refine ⟨insertText_made h1 advisory_supported (fun _ => ?_), fun k hk hp => ?_, ?_, fun k hk hn => ?_, ?_⟩
    · exact (ident_table .ParentalAdvisory ItemKey.ParentalAdvisory.mem_all).2.2.2.1 (Or.inr rfl)
    · rw [insertText_strings h1.1 advisory_supported, if_neg (Ne.symm hp), h2 k hk, h0]; rfl
    · rw [insertText_mp4 h1.1 advisory_supported]; simp only; rw [h3]; rfl
    · have hne : ItemKey.ParentalAdvisory ≠ k := by rintro rfl; exact absurd hk (by decide)
      rw [insertText_strings h1.1 advisory_supported, if_neg hne, h4 k hk hn none (h0 k)]; simp
    · rw [insertText_strings h1.1 advisory_supported, if_pos rfl]

/-- Values that never stay are not in the remainder. -/
theorem remainder_none {β : Type} (pr : Bool) (a : Ilst.Tag) (p : Ident → Bool) (g : Ident → Data → Option β)
    (hg : ∀ i d, p i = true → mappingOf i ≠ .kept ∧ (stays i d = true → g i d = none)) :
    valuesOf (remainder pr a) p g = [] := by
  unfold remainder
  cases pr with
  | false => rfl
  | true =>
    simp only [if_true]
    rw [splitIlst_fst]
    have h := valuesOf_residue_none a p g hg
    cases Ilst.rating (a.filterMap residue) with
    | none => exact h
    | some n =>
      simp only
      refine valuesOf_nil_of ?_
      intro x hx hp d hd
      rw [Ilst.mem_remove] at hx
      unfold valuesOf at h
      rw [List.flatMap_eq_nil_iff] at h
      have := h x hx.1
      rw [if_pos hp, List.filterMap_eq_nil_iff] at this
      exact this d hd

/-- Values that always stay are all in the remainder, but for the advisory rating. -/
theorem remainder_all {β : Type} (a : Ilst.Tag) (p : Ident → Bool) (g : Ident → Data → Option β) (hr : p rtng = false)
    (hg : ∀ i d, p i = true → stays i d = false → mappingOf i = .kept ∨ g i d = none) :
    (valuesOf (remainder true a) p g).Perm (valuesOf a p g) := by
  unfold remainder
  simp only [if_true]
  rw [splitIlst_fst, ← valuesOf_residue a p g hg]
  cases Ilst.rating (a.filterMap residue) with
  | none => exact List.Perm.refl _
  | some n =>
    simp only
    refine (valuesOf_perm (Ilst.remove_spec _ rtng).2.1 p g).trans ?_
    generalize a.filterMap residue = l
    have : valuesOf (l.filter fun a => !decide (a.ident = rtng)) p g = valuesOf l p g := by
      induction l with
      | nil => rfl
      | cons x l ih =>
        rw [List.filter_cons, valuesOf_cons]
        by_cases h : x.ident = rtng
        · rw [if_neg (by simp [h]), ih, if_neg (by rw [h, hr]; decide)]; rfl
        · rw [if_pos (by simp [h]), valuesOf_cons, ih]
    rw [this]

end Lofty.Convert
