import Verif.Props.ConvertIlst
/-!
# Conversion of generic tags: what is seen of a tag after MP4, and MP4 tags through a generic one (C51, C52)
-/
namespace Lofty.Convert
open Lofty.Item
open Lofty.Mp4 (Ident)
open Lofty.Ilst (Atom Data Storage covr trkn disk rtng)

/-! ## The texts of a key -/

theorem read_table : ∀ k ∈ ItemKey.all,
    (readAs .mp4Ilst k ∈ ilstNumbers ↔ k ∈ ilstNumbers) ∧
    (readAs .mp4Ilst k ∈ ilstFlags ↔ k ∈ ilstFlags) ∧
    (readAs .mp4Ilst k = .ParentalAdvisory ↔ k = .ParentalAdvisory) ∧
    supports .mp4Ilst (readAs .mp4Ilst k) = supports .mp4Ilst k := by
  decide +kernel

theorem numberItem_strings (k k' : ItemKey) (n : Option Nat) :
    (numberItem k n).filterMap (fun i => if i.key = k' then i.value.textOf else none) =
      if k = k' then ((n.filter fun n => decide (0 < n)).map toDec).toList else [] := by
  unfold numberItem
  match n with
  | none => simp
  | some 0 => simp
  | some (n + 1) => by_cases h : k = k' <;> simp [h, TagItem.new, ItemValue.textOf, Option.filter]

theorem optItem_strings (k k' : ItemKey) (s : Option Str) :
    (optItem k s).filterMap (fun i => if i.key = k' then i.value.textOf else none) = if k = k' then s.toList else [] := by
  cases s with
  | none => simp [optItem]
  | some s => by_cases h : k = k' <;> simp [optItem, h, TagItem.new, ItemValue.textOf]

theorem kept_strings (l : List TagItem) (k : ItemKey) :
    (l.filterMap ilstKept).filterMap (fun i => if i.key = k then i.value.textOf else none) =
      if k ∉ ilstNumbers ∧ k ≠ .ParentalAdvisory ∧ supports .mp4Ilst k = true then
        l.filterMap fun i => if readAs .mp4Ilst i.key = k then
          i.value.textOf.bind fun s => if k ∈ ilstFlags then (flagItem s).map flagText else some s else none
      else [] := by
  rw [List.filterMap_filterMap]
  by_cases hc : k ∉ ilstNumbers ∧ k ≠ .ParentalAdvisory ∧ supports .mp4Ilst k = true
  · rw [if_pos hc]
    apply filterMap_congr'
    intro i _
    obtain ⟨r1, r2, r3, r4⟩ := read_table i.key i.key.mem_all
    have hT := ident_table i.key i.key.mem_all
    by_cases hk : readAs .mp4Ilst i.key = k
    · rw [hk] at r1 r2 r3 r4
      rw [if_pos hk]
      unfold ilstKept
      rw [if_pos ⟨by rw [← r4]; exact hc.2.2, fun h => hc.1 (r1.mpr h), fun h => hc.2.1 (r3.mpr h)⟩]
      cases i.value.textOf with
      | none => rfl
      | some s =>
        simp only [Option.bind_some]
        by_cases hf : i.key ∈ ilstFlags
        · rw [if_pos hf, if_pos (r2.mpr hf)]
          have he : i.key = k := by rw [← hT.2.2.2.1 (Or.inl hf)]; exact hk
          cases flagItem s with
          | none => rfl
          | some b => simp only [Option.map_some, Option.bind_some, TagItem.new]; rw [if_pos he]; rfl
        · rw [if_neg hf, if_neg (fun h => hf (r2.mp h))]
          simp only [Option.bind_some, TagItem.new]
          rw [if_pos hk]; rfl
    · rw [if_neg hk]
      cases hj : ilstKept i with
      | none => rfl
      | some j => rw [Option.bind_some, if_neg (by rw [(ilstKept_key hj).1]; exact hk)]
  · rw [if_neg hc, List.filterMap_eq_nil_iff]
    intro i _
    cases hj : ilstKept i with
    | none => rfl
    | some j =>
      rw [Option.bind_some, if_neg]
      intro he
      have h1 := ilstKept_key hj
      rw [he] at h1
      apply hc
      refine ⟨h1.2.1, h1.2.2, ?_⟩
      rw [h1.1, (read_table i.key i.key.mem_all).2.2.2]
      unfold ilstKept at hj
      split at hj
      · rename_i h; exact h.1
      · cases hj

/-- The generic tag after it went through MP4. -/
def afterIlst (t : Tag) : Tag := (ofIlst true (toIlst true ⟨t, none⟩)).tag

theorem afterIlst_strings (t : Tag) (k : ItemKey) : (afterIlst t).getStrings k =
    (if k ∉ ilstNumbers ∧ k ≠ .ParentalAdvisory ∧ supports .mp4Ilst k = true then
        t.items.filterMap fun i => if readAs .mp4Ilst i.key = k then
          i.value.textOf.bind fun s => if k ∈ ilstFlags then (flagItem s).map flagText else some s else none
      else []) ++
    (if ItemKey.TrackNumber = k then (((lastNumber t.items .TrackNumber).filter fun n => decide (0 < n)).map toDec).toList else []) ++
    (if ItemKey.TrackTotal = k then (((lastNumber t.items .TrackTotal).filter fun n => decide (0 < n)).map toDec).toList else []) ++
    (if ItemKey.DiscNumber = k then (((lastNumber t.items .DiscNumber).filter fun n => decide (0 < n)).map toDec).toList else []) ++
    (if ItemKey.DiscTotal = k then (((lastNumber t.items .DiscTotal).filter fun n => decide (0 < n)).map toDec).toList else []) ++
    (if ItemKey.ParentalAdvisory = k then ((ratings t.items).head?.map toDec).toList else []) := by
  unfold afterIlst Tag.getStrings
  rw [(ilst_rt true t).1]
  simp only [List.filterMap_append, kept_strings, numberItem_strings, optItem_strings]

/-- **C51.** Every key that MP4 knows and stores as a text has the same texts afterwards, in the same order; the texts of
a key that shares its atom with another one (unsynchronised lyrics and lyrics) come out under that other key. -/
theorem ilst_text (t : Tag) {k : ItemKey} (hk : supports .mp4Ilst k = true) (h1 : k ∉ ilstNumbers) (h2 : k ∉ ilstFlags)
    (h3 : k ≠ .ParentalAdvisory) :
    (afterIlst t).getStrings k = t.items.filterMap fun i => if readAs .mp4Ilst i.key = k then i.value.textOf else none := by
  rw [afterIlst_strings, if_pos ⟨h1, h3, hk⟩]
  have hn : ∀ x ∈ ilstNumbers, ¬ x = k := fun x hx he => h1 (he ▸ hx)
  rw [if_neg (hn _ (by decide)), if_neg (hn _ (by decide)), if_neg (hn _ (by decide)), if_neg (hn _ (by decide)), if_neg (Ne.symm h3)]
  simp only [List.append_nil]
  apply filterMap_congr'
  intro i _
  split
  · cases i.value.textOf with
    | none => rfl
    | some s => rw [Option.bind_some]
  · rfl

/-- **C51.** Of the numbers of a kind the last one that fits in 16 bits is kept, if it is above zero. -/
theorem ilst_number (t : Tag) {k : ItemKey} (hk : k ∈ ilstNumbers) :
    (afterIlst t).getStrings k = (((lastNumber t.items k).filter fun n => decide (0 < n)).map toDec).toList := by
  rw [afterIlst_strings, if_neg (fun h => h.1 hk)]
  simp only [ilstNumbers, List.mem_cons, List.not_mem_nil, or_false] at hk
  rcases hk with rfl | rfl | rfl | rfl <;> simp

/-- **C51.** A single number from 1 to 65535 survives. -/
theorem ilst_number_single {t : Tag} {k : ItemKey} (hk : k ∈ ilstNumbers) {n : Nat} (hn : 0 < n) (hn' : n < 2 ^ 16)
    (h : t.getStrings k = [toDec n]) : (afterIlst t).getStrings k = [toDec n] := by
  rw [ilst_number t hk]
  have : lastNumber t.items k = some n := by
    have e : t.items.filterMap (fun i => (textUnder k i).bind (parseUInt (2 ^ 16))) = (t.getStrings k).filterMap (parseUInt (2 ^ 16)) := by
      unfold Tag.getStrings textUnder
      rw [List.filterMap_filterMap]
    unfold lastNumber
    rw [e, h]
    simp [parseUInt_toDec hn']
  rw [this]
  simp [Option.filter, hn]

/-- **C51.** Flags come out as `1` or `0`; texts that are no flag are dropped. -/
theorem ilst_flag (t : Tag) {k : ItemKey} (hk : k ∈ ilstFlags) :
    (afterIlst t).getStrings k = (t.getStrings k).filterMap fun s => (flagItem s).map flagText := by
  have h1 : k ∉ ilstNumbers ∧ k ≠ .ParentalAdvisory ∧ supports .mp4Ilst k = true := by
    refine ⟨?_, ?_, (ident_table k k.mem_all).2.2.1 (Or.inr (Or.inl hk))⟩ <;>
    · simp only [ilstFlags, List.mem_cons, List.not_mem_nil, or_false] at hk
      rcases hk with rfl | rfl <;> decide
  have hn : ∀ x ∈ ilstNumbers, ¬ x = k := fun x hx he => h1.1 (he ▸ hx)
  rw [afterIlst_strings, if_pos h1, if_neg (hn _ (by decide)), if_neg (hn _ (by decide)), if_neg (hn _ (by decide)),
    if_neg (hn _ (by decide)), if_neg (Ne.symm h1.2.1)]
  simp only [List.append_nil]
  unfold Tag.getStrings
  rw [List.filterMap_filterMap]
  apply filterMap_congr'
  intro i _
  have hr : readAs .mp4Ilst i.key = k ↔ i.key = k := by
    constructor
    · intro h
      have hf : i.key ∈ ilstFlags := (read_table i.key i.key.mem_all).2.1.mp (h ▸ hk)
      rw [← (ident_table i.key i.key.mem_all).2.2.2.1 (Or.inl hf)]
      exact h
    · intro h
      rw [h]
      exact (ident_table k k.mem_all).2.2.2.1 (Or.inl hk)
  by_cases h : i.key = k
  · rw [if_pos (hr.mpr h), if_pos h]
    cases i.value.textOf with
    | none => rfl
    | some s => rw [Option.bind_some, Option.bind_some, if_pos hk]
  · rw [if_neg (fun e => h (hr.mp e)), if_neg h]; rfl

/-- **C51.** The first valid advisory rating is kept. -/
theorem ilst_rating (t : Tag) : (afterIlst t).getStrings .ParentalAdvisory =
    (((t.getStrings .ParentalAdvisory).filterMap ratingText).head?.map toDec).toList := by
  rw [afterIlst_strings, if_neg (fun h => h.2.1 rfl)]
  have : ratings t.items = (t.getStrings .ParentalAdvisory).filterMap ratingText := by
    unfold ratings textUnder Tag.getStrings
    rw [List.filterMap_filterMap]
  rw [this]
  simp

/-- **C51.** All pictures are kept, without their types. -/
theorem ilst_pictures (t : Tag) : (afterIlst t).pictures = t.pictures.map untyped := (ilst_rt true t).2.1

/-- **C51.** Keys that MP4 does not know are dropped. -/
theorem ilst_unsupported (t : Tag) {k : ItemKey} (hk : supports .mp4Ilst k = false) : (afterIlst t).getStrings k = [] := by
  have h : ∀ x, (x ∈ ilstNumbers ∨ x ∈ ilstFlags ∨ x = .ParentalAdvisory) → ¬ x = k := by
    intro x hx he
    have := (ident_table x x.mem_all).2.2.1 hx
    rw [he, hk] at this; cases this
  rw [afterIlst_strings, if_neg (fun h => by rw [hk] at h; exact absurd h.2.2 (by decide)), if_neg (h _ (by decide)), if_neg (h _ (by decide)),
    if_neg (h _ (by decide)), if_neg (h _ (by decide)), if_neg (h _ (by decide))]
  rfl

end Lofty.Convert
