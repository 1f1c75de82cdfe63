import Verif.Lemmas.ConvertIlst
/-!
# Conversion of generic tags: MP4 `ilst` tags (C51)
-/
namespace Lofty.Convert
open Lofty.Item
open Lofty.Mp4 (Ident)
open Lofty.Ilst (Atom Data Storage covr trkn disk rtng)

/-! ## The atoms made from items -/

/-- The text of an item of the given key. -/
def textUnder (k : ItemKey) (i : TagItem) : Option Str := if i.key = k then i.value.textOf else none

/-- The number in the last item of a key whose text is a 16-bit number. -/
def lastNumber (l : List TagItem) (k : ItemKey) : Option Nat :=
  (l.filterMap fun i => (textUnder k i).bind (parseUInt (2 ^ 16))).getLast?

/-- The advisory rating in a text: the number 0, 1 or 2 (4 counts as 1). -/
def ratingText (s : Str) : Option Nat := (parseUInt (2 ^ 8) s).bind Ilst.ratingOf

/-- The ratings among the items. -/
def ratings (l : List TagItem) : List Nat := l.filterMap fun i => (textUnder .ParentalAdvisory i).bind ratingText

/-- The value of the atom for a text under a key, if there is one of its own. -/
def dataOf (k : ItemKey) (s : Str) : Option Data :=
  if k ∈ ilstNumbers then none
  else if k ∈ ilstFlags then (flagItem s).map .bool
  else if k = .ParentalAdvisory then (ratingText s).map fun n => .signed (Int32.ofNat n)
  else some (.utf8 s)

/-- The atom of an item. -/
def atomOf (i : TagItem) : Option Atom :=
  (identOfKey i.key).bind fun id => i.value.textOf.bind fun s => (dataOf i.key s).map fun d => ⟨id, .single d⟩

theorem getLast_cons_or {α : Type} (x : Option α) (l : List α) (y : Option α) :
    (x.toList ++ l).getLast?.or y = l.getLast?.or (x.or y) := by
  cases x with
  | none => rfl
  | some a =>
    cases l with
    | nil => rfl
    | cons b l => rw [List.getLast?_append]; simp [List.getLast?_cons]

theorem lastNumber_cons (i : TagItem) (l : List TagItem) (k : ItemKey) (y : Option Nat) :
    (lastNumber (i :: l) k).or y = (lastNumber l k).or (((textUnder k i).bind (parseUInt (2 ^ 16))).or y) := by
  have : ∀ (f : TagItem → Option Nat), (i :: l).filterMap f = (f i).toList ++ l.filterMap f := by
    intro f; rw [List.filterMap_cons]; cases f i <;> rfl
  unfold lastNumber
  rw [this, getLast_cons_or]

/-- One step of `merge_tag`, described by its parts. -/
theorem mergeItem_eq (m : Merge) (i : TagItem) : mergeItem m i =
    ⟨m.atoms ++ (atomOf i).toList,
     (((textUnder .TrackNumber i).bind (parseUInt (2 ^ 16))).or m.tracks.1, ((textUnder .TrackTotal i).bind (parseUInt (2 ^ 16))).or m.tracks.2),
     (((textUnder .DiscNumber i).bind (parseUInt (2 ^ 16))).or m.discs.1, ((textUnder .DiscTotal i).bind (parseUInt (2 ^ 16))).or m.discs.2)⟩ := by
  obtain ⟨lang, descr, key, value⟩ := i
  cases hv : value with
  | locator s => unfold mergeItem atomOf textUnder; simp only [ItemValue.textOf]; cases identOfKey key <;> simp
  | binary s => unfold mergeItem atomOf textUnder; simp only [ItemValue.textOf]; cases identOfKey key <;> simp
  | text s =>
    cases hi : identOfKey key with
    | none =>
      have hs : supports .mp4Ilst key = false := by rw [← ident_some, hi]; rfl
      have hn : ∀ k ∈ ilstNumbers, key ≠ k := by
        intro k hk he
        subst he
        rw [(ident_table key key.mem_all).2.2.1 (Or.inl hk)] at hs
        cases hs
      unfold mergeItem atomOf textUnder
      simp only [ilstNumbers, List.mem_cons, List.not_mem_nil, or_false, forall_eq_or_imp, forall_eq] at hn
      simp [hi, hn.1, hn.2.1, hn.2.2.1, hn.2.2.2]
    | some id =>
      have hm : mergeItem m ⟨lang, descr, key, .text s⟩ = mergeText m key id s := by unfold mergeItem; simp only [hi]
      rw [hm]
      unfold atomOf textUnder
      simp only [ItemValue.textOf, hi, Option.bind_some]
      unfold dataOf mergeText
      split
      · simp [ilstNumbers, toUint]
      · simp [ilstNumbers, toUint]
      · simp [ilstNumbers, toUint]
      · simp [ilstNumbers, toUint]
      · simp only [ilstNumbers, ilstFlags, reduceCtorEq]
        cases flagItem s <;> simp [Merge.push]
      · simp only [ilstNumbers, ilstFlags, reduceCtorEq]
        cases flagItem s <;> simp [Merge.push]
      · unfold ratingText
        cases (parseUInt (2 ^ 8) s).bind Ilst.ratingOf <;> simp [Merge.push, ilstNumbers, ilstFlags]
      · rename_i h1 h2 h3 h4 h5 h6 h7
        replace h1 : ¬ key = _ := h1
        replace h2 : ¬ key = _ := h2
        replace h3 : ¬ key = _ := h3
        replace h4 : ¬ key = _ := h4
        replace h5 : ¬ key = _ := h5
        replace h6 : ¬ key = _ := h6
        replace h7 : ¬ key = _ := h7
        simp [Merge.push, ilstNumbers, ilstFlags, h1, h2, h3, h4, h5, h6, h7]

/-- The loop of `merge_tag`. -/
theorem mergeItems_eq (l : List TagItem) (m : Merge) : l.foldl mergeItem m =
    ⟨m.atoms ++ l.filterMap atomOf,
     ((lastNumber l .TrackNumber).or m.tracks.1, (lastNumber l .TrackTotal).or m.tracks.2),
     ((lastNumber l .DiscNumber).or m.discs.1, (lastNumber l .DiscTotal).or m.discs.2)⟩ := by
  induction l generalizing m with
  | nil => simp [lastNumber]
  | cons i l ih =>
    rw [List.foldl_cons, ih, mergeItem_eq, lastNumber_cons, lastNumber_cons, lastNumber_cons, lastNumber_cons,
      List.filterMap_cons]
    simp only
    cases atomOf i <;> simp

/-- What a generic tag becomes. -/
theorem mergeIlst_eq (a : Ilst.Tag) (t : Tag) : mergeIlst a t =
    a ++ t.items.filterMap atomOf ++ coverAtom t.pictures ++
      intPair trkn (lastNumber t.items .TrackNumber, lastNumber t.items .TrackTotal) ++
      intPair disk (lastNumber t.items .DiscNumber, lastNumber t.items .DiscTotal) := by
  unfold mergeIlst
  rw [mergeItems_eq]
  simp

/-! ## Splitting them again -/

theorem splitAtoms_append (l m : Ilst.Tag) (t : Tag) :
    splitAtoms (l ++ m) t = ((splitAtoms l t).1 ++ (splitAtoms m (splitAtoms l t).2).1, (splitAtoms m (splitAtoms l t).2).2) := by
  induction l generalizing t with
  | nil => rfl
  | cons a l ih => simp only [List.cons_append, splitAtoms, ih, List.append_assoc]

theorem splitAtom_mapped {a : Atom} {k : ItemKey} (h : mappingOf a.ident = .mapped k) (t : Tag) :
    splitAtom a t = ((restore a.data (splitValuesOf a.ident (.mapped k) a.data.toList t).1).map fun s => { a with data := s },
      (splitValuesOf a.ident (.mapped k) a.data.toList t).2) := by
  unfold splitAtom; rw [h]

theorem splitAtom_covr (s : Storage) (t : Tag) :
    splitAtom ⟨covr, s⟩ t = ((restore s (splitValuesOf covr .picture s.toList t).1).map fun s => ⟨covr, s⟩,
      (splitValuesOf covr .picture s.toList t).2) := by
  unfold splitAtom; rw [mapping_covr]

/-- What is left of an item after it has become an atom: the text, the flag as `1` or `0`; the numbers and the rating
are treated on their own. -/
def ilstKept (i : TagItem) : Option TagItem :=
  if supports .mp4Ilst i.key = true ∧ i.key ∉ ilstNumbers ∧ i.key ≠ .ParentalAdvisory then
    i.value.textOf.bind fun s =>
      if i.key ∈ ilstFlags then (flagItem s).map fun b => TagItem.new i.key (.text (flagText b))
      else some (TagItem.new (readAs .mp4Ilst i.key) (.text s))
  else none

/-- The rating atoms stay behind. -/
def ratingAtom (n : Nat) : Atom := ⟨rtng, .single (.signed (Int32.ofNat n))⟩

/-- The ratings that an item stands for. -/
def itemRating (i : TagItem) : Option Nat := (textUnder .ParentalAdvisory i).bind ratingText

theorem split_atomOf (i : TagItem) (t : Tag) :
    splitAtoms (atomOf i).toList t = (((itemRating i).map ratingAtom).toList, { t with items := t.items ++ (ilstKept i).toList }) := by
  obtain ⟨lang, descr, key, value⟩ := i
  have hT := ident_table key key.mem_all
  unfold itemRating textUnder
  cases hv : value.textOf with
  | none =>
    unfold atomOf ilstKept
    simp only [hv]
    cases identOfKey key <;> simp [splitAtoms]
  | some s =>
    cases hi : identOfKey key with
    | none =>
      have hs : supports .mp4Ilst key = false := by rw [← ident_some, hi]; rfl
      have hr : key ≠ .ParentalAdvisory := by
        intro he; rw [hT.2.2.1 (Or.inr (Or.inr he))] at hs; cases hs
      unfold atomOf ilstKept
      simp [hi, hs, hr, splitAtoms]
    | some id =>
      have hs : supports .mp4Ilst key = true := by rw [← ident_some, hi]; rfl
      have hm := mapping_ident hi
      unfold atomOf ilstKept dataOf
      simp only [hi, hv, Option.bind_some, hs, true_and]
      by_cases h1 : key ∈ ilstNumbers
      · have hr : key ≠ .ParentalAdvisory := by rintro rfl; exact absurd h1 (by decide)
        simp [h1, hr, splitAtoms]
      · rw [if_neg h1]
        by_cases h2 : key ∈ ilstFlags
        · have hr : key ≠ .ParentalAdvisory := by rintro rfl; exact absurd h2 (by decide)
          rw [if_pos h2, if_neg hr, if_pos ⟨h1, hr⟩, if_pos h2]
          cases flagItem s with
          | none => simp [splitAtoms]
          | some b =>
            have hk := hT.2.2.2.1 (Or.inl h2)
            rw [hk] at hm
            simp only [Option.map_some, Option.toList_some, splitAtoms, Option.bind_none, Option.map_none]
            rw [splitAtom_mapped (a := ⟨id, .single (.bool b)⟩) hm]
            simp [splitValuesOf, splitData, Storage.toList, restore, pushMapped, Tag.pushUnchecked]
        · rw [if_neg h2]
          by_cases h3 : key = .ParentalAdvisory
          · rw [if_pos h3, if_pos h3, if_neg (fun h => h.2 h3)]
            have hid : id = rtng := by
              have := hT.1.mpr h3
              rw [hi] at this; exact Option.some.inj this
            subst hid
            simp only [Option.bind_some]
            cases ratingText s with
            | none => simp [splitAtoms]
            | some n =>
              simp only [Option.map_some, Option.toList_some, splitAtoms]
              rw [splitAtom_mapped (a := ⟨rtng, .single (.signed (Int32.ofNat n))⟩) mapping_rtng]
              simp [splitValuesOf, splitData, Storage.toList, restore, ratingAtom]
          · rw [if_neg h3, if_neg h3, if_pos ⟨h1, h3⟩, if_neg h2]
            simp only [Option.map_some, Option.toList_some, splitAtoms, Option.bind_none, Option.map_none]
            rw [splitAtom_mapped (a := ⟨id, .single (.utf8 s)⟩) hm]
            simp [splitValuesOf, splitData, Storage.toList, restore, pushMapped, Tag.pushUnchecked]

theorem split_items (l : List TagItem) (t : Tag) :
    splitAtoms (l.filterMap atomOf) t = ((ratings l).map ratingAtom, { t with items := t.items ++ l.filterMap ilstKept }) := by
  induction l generalizing t with
  | nil => simp [splitAtoms, ratings]
  | cons i l ih =>
    have h : (i :: l).filterMap atomOf = (atomOf i).toList ++ l.filterMap atomOf := by
      rw [List.filterMap_cons]; cases atomOf i <;> rfl
    rw [h, splitAtoms_append, split_atomOf, ih]
    have h2 : ratings (i :: l) = (itemRating i).toList ++ ratings l := by
      unfold ratings itemRating; rw [List.filterMap_cons]; cases (textUnder .ParentalAdvisory i).bind ratingText <;> rfl
    have h3 : (i :: l).filterMap ilstKept = (ilstKept i).toList ++ l.filterMap ilstKept := by
      rw [List.filterMap_cons]; cases ilstKept i <;> rfl
    rw [h2, h3]
    cases itemRating i <;> simp

/-- A picture without a type of its own. -/
def untyped (p : Picture.Pic) : Picture.Pic := { p with ty := .other }

theorem split_covers (l : List Picture.Pic) (t : Tag) :
    splitValuesOf covr .picture (l.map fun p => .picture (untyped p)) t = ([], { t with pictures := t.pictures ++ l.map untyped }) := by
  induction l generalizing t with
  | nil => simp [splitValuesOf]
  | cons p l ih => simp [splitValuesOf, splitData, ih, pushCover, Tag.pushPicture]

theorem coverAtom_eq (p : Picture.Pic) (l : List Picture.Pic) :
    ∃ s, coverAtom (p :: l) = [⟨covr, s⟩] ∧ s.toList = (p :: l).map fun p => .picture (untyped p) := by
  refine ⟨_, rfl, ?_⟩
  have : ∀ (l : List Picture.Pic) (s : Storage), (l.foldl (fun s q => s.push (.picture { q with ty := .other })) s).toList =
      s.toList ++ l.map fun p => .picture (untyped p) := by
    intro l
    induction l with
    | nil => intro s; simp
    | cons q l ih => intro s; rw [List.foldl_cons, ih, Ilst.push_toList]; simp [untyped]
  rw [this]
  rfl

theorem split_cover (l : List Picture.Pic) (t : Tag) :
    splitAtoms (coverAtom l) t = ([], { t with pictures := t.pictures ++ l.map untyped }) := by
  cases l with
  | nil => simp [coverAtom, splitAtoms]
  | cons p l =>
    obtain ⟨s, h1, h2⟩ := coverAtom_eq p l
    rw [h1]
    simp only [splitAtoms]
    rw [splitAtom_covr, h2, split_covers]
    cases s <;> simp [restore]

/-- A number above zero as an item. -/
def numberItem (k : ItemKey) (n : Option Nat) : List TagItem :=
  match n with
  | some (n + 1) => [TagItem.new k (.text (toDec (n + 1)))]
  | _ => []

theorem insertPositive_eq {t : Tag} {k : ItemKey} (n : Option Nat) (ht : t.type = .mp4Ilst) (hk : supports .mp4Ilst k = true)
    (hn : ∀ i ∈ t.items, i.key ≠ k) : insertPositive t k (n.getD 0) = { t with items := t.items ++ numberItem k n } := by
  unfold insertPositive numberItem
  match n with
  | none => simp
  | some 0 => simp
  | some (n + 1) =>
    have hf : t.items.filter (fun j => decide (j.key ≠ k)) = t.items := List.filter_eq_self.mpr (by simpa using hn)
    simp only [Option.getD_some, Nat.succ_pos, if_true, Tag.insertText, Tag.insert]
    rw [if_pos (by rw [ht]; exact hk)]
    simp only [Tag.insertUnchecked]
    have : (TagItem.new k (.text (toDec (n + 1)))).key = k := rfl
    rw [this, hf]

theorem numberItem_key {k : ItemKey} {n : Option Nat} {i : TagItem} (h : i ∈ numberItem k n) : i.key = k := by
  unfold numberItem at h
  split at h
  · simp only [List.mem_singleton] at h; rw [h]; rfl
  · cases h

theorem pairBytes {a b : Nat} (ha : a < 2 ^ 16) (hb : b < 2 ^ 16) :
    let d : Bytes := [0, 0] ++ beBytes 2 a ++ beBytes 2 b ++ [0, 0]
    d.length = 8 ∧ fromBE ((d.drop 2).take 2) = a ∧ fromBE ((d.drop 4).take 2) = b := by
  have l1 := beBytes_length 2 a
  have l2 := beBytes_length 2 b
  refine ⟨by simp [l1, l2], ?_, ?_⟩
  · have : (([0, 0] ++ beBytes 2 a ++ beBytes 2 b ++ [0, 0] : Bytes).drop 2).take 2 = beBytes 2 a := by
      rw [List.append_assoc, List.append_assoc]
      show ((beBytes 2 a ++ (beBytes 2 b ++ [0, 0])).take 2) = _
      rw [List.take_left' l1]
    rw [this, fromBE_beBytes_of_lt ha]
  · have : (([0, 0] ++ beBytes 2 a ++ beBytes 2 b ++ [0, 0] : Bytes).drop 4).take 2 = beBytes 2 b := by
      rw [List.append_assoc, List.append_assoc]
      show (((beBytes 2 a ++ (beBytes 2 b ++ [0, 0])).drop 2).take 2) = _
      rw [List.drop_left' l1, List.take_left' l2]
    rw [this, fromBE_beBytes_of_lt hb]

theorem split_pair {i : Ident} {ka kb m : ItemKey} (hp : pairOf i = some (ka, kb)) (hm : mappingOf i = .mapped m)
    {x y : Option Nat} (hx : ∀ n, x = some n → n < 2 ^ 16) (hy : ∀ n, y = some n → n < 2 ^ 16) (t : Tag) :
    splitAtoms (intPair i (x, y)) t = ([], insertPositive (insertPositive t ka (x.getD 0)) kb (y.getD 0)) := by
  by_cases h0 : x = none ∧ y = none
  · rw [h0.1, h0.2]; simp [intPair, splitAtoms, insertPositive]
  · have hxa : x.getD 0 < 2 ^ 16 := by
      cases x with
      | none => exact Nat.two_pow_pos 16
      | some n => exact hx n rfl
    have hya : y.getD 0 < 2 ^ 16 := by
      cases y with
      | none => exact Nat.two_pow_pos 16
      | some n => exact hy n rfl
    have hi : intPair i (x, y) = [⟨i, .single (.unknown 0 ([0, 0] ++ beBytes 2 (x.getD 0) ++ beBytes 2 (y.getD 0) ++ [0, 0]))⟩] := by
      unfold intPair
      cases x with
      | some n => rfl
      | none =>
        cases y with
        | some n => rfl
        | none => exact absurd ⟨rfl, rfl⟩ h0
    obtain ⟨h1, h2, h3⟩ := pairBytes hxa hya
    generalize ([0, 0] ++ beBytes 2 (x.getD 0) ++ beBytes 2 (y.getD 0) ++ [0, 0] : Bytes) = d at hi h1 h2 h3
    rw [hi]
    simp only [splitAtoms]
    rw [splitAtom_mapped (a := ⟨i, .single (.unknown 0 d)⟩) hm]
    simp [splitValuesOf, splitData, Storage.toList, restore, hp, h1, h2, h3]

theorem ratingOf_le {b n : Nat} (h : Ilst.ratingOf b = some n) : n ≤ 2 := by
  unfold Ilst.ratingOf at h
  split at h
  · cases h; decide
  · split at h
    · cases h; decide
    · split at h
      · cases h; decide
      · cases h

theorem ratings_le {l : List TagItem} {n : Nat} (h : n ∈ ratings l) : n ≤ 2 := by
  unfold ratings at h
  rw [List.mem_filterMap] at h
  obtain ⟨i, -, hi⟩ := h
  cases ht : textUnder .ParentalAdvisory i with
  | none => rw [ht] at hi; cases hi
  | some s =>
    rw [ht, Option.bind_some] at hi
    unfold ratingText at hi
    cases hp : parseUInt (2 ^ 8) s with
    | none => rw [hp] at hi; cases hi
    | some b => rw [hp] at hi; exact ratingOf_le hi

theorem rating_atoms {l : List Nat} (h : ∀ n ∈ l, n ≤ 2) : Ilst.rating (l.map ratingAtom) = l.head? ∧
    (Ilst.remove (l.map ratingAtom) rtng).2 = [] := by
  constructor
  · cases l with
    | nil => rfl
    | cons n l =>
      have hn := h n (by simp)
      have : n = 0 ∨ n = 1 ∨ n = 2 := by omega
      have hg : Ilst.get ((n :: l).map ratingAtom) rtng = some (ratingAtom n) := by
        simp [Ilst.get, ratingAtom]
      unfold Ilst.rating
      rw [hg]
      rcases this with rfl | rfl | rfl <;> rfl
  · have := (Ilst.remove_spec (l.map ratingAtom) rtng).2.1
    have hf : (l.map ratingAtom).filter (fun a => !decide (a.ident = rtng)) = [] := by
      rw [List.filter_eq_nil_iff]
      intro a ha
      rw [List.mem_map] at ha
      obtain ⟨n, -, rfl⟩ := ha
      simp [ratingAtom]
    rw [hf] at this
    exact this.eq_nil

theorem lastNumber_lt {l : List TagItem} {k : ItemKey} {n : Nat} (h : lastNumber l k = some n) : n < 2 ^ 16 := by
  have := List.mem_of_getLast? h
  rw [List.mem_filterMap] at this
  obtain ⟨i, -, hi⟩ := this
  cases ht : textUnder k i with
  | none => rw [ht] at hi; cases hi
  | some s => rw [ht] at hi; exact parseUInt_lt (Nat.two_pow_pos 16) hi

theorem ilstKept_key {i j : TagItem} (h : ilstKept i = some j) : j.key = readAs .mp4Ilst i.key ∧ j.key ∉ ilstNumbers ∧ j.key ≠ .ParentalAdvisory := by
  unfold ilstKept at h
  split at h
  · rename_i hc
    have hT := ident_table i.key i.key.mem_all
    cases hv : i.value.textOf with
    | none => rw [hv] at h; cases h
    | some s =>
      rw [hv, Option.bind_some] at h
      split at h
      · rename_i hf
        cases hb : flagItem s with
        | none => rw [hb] at h; cases h
        | some b =>
          rw [hb, Option.map_some] at h
          obtain rfl := Option.some.inj h
          exact ⟨(hT.2.2.2.1 (Or.inl hf)).symm, hc.2.1, hc.2.2⟩
      · obtain rfl := Option.some.inj h
        exact ⟨rfl, (hT.2.1 hc.2.1).2, hT.2.2.2.2 hc.2.2⟩
  · cases h

/-- **C51.** A generic tag that goes through MP4 keeps the texts of every key that MP4 knows, flags as `1` or `0`, the
last number of each kind that is above zero and fits in 16 bits, the first advisory rating, and all pictures without
their types.  Nothing else is kept, and nothing is added. -/
theorem ilst_rt (p : Bool) (t : Tag) :
    let w := ofIlst p (toIlst p ⟨t, none⟩)
    w.tag.items = t.items.filterMap ilstKept ++ numberItem .TrackNumber (lastNumber t.items .TrackNumber) ++
      numberItem .TrackTotal (lastNumber t.items .TrackTotal) ++ numberItem .DiscNumber (lastNumber t.items .DiscNumber) ++
      numberItem .DiscTotal (lastNumber t.items .DiscTotal) ++ optItem .ParentalAdvisory ((ratings t.items).head?.map toDec) ∧
    w.tag.pictures = t.pictures.map untyped ∧ w.tag.type = .mp4Ilst ∧ w.companion = none := by
  have ht : toIlst p ⟨t, none⟩ = mergeIlst [] t := by unfold toIlst; cases p <;> rfl
  simp only
  rw [ht, mergeIlst_eq]
  have hK : ∀ i ∈ t.items.filterMap ilstKept, i.key ∉ ilstNumbers ∧ i.key ≠ .ParentalAdvisory := by
    intro i hi
    rw [List.mem_filterMap] at hi
    obtain ⟨j, -, hj⟩ := hi
    exact (ilstKept_key hj).2
  have hS : ∀ k ∈ ilstNumbers, supports .mp4Ilst k = true := fun k hk => (ident_table k k.mem_all).2.2.1 (Or.inl hk)
  have hlast : ∀ k n, lastNumber t.items k = some n → n < 2 ^ 16 := fun k n h => lastNumber_lt h
  -- the atoms
  have hsplit : splitAtoms ([] ++ t.items.filterMap atomOf ++ coverAtom t.pictures ++
      intPair trkn (lastNumber t.items .TrackNumber, lastNumber t.items .TrackTotal) ++
      intPair disk (lastNumber t.items .DiscNumber, lastNumber t.items .DiscTotal)) (Tag.new .mp4Ilst) =
      ((ratings t.items).map ratingAtom, ⟨.mp4Ilst, t.pictures.map untyped,
        t.items.filterMap ilstKept ++ numberItem .TrackNumber (lastNumber t.items .TrackNumber) ++
        numberItem .TrackTotal (lastNumber t.items .TrackTotal) ++ numberItem .DiscNumber (lastNumber t.items .DiscNumber) ++
        numberItem .DiscTotal (lastNumber t.items .DiscTotal), false⟩) := by
    rw [List.nil_append, splitAtoms_append, splitAtoms_append, splitAtoms_append, split_items]
    simp only
    rw [split_cover]
    simp only
    rw [split_pair (ka := .TrackNumber) (kb := .TrackTotal) (by decide) mapping_trkn (hlast _) (hlast _)]
    simp only
    rw [split_pair (ka := .DiscNumber) (kb := .DiscTotal) (by decide) mapping_disk (hlast _) (hlast _)]
    have e1 := insertPositive_eq (t := ⟨.mp4Ilst, t.pictures.map untyped, t.items.filterMap ilstKept, false⟩)
      (k := .TrackNumber) (lastNumber t.items .TrackNumber) rfl (hS _ (by decide)) (by
        intro i hi he; exact (hK i hi).1 (he ▸ by decide))
    have e2 := insertPositive_eq (t := ⟨.mp4Ilst, t.pictures.map untyped, t.items.filterMap ilstKept ++
        numberItem .TrackNumber (lastNumber t.items .TrackNumber), false⟩)
      (k := .TrackTotal) (lastNumber t.items .TrackTotal) rfl (hS _ (by decide)) (by
        intro i hi he
        rcases List.mem_append.mp hi with h | h
        · exact (hK i h).1 (he ▸ by decide)
        · rw [numberItem_key h] at he; cases he)
    have e3 := insertPositive_eq (t := ⟨.mp4Ilst, t.pictures.map untyped, t.items.filterMap ilstKept ++
        numberItem .TrackNumber (lastNumber t.items .TrackNumber) ++ numberItem .TrackTotal (lastNumber t.items .TrackTotal), false⟩)
      (k := .DiscNumber) (lastNumber t.items .DiscNumber) rfl (hS _ (by decide)) (by
        intro i hi he
        rcases List.mem_append.mp hi with h | h
        · rcases List.mem_append.mp h with h | h
          · exact (hK i h).1 (he ▸ by decide)
          · rw [numberItem_key h] at he; cases he
        · rw [numberItem_key h] at he; cases he)
    have e4 := insertPositive_eq (t := ⟨.mp4Ilst, t.pictures.map untyped, t.items.filterMap ilstKept ++
        numberItem .TrackNumber (lastNumber t.items .TrackNumber) ++ numberItem .TrackTotal (lastNumber t.items .TrackTotal) ++
        numberItem .DiscNumber (lastNumber t.items .DiscNumber), false⟩)
      (k := .DiscTotal) (lastNumber t.items .DiscTotal) rfl (hS _ (by decide)) (by
        intro i hi he
        rcases List.mem_append.mp hi with h | h
        · rcases List.mem_append.mp h with h | h
          · rcases List.mem_append.mp h with h | h
            · exact (hK i h).1 (he ▸ by decide)
            · rw [numberItem_key h] at he; cases he
          · rw [numberItem_key h] at he; cases he
        · rw [numberItem_key h] at he; cases he)
    simp only [Tag.new, List.nil_append] at *
    rw [e1, e2, e3, e4]
    simp
  unfold ofIlst splitIlst
  rw [hsplit]
  simp only
  have hr := rating_atoms (l := ratings t.items) (fun n hn => ratings_le hn)
  unfold splitRating
  rw [hr.1, hr.2]
  cases hh : (ratings t.items).head? with
  | none =>
    have : ratings t.items = [] := by
      cases hl : ratings t.items with
      | nil => rfl
      | cons a l => rw [hl] at hh; cases hh
    rw [this]
    simp [optItem]
  | some n =>
    have hn : ∀ i ∈ t.items.filterMap ilstKept ++ numberItem .TrackNumber (lastNumber t.items .TrackNumber) ++
        numberItem .TrackTotal (lastNumber t.items .TrackTotal) ++ numberItem .DiscNumber (lastNumber t.items .DiscNumber) ++
        numberItem .DiscTotal (lastNumber t.items .DiscTotal), i.key ≠ .ParentalAdvisory := by
      intro i hi he
      simp only [List.mem_append] at hi
      rcases hi with (((h | h) | h) | h) | h
      · exact (hK i h).2 he
      all_goals (rw [numberItem_key h] at he; cases he)
    simp only [Tag.insertText, Tag.insert]
    have hsup : supports .mp4Ilst (TagItem.new .ParentalAdvisory (.text (toDec n))).key = true :=
      (ident_table .ParentalAdvisory ItemKey.ParentalAdvisory.mem_all).2.2.1 (Or.inr (Or.inr rfl))
    rw [if_pos hsup]
    simp only [Tag.insertUnchecked]
    have hk : (TagItem.new .ParentalAdvisory (.text (toDec n))).key = .ParentalAdvisory := rfl
    rw [hk, List.filter_eq_self.mpr (by simpa using hn)]
    simp [optItem]

end Lofty.Convert
