import Verif.Props.ConvertIlstSplit
/-!
# MP4 tags that go through a generic tag: what is the same afterwards (C52)
-/
namespace Lofty.Convert
open Lofty.Item
open Lofty.Mp4 (Ident)
open Lofty.Ilst (Atom Data Storage covr trkn disk rtng)

theorem valuesOf_through {β : Type} (pr : Bool) (a : Ilst.Tag) (p : Ident → Bool) (g : Ident → Data → Option β) :
    valuesOf (throughTag pr a) p g = valuesOf (remainder pr a) p g ++
      valuesOf ((splitIlst a).2.items.filterMap atomOf) p g ++ valuesOf (coverAtom (splitIlst a).2.pictures) p g ++
      valuesOf (intPair trkn (lastNumber (splitIlst a).2.items .TrackNumber, lastNumber (splitIlst a).2.items .TrackTotal)) p g ++
      valuesOf (intPair disk (lastNumber (splitIlst a).2.items .DiscNumber, lastNumber (splitIlst a).2.items .DiscTotal)) p g := by
  rw [throughTag_eq, mergeIlst_eq]
  simp only [valuesOf_append]

theorem textData_pair (x y : Nat) : textData (pairValue x y) = none := rfl

theorem textsUnder_remainder (pr : Bool) (a : Ilst.Tag) (k : ItemKey) : textsUnder (remainder pr a) k = [] := by
  unfold textsUnder
  refine remainder_none pr a _ _ ?_
  intro i d hp
  simp only [decide_eq_true_eq] at hp
  refine ⟨by rw [hp]; simp, ?_⟩
  intro hs
  cases d <;> first | rfl | cases hs

theorem textsUnder_through (pr : Bool) (a : Ilst.Tag) (k : ItemKey) :
    textsUnder (throughTag pr a) k = textsUnder ((splitIlst a).2.items.filterMap atomOf) k := by
  have h0 := textsUnder_remainder pr a k
  unfold textsUnder at h0 ⊢
  rw [valuesOf_through, h0, valuesOf_cover, valuesOf_pair, valuesOf_pair]
  simp only [textData_pair, Option.toList_none, ite_self, List.append_nil, List.nil_append]
  split
  · have : (splitIlst a).2.pictures.filterMap (fun q => textData (.picture (untyped q))) = [] := by
      rw [List.filterMap_eq_nil_iff]; intro _ _; rfl
    rw [this, List.append_nil]
  · rw [List.append_nil]

/-- The texts of the new atoms. -/
theorem textsUnder_atoms {l : List TagItem} (hl : ∀ i ∈ l, Made i) {k : ItemKey} (hk : k ∉ ilstNumbers) :
    textsUnder (l.filterMap atomOf) k = (l.filterMap fun i => if i.key = k then i.value.textOf else none).filterMap
      fun s => (dataOf k s).bind textData := by
  unfold textsUnder
  rw [valuesOf_atoms, List.filterMap_filterMap]
  apply filterMap_congr'
  intro i hi
  obtain ⟨k', s, rfl, hs, hr⟩ := hl i hi
  have hid : ∃ id, identOfKey k' = some id := by
    rw [← Option.isSome_iff_exists, ident_some]; exact hs
  obtain ⟨id, hid⟩ := hid
  have e1 : (TagItem.new k' (.text s)).key = k' := rfl
  have e2 : (TagItem.new k' (.text s)).value.textOf = some s := rfl
  rw [e1, e2, hid]
  simp only [Option.bind_some]
  by_cases h : k' = k
  · subst h
    rw [if_pos rfl, Option.bind_some]
    have hm := mapping_ident hid
    rw [hr hk] at hm
    simp only [hm, decide_true, if_true]
  · rw [if_neg h]
    by_cases hn : k' ∈ ilstNumbers
    · unfold dataOf; rw [if_pos hn]; rfl
    · have hm := mapping_ident hid
      rw [hr hn] at hm
      have : ¬ decide (mappingOf id = .mapped k) = true := by
        rw [hm]; simpa using h
      simp only [if_neg this]
      cases dataOf k' s <;> rfl

/-- **C52.** Whatever MP4 tag is given: for every generic key that is stored as a text, its atoms have the same texts
afterwards, in the same order. -/
theorem split_text (pr : Bool) (a : Ilst.Tag) {k : ItemKey} (h1 : k ∉ ilstNumbers) (h2 : k ∉ ilstFlags) (h3 : k ≠ .ParentalAdvisory) :
    textsUnder (throughTag pr a) k = textsUnder a k := by
  obtain ⟨g1, g2, -⟩ := splitIlst_snd a
  rw [textsUnder_through, textsUnder_atoms g1.2 h1, ← g2 k h1 h3]
  unfold Tag.getStrings
  have : (fun s => (dataOf k s).bind textData) = some := by
    funext s; unfold dataOf; rw [if_neg h1, if_neg h2, if_neg h3]; rfl
  rw [this, List.filterMap_some]

/-- **C52.** Of the atoms of a flag the flags are the same afterwards; other texts than flags are dropped. -/
theorem split_flag (pr : Bool) (a : Ilst.Tag) {k : ItemKey} (hk : k ∈ ilstFlags) :
    textsUnder (throughTag pr a) k = (textsUnder a k).filterMap fun s => (flagItem s).map flagText := by
  have h1 : k ∉ ilstNumbers ∧ k ≠ .ParentalAdvisory := by
    simp only [ilstFlags, List.mem_cons, List.not_mem_nil, or_false] at hk
    rcases hk with rfl | rfl <;> decide
  obtain ⟨g1, g2, -⟩ := splitIlst_snd a
  rw [textsUnder_through, textsUnder_atoms g1.2 h1.1, ← g2 k h1.1 h1.2]
  unfold Tag.getStrings
  have : (fun s => (dataOf k s).bind textData) = fun s => (flagItem s).map flagText := by
    funext s; unfold dataOf; rw [if_neg h1.1, if_pos hk]; cases flagItem s <;> rfl
  rw [this]

/-- The atoms that no generic key stands for. -/
def foreignAtoms (a : Ilst.Tag) : Ilst.Tag := a.filter fun x => decide (mappingOf x.ident = .kept)

theorem foreign_residue (a : Ilst.Tag) : foreignAtoms (a.filterMap residue) = foreignAtoms a := by
  unfold foreignAtoms
  induction a with
  | nil => rfl
  | cons x a ih =>
    rw [List.filterMap_cons, List.filter_cons]
    by_cases h : mappingOf x.ident = .kept
    · have : residue x = some x := by unfold residue; rw [if_pos h]
      rw [this]
      simp only
      rw [List.filter_cons, if_pos (by simpa using h), if_pos (by simpa using h), ih]
    · rw [if_neg (by simpa using h)]
      cases hr : residue x with
      | none => exact ih
      | some y =>
        simp only
        rw [List.filter_cons, if_neg (by rw [(residue_spec hr).1]; simpa using h), ih]

theorem foreign_new (t : Tag) (x y : Option Nat × Option Nat) :
    foreignAtoms (t.items.filterMap atomOf ++ coverAtom t.pictures ++ intPair trkn x ++ intPair disk y) = [] := by
  unfold foreignAtoms
  rw [List.filter_eq_nil_iff]
  intro b hb
  have pair : ∀ (i : Ident) (z : Option Nat × Option Nat), b ∈ intPair i z → b.ident = i := by
    intro i z h
    unfold intPair at h
    split at h
    · cases h
    · simp only [List.mem_singleton] at h; rw [h]
  simp only [List.mem_append] at hb
  simp only [decide_eq_true_eq]
  rcases hb with ((h | h) | h) | h
  · rw [List.mem_filterMap] at h
    obtain ⟨i, -, hi⟩ := h
    unfold atomOf at hi
    cases hid : identOfKey i.key with
    | none => rw [hid] at hi; cases hi
    | some id =>
      rw [hid] at hi
      simp only [Option.bind_some, Option.bind_eq_some_iff, Option.map_eq_some_iff] at hi
      obtain ⟨s, -, d, -, rfl⟩ := hi
      rw [mapping_ident hid]; simp
  · cases hp : t.pictures with
    | nil => rw [hp] at h; cases h
    | cons p l =>
      rw [hp] at h
      obtain ⟨s, h1, -⟩ := coverAtom_eq p l
      rw [h1, List.mem_singleton] at h
      rw [h, mapping_covr]; simp
  · rw [pair _ _ h, mapping_trkn]; simp
  · rw [pair _ _ h, mapping_disk]; simp

/-- **C52.** The atoms that no generic key stands for are the same afterwards, unless the user asked not to preserve
them. -/
theorem split_foreign (a : Ilst.Tag) :
    (foreignAtoms (throughTag true a)).Perm (foreignAtoms a) ∧ foreignAtoms (throughTag false a) = [] := by
  have hap : ∀ l m, foreignAtoms (l ++ m) = foreignAtoms l ++ foreignAtoms m := fun l m => List.filter_append ..
  constructor
  · rw [throughTag_eq, mergeIlst_eq]
    simp only [List.append_assoc]
    rw [hap]
    have h := foreign_new (splitIlst a).2 (lastNumber (splitIlst a).2.items .TrackNumber, lastNumber (splitIlst a).2.items .TrackTotal)
      (lastNumber (splitIlst a).2.items .DiscNumber, lastNumber (splitIlst a).2.items .DiscTotal)
    simp only [List.append_assoc] at h
    rw [h, List.append_nil]
    unfold remainder
    simp only [if_true]
    rw [splitIlst_fst, ← foreign_residue a]
    cases Ilst.rating (a.filterMap residue) with
    | none => exact List.Perm.refl _
    | some n =>
      simp only
      generalize a.filterMap residue = l
      refine ((Ilst.remove_spec l rtng).2.1.filter _).trans ?_
      rw [List.filter_filter]
      unfold foreignAtoms
      have : l.filter (fun x => decide (mappingOf x.ident = .kept) && !decide (x.ident = rtng)) =
          l.filter (fun x => decide (mappingOf x.ident = .kept)) := by
        apply List.filter_congr
        intro x _
        by_cases hx : x.ident = rtng
        · rw [hx, mapping_rtng]; simp
        · simp [hx]
      rw [this]
  · rw [throughTag_eq, mergeIlst_eq]
    have h := foreign_new (splitIlst a).2 (lastNumber (splitIlst a).2.items .TrackNumber, lastNumber (splitIlst a).2.items .TrackTotal)
      (lastNumber (splitIlst a).2.items .DiscNumber, lastNumber (splitIlst a).2.items .DiscTotal)
    unfold remainder
    simpa using h

/-- **C52.** All pictures of the `covr` atoms are the same afterwards, but for their type, which MP4 does not store. -/
theorem split_covers_same (pr : Bool) (a : Ilst.Tag) : coversOf (throughTag pr a) = (coversOf a).map untyped := by
  obtain ⟨g1, -, g3, -⟩ := splitIlst_snd a
  unfold coversOf at g3 ⊢
  have h0 : valuesOf (remainder pr a) (fun i => decide (i = covr)) (fun _ => pictureIn) = [] := by
    refine remainder_none pr a _ _ ?_
    intro i d hp
    simp only [decide_eq_true_eq] at hp
    refine ⟨by rw [hp, mapping_covr]; simp, ?_⟩
    intro hs
    cases d <;> first | rfl | cases hs
  have h1 : valuesOf ((splitIlst a).2.items.filterMap atomOf) (fun i => decide (i = covr)) (fun _ => pictureIn) = [] := by
    rw [valuesOf_atoms, List.filterMap_eq_nil_iff]
    intro i _
    cases hid : identOfKey i.key with
    | none => rfl
    | some id =>
      have : ¬ decide (id = covr) = true := by
        simp only [decide_eq_true_eq]
        intro h
        have := mapping_ident hid
        rw [h, mapping_covr] at this; cases this
      simp only [Option.bind_some, if_neg this]
      cases i.value.textOf with
      | none => rfl
      | some s => rw [Option.bind_some]; cases dataOf i.key s <;> rfl
  rw [valuesOf_through, h0, h1, valuesOf_cover, valuesOf_pair, valuesOf_pair, g3]
  have ht : ¬ trkn = covr := by decide
  have hd : ¬ disk = covr := by decide
  simp only [ht, hd, decide_true, decide_false, if_true, and_false, List.append_nil, List.nil_append, Bool.false_eq_true, if_false]
  generalize valuesOf a (fun i => decide (i = covr)) (fun _ => pictureIn) = l
  induction l with
  | nil => rfl
  | cons p l ih => rw [List.filterMap_cons, ih]; rfl

/-- The values of an atom that have no place in a generic tag. -/
def rawUnder (a : Ilst.Tag) (i : Ident) : List Data := valuesOf a (fun j => decide (j = i)) fun j d => if stays j d then some d else none

theorem dataOf_stays {k : ItemKey} {s : Str} {d : Data} (h : dataOf k s = some d) (hk : k ≠ .ParentalAdvisory) (i : Ident) : stays i d = false := by
  unfold dataOf at h
  split at h
  · cases h
  · split at h
    · cases hf : flagItem s with
      | none => rw [hf] at h; cases h
      | some b => rw [hf] at h; cases h; rfl
    · simp only [if_neg hk, Option.some.injEq] at h; rw [← h]; rfl

/-- **C52.** Values that have no place in a generic tag — integers and unknown data — are the same afterwards, if they are
preserved, except for the advisory rating; otherwise they are dropped. -/
theorem split_raw (a : Ilst.Tag) {i : Ident} (hi : i ≠ rtng) :
    (rawUnder (throughTag true a) i).Perm (rawUnder a i) ∧ (mappingOf i ≠ .kept → rawUnder (throughTag false a) i = []) := by
  have hnew : ∀ pr, rawUnder (throughTag pr a) i = rawUnder (remainder pr a) i := by
    intro pr
    unfold rawUnder
    have h1 : valuesOf ((splitIlst a).2.items.filterMap atomOf) (fun j => decide (j = i)) (fun j d => if stays j d then some d else none) = [] := by
      rw [valuesOf_atoms, List.filterMap_eq_nil_iff]
      intro x _
      cases hid : identOfKey x.key with
      | none => rfl
      | some id =>
        simp only [Option.bind_some]
        cases x.value.textOf with
        | none => rfl
        | some s =>
          rw [Option.bind_some]
          cases hd : dataOf x.key s with
          | none => rfl
          | some d =>
            rw [Option.bind_some]
            by_cases hx : id = i
            · rw [if_pos (by simpa using hx)]
              have hk : x.key ≠ .ParentalAdvisory := by
                intro h
                have := (ident_table x.key x.key.mem_all).1.mpr h
                rw [hid] at this
                exact hi (hx ▸ Option.some.inj this)
              rw [dataOf_stays hd hk]; rfl
            · rw [if_neg (by simpa using hx)]
    have hp : ∀ (x y : Nat) (j : Ident), j = trkn ∨ j = disk → stays j (pairValue x y) = false := by
      intro x y j hj
      have hl : 6 ≤ ([0, 0] ++ beBytes 2 x ++ beBytes 2 y ++ [0, 0] : Bytes).length := by simp [beBytes_length]
      have hs : (pairOf j).isSome = true := by rcases hj with rfl | rfl <;> decide
      unfold pairValue stays
      rw [hs]
      simp only [Bool.and_true, Bool.not_eq_eq_eq_not, Bool.not_false, decide_eq_true_eq]
      exact ⟨trivial, hl⟩
    rw [valuesOf_through, h1, valuesOf_cover, valuesOf_pair, valuesOf_pair, hp _ _ _ (Or.inl rfl), hp _ _ _ (Or.inr rfl)]
    have hc : ((splitIlst a).2.pictures.filterMap fun q => if stays covr (.picture (untyped q)) = true then some (Data.picture (untyped q)) else none) = [] := by
      rw [List.filterMap_eq_nil_iff]; intro _ _; rfl
    simp only [hc, ite_self, List.append_nil, Bool.false_eq_true, if_false, Option.toList_none]
  rw [hnew, hnew]
  refine ⟨?_, fun _ => rfl⟩
  refine remainder_all a _ _ (by simpa using Ne.symm hi) ?_
  intro j d _ hs
  right
  rw [hs]; rfl

/-! ## Numbers -/

theorem lastNumber_strings (t : Tag) (k : ItemKey) :
    lastNumber t.items k = ((t.getStrings k).filterMap (parseUInt (2 ^ 16))).getLast? := by
  unfold lastNumber textUnder Tag.getStrings
  rw [List.filterMap_filterMap]

theorem numbersFor_lt {a : Ilst.Tag} {k : ItemKey} {n : Nat} (h : n ∈ numbersFor a k) : 0 < n ∧ n < 2 ^ 16 := by
  unfold numbersFor at h
  rw [List.mem_filter] at h
  refine ⟨by simpa using h.2, ?_⟩
  have := h.1
  unfold valuesOf at this
  rw [List.mem_flatMap] at this
  obtain ⟨x, -, hx⟩ := this
  split at hx
  · rw [List.mem_filterMap] at hx
    obtain ⟨d, -, hd⟩ := hx
    unfold numberIn at hd
    cases d with
    | unknown code data =>
      simp only at hd
      split at hd
      · rw [← Option.some.inj hd]
        have h1 := fromBE_lt ((data.drop (slot k).2).take 2)
        have h2 : ((data.drop (slot k).2).take 2).length ≤ 2 := List.length_take_le _ _
        exact Nat.lt_of_lt_of_le h1 (Nat.le_trans (Nat.pow_le_pow_right (by decide) h2) (by decide))
      · cases hd
    | _ => cases hd
  · cases hx

theorem lastNumber_split (a : Ilst.Tag) {k : ItemKey} (hk : k ∈ ilstNumbers) (h : textsUnder a k = []) :
    lastNumber (splitIlst a).2.items k = (numbersFor a k).getLast? := by
  rw [lastNumber_strings, (splitIlst_snd a).2.2.2.1 k hk h]
  cases hl : (numbersFor a k).getLast? with
  | none => rfl
  | some n =>
    have := (numbersFor_lt (List.mem_of_getLast? hl)).2
    simp [parseUInt_toDec this]

/-- The pairs of numbers under an atom. -/
def pairsUnder (a : Ilst.Tag) (i : Ident) : List (Nat × Nat) :=
  valuesOf a (fun j => decide (j = i)) fun _ d => (numberIn 2 d).bind fun x => (numberIn 4 d).map fun y => (x, y)

theorem valuesOf_map {β γ : Type} (a : Ilst.Tag) (p : Ident → Bool) (g : Ident → Data → Option β) (f : β → γ) :
    valuesOf a p (fun i d => (g i d).map f) = (valuesOf a p g).map f := by
  induction a with
  | nil => rfl
  | cons x a ih =>
    rw [valuesOf_cons, valuesOf_cons, ih, List.map_append]
    split
    · rw [List.map_filterMap]
    · rfl

theorem numberIn_both (d : Data) : (numberIn 2 d).isSome = (numberIn 4 d).isSome := by
  unfold numberIn
  cases d <;> simp
  split <;> rfl

/-- The numbers of a key are those in the pairs. -/
theorem pairs_numbers (a : Ilst.Tag) (i : Ident) :
    valuesOf a (fun j => decide (j = i)) (fun _ => numberIn 2) = (pairsUnder a i).map Prod.fst ∧
    valuesOf a (fun j => decide (j = i)) (fun _ => numberIn 4) = (pairsUnder a i).map Prod.snd := by
  unfold pairsUnder
  rw [← valuesOf_map, ← valuesOf_map]
  constructor
  · congr 1; funext _ d
    have := numberIn_both d
    cases h2 : numberIn 2 d <;> cases h4 : numberIn 4 d <;> simp [h2, h4] at this ⊢
  · congr 1; funext _ d
    have := numberIn_both d
    cases h2 : numberIn 2 d <;> cases h4 : numberIn 4 d <;> simp [h2, h4] at this ⊢

/-- The last number above zero. -/
def lastPositive (l : List Nat) : Option Nat := (l.filter fun n => decide (0 < n)).getLast?

/-- One pair of numbers, if there is a number in it. -/
def onePair : Option Nat → Option Nat → List (Nat × Nat)
  | none, none => []
  | x, y => [(x.getD 0, y.getD 0)]

theorem pairsUnder_through (pr : Bool) (a : Ilst.Tag) {i : Ident} {k k' : ItemKey} (hp : pairOf i = some (k, k'))
    (hk : textsUnder a k = []) (hk' : textsUnder a k' = []) :
    pairsUnder (throughTag pr a) i = onePair (numbersFor a k).getLast? (numbersFor a k').getLast? := by
  have hi : (i = trkn ∧ k = .TrackNumber ∧ k' = .TrackTotal) ∨ (i = disk ∧ k = .DiscNumber ∧ k' = .DiscTotal) := by
    rcases pairOf_cases i with ⟨h1, h2⟩ | ⟨h1, h2⟩ | ⟨-, -, h2⟩
    · rw [hp] at h2; cases h2; exact Or.inl ⟨h1, rfl, rfl⟩
    · rw [hp] at h2; cases h2; exact Or.inr ⟨h1, rfl, rfl⟩
    · rw [hp] at h2; cases h2
  have hne : mappingOf i ≠ .kept := by
    rcases hi with ⟨rfl, -, -⟩ | ⟨rfl, -, -⟩
    · rw [mapping_trkn]; simp
    · rw [mapping_disk]; simp
  unfold pairsUnder
  have h0 : valuesOf (remainder pr a) (fun j => decide (j = i)) (fun _ d => (numberIn 2 d).bind fun x => (numberIn 4 d).map fun y => (x, y)) = [] := by
    refine remainder_none pr a _ _ ?_
    intro j d hj
    simp only [decide_eq_true_eq] at hj
    subst hj
    refine ⟨hne, ?_⟩
    intro hs
    cases d with
    | unknown code data =>
      have : ¬ (code = 0 ∧ 6 ≤ data.length) := by
        intro hc
        unfold stays at hs
        rw [hp] at hs
        simp only [Option.isSome_some, Bool.and_true, Bool.not_eq_eq_eq_not, Bool.not_true, decide_eq_false_iff_not] at hs
        exact hs hc
      unfold numberIn
      simp only [if_neg this]; rfl
    | _ => rfl
  have h1 : valuesOf ((splitIlst a).2.items.filterMap atomOf) (fun j => decide (j = i))
      (fun _ d => (numberIn 2 d).bind fun x => (numberIn 4 d).map fun y => (x, y)) = [] := by
    rw [valuesOf_atoms, List.filterMap_eq_nil_iff]
    intro x _
    cases identOfKey x.key with
    | none => rfl
    | some id =>
      simp only [Option.bind_some]
      cases x.value.textOf with
      | none => rfl
      | some s =>
        rw [Option.bind_some]
        have hd : ∀ d, dataOf x.key s = some d → numberIn 2 d = none := by
          intro d h
          unfold dataOf at h
          split at h
          · cases h
          · split at h
            · cases hf : flagItem s with
              | none => rw [hf] at h; cases h
              | some b => rw [hf] at h; cases h; rfl
            · split at h
              · cases hf : ratingText s with
                | none => rw [hf] at h; cases h
                | some b => rw [hf] at h; cases h; rfl
              · cases h; rfl
        cases h : dataOf x.key s with
        | none => rfl
        | some d => rw [Option.bind_some, hd d h]; simp
  have hval : ∀ (x y : Option Nat), (∀ n, x = some n → n < 2 ^ 16) → (∀ n, y = some n → n < 2 ^ 16) →
      (if x.isSome = true ∨ y.isSome = true then
        ((numberIn 2 (pairValue (x.getD 0) (y.getD 0))).bind fun u => (numberIn 4 (pairValue (x.getD 0) (y.getD 0))).map fun v => (u, v)).toList
      else []) = onePair x y := by
    intro x y hx hy
    have hxa : x.getD 0 < 2 ^ 16 := by
      cases x with
      | none => exact Nat.two_pow_pos 16
      | some n => exact hx n rfl
    have hya : y.getD 0 < 2 ^ 16 := by
      cases y with
      | none => exact Nat.two_pow_pos 16
      | some n => exact hy n rfl
    obtain ⟨h1, h2, h3⟩ := pairBytes hxa hya
    unfold pairValue numberIn
    simp only
    rw [h1, h2, h3]
    cases x <;> cases y <;> simp [onePair]
  have hlt : ∀ k n, (numbersFor a k).getLast? = some n → n < 2 ^ 16 := fun k n h => (numbersFor_lt (List.mem_of_getLast? h)).2
  rw [valuesOf_through, h0, h1, valuesOf_cover, valuesOf_pair, valuesOf_pair]
  have td : ¬ trkn = disk := by decide
  have dt : ¬ disk = trkn := by decide
  have ct : ¬ covr = trkn := by decide
  have cd : ¬ covr = disk := by decide
  rcases hi with ⟨rfl, rfl, rfl⟩ | ⟨rfl, rfl, rfl⟩
  · rw [lastNumber_split a (by decide) hk, lastNumber_split a (by decide) hk']
    simp only [dt, ct, decide_true, decide_false, and_true, and_false, Bool.false_eq_true, if_false, List.append_nil, List.nil_append]
    exact hval _ _ (hlt _) (hlt _)
  · rw [lastNumber_split a (by decide) hk, lastNumber_split a (by decide) hk']
    simp only [td, cd, decide_true, decide_false, and_true, and_false, Bool.false_eq_true, if_false, List.append_nil, List.nil_append]
    exact hval _ _ (hlt _) (hlt _)

theorem no_track_text (a : Ilst.Tag) : textsUnder a .TrackNumber = [] ∧ textsUnder a .DiscNumber = [] := by
  have : ∀ k, readAs .mp4Ilst k ≠ k → textsUnder a k = [] := by
    intro k hk
    unfold textsUnder
    refine valuesOf_nil_of ?_
    intro x _ hp
    simp only [decide_eq_true_eq] at hp
    exact absurd (mapping_fixed hp).1 hk
  exact ⟨this _ (by decide), this _ (by decide)⟩

/-- **C52.** If there are only numbers under the track atoms, there is one pair of track numbers afterwards: the last
track number and the last total that were above zero. -/
theorem split_track (pr : Bool) (a : Ilst.Tag) (h : textsUnder a .TrackTotal = []) :
    pairsUnder (throughTag pr a) trkn =
      onePair (lastPositive ((pairsUnder a trkn).map Prod.fst)) (lastPositive ((pairsUnder a trkn).map Prod.snd)) := by
  rw [pairsUnder_through pr a (k := .TrackNumber) (k' := .TrackTotal) (by decide) (no_track_text a).1 h,
    ← (pairs_numbers a trkn).1, ← (pairs_numbers a trkn).2]
  rfl

/-- **C52.** The same holds for disc numbers. -/
theorem split_disc (pr : Bool) (a : Ilst.Tag) (h : textsUnder a .DiscTotal = []) :
    pairsUnder (throughTag pr a) disk =
      onePair (lastPositive ((pairsUnder a disk).map Prod.fst)) (lastPositive ((pairsUnder a disk).map Prod.snd)) := by
  rw [pairsUnder_through pr a (k := .DiscNumber) (k' := .DiscTotal) (by decide) (no_track_text a).2 h,
    ← (pairs_numbers a disk).1, ← (pairs_numbers a disk).2]
  rfl

/-- **C52.** In particular a single pair is the same afterwards, unless both numbers are zero. -/
theorem split_track_single (pr : Bool) (a : Ilst.Tag) (h : textsUnder a .TrackTotal = []) {x y : Nat}
    (hp : pairsUnder a trkn = [(x, y)]) (hxy : ¬ (x = 0 ∧ y = 0)) : pairsUnder (throughTag pr a) trkn = [(x, y)] := by
  rw [split_track pr a h, hp]
  match x, y with
  | 0, 0 => exact absurd ⟨rfl, rfl⟩ hxy
  | 0, y + 1 => simp [lastPositive, onePair]
  | x + 1, 0 => simp [lastPositive, onePair]
  | x + 1, y + 1 => simp [lastPositive, onePair]

/-! ## The advisory rating -/

theorem get_head (a : Ilst.Tag) (i : Ident) : Ilst.get a i = (a.filter fun x => decide (x.ident = i)).head? := by
  unfold Ilst.get; rw [List.head?_filter]

theorem residue_self {x : Atom} (h0 : x.data.toList ≠ []) (h : ∀ d ∈ x.data.toList, stays x.ident d = true) : residue x = some x := by
  unfold residue
  split
  · rfl
  · rw [List.filter_eq_self.mpr h]
    obtain ⟨i, s⟩ := x
    cases s with
    | single d => rfl
    | multiple l =>
      cases l with
      | nil => exact absurd rfl h0
      | cons d l => rfl

theorem rating_residue {a : Ilst.Tag}
    (h : ∀ x ∈ a, mappingOf x.ident = .mapped .ParentalAdvisory → x.data.toList ≠ [] ∧ ∀ d ∈ x.data.toList, stays x.ident d = true) :
    (a.filterMap residue).filter (fun x => decide (x.ident = rtng)) = a.filter fun x => decide (x.ident = rtng) := by
  induction a with
  | nil => rfl
  | cons x a ih =>
    have ih := ih fun y hy => h y (by simp [hy])
    rw [List.filterMap_cons, List.filter_cons]
    by_cases hx : x.ident = rtng
    · have := h x (by simp) (by rw [hx, mapping_rtng])
      rw [residue_self this.1 this.2]
      simp only
      rw [List.filter_cons, ih]
    · rw [if_neg (by simpa using hx)]
      cases hr : residue x with
      | none => exact ih
      | some y =>
        simp only
        rw [List.filter_cons, if_neg (by rw [(residue_spec hr).1]; simpa using hx), ih]

theorem rating_new (l : List TagItem) : (l.filterMap atomOf).filter (fun x => decide (x.ident = rtng)) =
    ((l.filterMap fun i => if i.key = .ParentalAdvisory then i.value.textOf else none).filterMap ratingText).map ratingAtom := by
  rw [List.filter_filterMap, List.filterMap_filterMap, List.map_filterMap]
  apply filterMap_congr'
  intro i _
  have hT := (ident_table i.key i.key.mem_all).1
  unfold atomOf
  by_cases hk : i.key = .ParentalAdvisory
  · rw [if_pos hk, hT.mpr hk]
    simp only [Option.bind_some]
    cases i.value.textOf with
    | none => rfl
    | some s =>
      simp only [Option.bind_some]
      unfold dataOf
      rw [if_neg (by rw [hk]; decide), if_neg (by rw [hk]; decide), if_pos hk]
      cases ratingText s with
      | none => rfl
      | some n => simp [Option.filter, ratingAtom]
  · rw [if_neg hk]
    cases hid : identOfKey i.key with
    | none => rfl
    | some id =>
      have hne : id ≠ rtng := by rintro rfl; exact hk (hT.mp hid)
      simp only [Option.bind_some]
      cases i.value.textOf with
      | none => rfl
      | some s =>
        simp only [Option.bind_some]
        cases dataOf i.key s with
        | none => rfl
        | some d => simp [Option.filter, hne]

theorem rating_filter (pr : Bool) (a : Ilst.Tag) : (throughTag pr a).filter (fun x => decide (x.ident = rtng)) =
    (remainder pr a).filter (fun x => decide (x.ident = rtng)) ++
      (((splitIlst a).2.getStrings .ParentalAdvisory).filterMap ratingText).map ratingAtom := by
  have pair : ∀ (i : Ident) (z : Option Nat × Option Nat), i ≠ rtng → (intPair i z).filter (fun x => decide (x.ident = rtng)) = [] := by
    intro i z hi
    unfold intPair
    split
    · rfl
    · simp [hi]
  have cov : ∀ l, (coverAtom l).filter (fun x => decide (x.ident = rtng)) = [] := by
    intro l
    cases l with
    | nil => rfl
    | cons p l =>
      obtain ⟨s, h1, -⟩ := coverAtom_eq p l
      have : covr ≠ rtng := by decide
      rw [h1]; simp [this]
  rw [throughTag_eq, mergeIlst_eq]
  simp only [List.filter_append]
  rw [pair _ _ (by decide), pair _ _ (by decide), cov, rating_new, List.append_nil, List.append_nil, List.append_nil]
  rfl

theorem rating_le {a : Ilst.Tag} {n : Nat} (h : Ilst.rating a = some n) : n ≤ 2 := by
  unfold Ilst.rating at h
  obtain ⟨b, -, hb⟩ := List.exists_of_findSome?_eq_some h
  exact ratingOf_le hb

/-- **C52.** If the rating atoms hold only integers or unknown data, the advisory rating is the same afterwards. -/
theorem split_advisory (pr : Bool) (a : Ilst.Tag)
    (h : ∀ x ∈ a, mappingOf x.ident = .mapped .ParentalAdvisory → x.data.toList ≠ [] ∧ ∀ d ∈ x.data.toList, stays x.ident d = true) :
    Ilst.rating (throughTag pr a) = Ilst.rating a := by
  have key : ∀ {b c : Ilst.Tag}, b.filter (fun x => decide (x.ident = rtng)) = c.filter (fun x => decide (x.ident = rtng)) →
      Ilst.rating b = Ilst.rating c := by
    intro b c he
    unfold Ilst.rating
    rw [get_head, get_head, he]
  have hr := key (rating_residue h)
  have htext : textsUnder a .ParentalAdvisory = [] := by
    unfold textsUnder
    refine valuesOf_nil_of ?_
    intro x hx hp d hd
    simp only [decide_eq_true_eq] at hp
    have := (h x hx hp).2 d hd
    cases d <;> first | rfl | cases this
  have hf := rating_filter pr a
  rw [(splitIlst_snd a).2.2.2.2, hr] at hf
  have hrem : remainder pr a = if pr = true then (match Ilst.rating a with
      | some _ => (Ilst.remove (a.filterMap residue) rtng).2
      | none => a.filterMap residue) else [] := by
    unfold remainder
    rw [splitIlst_fst, hr]
    cases Ilst.rating a <;> rfl
  cases hra : Ilst.rating a with
  | none =>
    rw [hra] at hf hrem
    simp only at hf hrem
    rw [htext] at hf
    simp only [List.filterMap_nil, List.map_nil, List.append_nil] at hf
    rw [key hf, hrem]
    cases pr with
    | false => rfl
    | true => simp only [if_true]; rw [hr, hra]
  | some n =>
    rw [hra] at hf hrem
    simp only at hf hrem
    have hn := rating_le hra
    have h0 : (remainder pr a).filter (fun x => decide (x.ident = rtng)) = [] := by
      rw [List.filter_eq_nil_iff]
      intro x hx
      rw [hrem] at hx
      split at hx
      · have := (Ilst.mem_remove.mp hx).2
        simpa using this
      · cases hx
    have ht : [toDec n].filterMap ratingText = [n] := by
      have : n = 0 ∨ n = 1 ∨ n = 2 := by omega
      rcases this with rfl | rfl | rfl <;> decide +kernel
    rw [h0, ht, List.nil_append] at hf
    unfold Ilst.rating
    rw [get_head, hf]
    have : n = 0 ∨ n = 1 ∨ n = 2 := by omega
    rcases this with rfl | rfl | rfl <;> rfl

/-! ## Cases and losses -/

/-- A name of an atom. -/
private def fcc (s : String) : Ident := .fourcc (ascii s)

/-- A tag with two titles, a flag, a pair of numbers, an integer, a rating, a cover and an atom of its own. -/
private def sampleAtoms : Ilst.Tag :=
  [⟨.fourcc (0xA9 :: ascii "nam"), .multiple [.utf8 (str "a"), .utf16 (str "b")]⟩, ⟨fcc "cpil", .single (.bool true)⟩,
   ⟨trkn, .single (.unknown 0 [0, 0, 0, 3, 0, 12, 0, 0])⟩, ⟨fcc "tmpo", .single (.signed 120)⟩, ⟨rtng, .single (.signed 2)⟩,
   ⟨covr, .single (.picture ⟨.coverFront, some .png, none, [1, 2]⟩)⟩, ⟨fcc "xyzw", .single (.unsigned 7)⟩]

example : textsUnder sampleAtoms .TrackTitle = [str "a", str "b"] ∧ textsUnder sampleAtoms .FlagCompilation = [str "1"] ∧
    textsUnder sampleAtoms .TrackTotal = [] ∧ pairsUnder sampleAtoms trkn = [(3, 12)] ∧ Ilst.rating sampleAtoms = some 2 ∧
    rawUnder sampleAtoms (fcc "tmpo") = [.signed 120] ∧ (foreignAtoms sampleAtoms).length = 1 ∧ (coversOf sampleAtoms).length = 1 := by
  decide +kernel

example : throughTag true sampleAtoms =
    [⟨fcc "tmpo", .single (.signed 120)⟩, ⟨fcc "xyzw", .single (.unsigned 7)⟩,
     ⟨.fourcc (0xA9 :: ascii "nam"), .single (.utf8 (str "a"))⟩, ⟨.fourcc (0xA9 :: ascii "nam"), .single (.utf8 (str "b"))⟩,
     ⟨fcc "cpil", .single (.bool true)⟩, ⟨rtng, .single (.signed 2)⟩,
     ⟨covr, .single (.picture ⟨.other, some .png, none, [1, 2]⟩)⟩,
     ⟨trkn, .single (.unknown 0 [0, 0, 0, 3, 0, 12, 0, 0])⟩] := by decide +kernel

/-- Text in a cover atom is lost, and so is a picture in any other atom that has a generic key. -/
theorem misplaced_lost :
    throughTag true [⟨covr, .single (.utf8 (str "front"))⟩] = [] ∧
    throughTag true [⟨fcc "cprt", .single (.picture ⟨.other, none, none, [1]⟩)⟩] = [] := by decide +kernel

/-- A pair of two zeros is lost. -/
theorem zero_pair_lost : throughTag true [⟨trkn, .single (.unknown 0 [0, 0, 0, 0, 0, 0, 0, 0])⟩] = [] := by decide +kernel

/-- The explicit rating of older files is written as the newer one. -/
theorem old_rating_changed :
    throughTag true [⟨rtng, .single (.signed 4)⟩] = [⟨rtng, .single (.signed 1)⟩] := by decide +kernel

/-- A tempo is no item of the generic tag, although there is a generic key that MP4 has an atom for; and a tempo in the
generic tag becomes a text where an integer is expected, so it is not seen as a number by others. -/
theorem tempo_not_converted :
    (ofIlst true [⟨fcc "tmpo", .single (.signed 120)⟩]).tag.items = [] ∧
    toIlst true ⟨⟨.mp4Ilst, [], [TagItem.new .IntegerBpm (.text (str "120"))], false⟩, none⟩ =
      [⟨fcc "tmpo", .single (.utf8 (str "120"))⟩] := by decide +kernel

/-- A track atom that holds a text is read as the number of tracks. -/
theorem track_text_is_total :
    (ofIlst true [⟨trkn, .single (.utf8 (str "3"))⟩]).tag.items = [TagItem.new .TrackTotal (.text (str "3"))] := by decide +kernel

/-- The values of one atom are spread over several atoms of the same name, of which readers use only the first. -/
theorem atom_spread :
    throughTag true [⟨fcc "cprt", .multiple [.utf8 (str "a"), .utf8 (str "b")]⟩] =
      [⟨fcc "cprt", .single (.utf8 (str "a"))⟩, ⟨fcc "cprt", .single (.utf8 (str "b"))⟩] := by decide +kernel

/-- A generic tag with locators: MP4 drops them, although it knows the key. -/
theorem locator_lost :
    supports .mp4Ilst .CopyrightMessage = true ∧
    toIlst true ⟨⟨.mp4Ilst, [], [TagItem.new .CopyrightMessage (.locator (str "http://a"))], false⟩, none⟩ = [] := by decide +kernel

/-- A track number of zero, or above 65535, is lost on the way through MP4. -/
theorem odd_number_lost :
    (afterIlst ⟨.mp4Ilst, [], [TagItem.new .TrackNumber (.text (str "0"))], false⟩).items = [] ∧
    (afterIlst ⟨.mp4Ilst, [], [TagItem.new .TrackNumber (.text (str "65536"))], false⟩).items = [] := by decide +kernel

/-- A generic tag and what is left of it after MP4. -/
example : (afterIlst ⟨.vorbisComments, [⟨.coverFront, none, none, [1]⟩],
    [TagItem.new .TrackTitle (.text (str "a")), TagItem.new .TrackNumber (.text (str "07")), TagItem.new .UnsyncLyrics (.text (str "la")),
     TagItem.new .FlagPodcast (.text (str "1")), TagItem.new .ParentalAdvisory (.text (str "4")),
     TagItem.new .TrackTitle (.text (str "b"))], false⟩) =
    ⟨.mp4Ilst, [⟨.other, none, none, [1]⟩],
      [TagItem.new .TrackTitle (.text (str "a")), TagItem.new .Lyrics (.text (str "la")), TagItem.new .FlagPodcast (.text (str "1")),
       TagItem.new .TrackTitle (.text (str "b")), TagItem.new .TrackNumber (.text (str "7")),
       TagItem.new .ParentalAdvisory (.text (str "1"))], false⟩ := by decide +kernel

end Lofty.Convert
