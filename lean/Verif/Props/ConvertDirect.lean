import Verif.Props.ConvertVorbis
import Verif.Props.ConvertApe
/-!
# Saving a generic tag directly (C55)

A generic tag need not be converted to be saved: the writers take its items as they are (`..Ref`).  The theorems say
what converting the written items back to a generic tag gives, which is what a reader of the file sees.
-/
namespace Lofty.Convert
open Lofty.Item

/-! ## RIFF INFO -/

/-- What a RIFF INFO list has for an item that is saved directly: a rating becomes the number of stars or the value that
the mapping of its user gives, all other texts stay. -/
def riffText (custom : Rating.Provider) (i : TagItem) : Option Str :=
  i.value.intoString.bind fun v =>
    if i.key = .Popularimeter then (Rating.fromStr custom v).map fun p => toDec (p.mappedValue custom .riffInfo) else some v

theorem riffRef_eq (custom : Rating.Provider) (t : Tag) : riffRef custom t = t.items.filterMap fun i =>
    (mapKey .riffInfo i.key).bind fun n => (riffText custom i).map fun v => (n, v) := by
  unfold riffRef riffText
  apply filterMap_congr'
  intro i _
  cases i.value.intoString with
  | none => cases mapKey .riffInfo i.key <;> rfl
  | some v =>
    cases mapKey .riffInfo i.key with
    | none => rfl
    | some n =>
      simp only [Option.bind_some]
      by_cases h : i.key = .Popularimeter
      · rw [if_pos h, if_pos h, Option.map_map]; rfl
      · rw [if_neg h, if_neg h]; rfl

/-- **RIFF INFO, saved directly**: every text of a supported key is found again, in order, without the NULs around it;
ratings as the numbers they are mapped to. -/
theorem riff_direct (custom : Rating.Provider) (t : Tag) {k : ItemKey} (hk : supports .riffInfo k = true) :
    (ofRiff (riffRef custom t)).getStrings k = ((t.getItems k).filterMap (riffText custom)).map trimNul := by
  rw [riffRef_eq, Tag.getStrings]
  show ((List.filterMap _ t.items).filterMap ofRiffItem).filterMap _ = _
  rw [List.filterMap_filterMap, List.filterMap_filterMap, Tag.getItems, List.filterMap_filter, List.map_filterMap]
  apply filterMap_congr'
  intro i _
  rw [supports_map (by decide)] at hk
  cases hm : mapKey .riffInfo i.key with
  | none =>
    have hne : i.key ≠ k := by rintro rfl; rw [hm] at hk; cases hk
    simp [hne]
  | some n =>
    simp only [Option.bind_some]
    cases hr : riffText custom i with
    | none => by_cases hi : i.key = k <;> simp [hi]
    | some v =>
      simp only [Option.map_some, Option.bind_some]
      unfold ofRiffItem
      rw [fromKey_mapKey hm, readAs_plain (by simp)]
      by_cases hi : i.key = k <;> simp [hi, TagItem.new, ItemValue.textOf]

/-- For all keys but the rating, and texts without NULs around them, saving directly keeps all the texts. -/
theorem riff_direct_strings (custom : Rating.Provider) (t : Tag) {k : ItemKey} (hk : supports .riffInfo k = true)
    (hr : k ≠ .Popularimeter) (hn : ∀ s ∈ strings t k, trimNul s = s) :
    (ofRiff (riffRef custom t)).getStrings k = strings t k := by
  rw [riff_direct custom t hk]
  have : (t.getItems k).filterMap (riffText custom) = strings t k := by
    unfold strings
    apply filterMap_congr'
    intro i hi
    have hik : i.key = k := by
      have := (List.mem_filter.mp hi).2
      simpa using this
    have hne : ¬ i.key = .Popularimeter := by rw [hik]; exact hr
    unfold riffText
    cases i.value.intoString with
    | none => rfl
    | some v => rw [Option.bind_some, if_neg hne]
  rw [this]
  exact (List.map_congr_left hn).trans (List.map_id _)

/-- **Disagreement**: the rating that was saved is not read as a rating any more. -/
theorem riff_rating_changed :
    (ofRiff (riffRef Rating.default (sample [(.TrackTitle, "t"), (.Popularimeter, "x@y|4|77")]))).items =
      [TagItem.new .TrackTitle (.text (str "t")), TagItem.new .Popularimeter (.text (str "80"))] ∧
    Rating.fromStr Rating.default (str "80") = none := by decide +kernel

/-! ## AIFF text chunks -/

/-- **AIFF text chunks, saved directly**: the first title, artist and copyright message and all comments, in order. -/
theorem aiff_direct (t : Tag) (k : ItemKey) : (ofAiff (aiffRef t)).getStrings k =
    if k ∈ [ItemKey.TrackTitle, .TrackArtist, .CopyrightMessage] then (t.getString k).toList
    else if k = .Comment then t.getStrings .Comment else [] := by
  rw [ofAiff_strings]
  unfold aiffRef
  by_cases h1 : k = .TrackTitle
  · subst h1; simp
  by_cases h2 : k = .TrackArtist
  · subst h2; simp
  by_cases h3 : k = .CopyrightMessage
  · subst h3; simp
  by_cases h4 : k = .Comment
  · subst h4; simp
  simp [h1, h2, h3, h4, Ne.symm h1, Ne.symm h2, Ne.symm h3, Ne.symm h4]

example : (ofAiff (aiffRef (sample [(.Comment, "a"), (.TrackArtist, "x"), (.TrackArtist, "y"), (.Comment, "b"), (.TrackTitle, "t")]))).items =
    [TagItem.new .TrackTitle (.text (str "t")), TagItem.new .TrackArtist (.text (str "x")),
     TagItem.new .Comment (.text (str "a")), TagItem.new .Comment (.text (str "b"))] := by decide +kernel

/-! ## ID3v1 -/

/-- **ID3v1, saved directly**: with one text for each key at most, it makes no difference whether a tag is converted
before it is saved. -/
theorem id3v1_direct (t : Tag) (h : ∀ k ∈ id3v1Read, Single t k) (ht : ∀ i ∈ t.items, i.key ∈ id3v1Read → ∃ s, i.value = .text s) :
    id3v1Ref t = toId3v1 t := by
  rw [toId3v1_single t h]
  have key : ∀ k ∈ id3v1Read, t.getString k = (strings t k).head? := by
    intro k hk
    rw [getString_getItems]
    unfold strings
    have h1 := h k hk
    have h2 : ∀ i ∈ t.getItems k, ∃ s, i.value = .text s := by
      intro i hi
      obtain ⟨hi1, hi2⟩ := List.mem_filter.mp hi
      exact ht i hi1 (by rw [show i.key = k by simpa using hi2]; exact hk)
    unfold Single at h1
    match hm : t.getItems k, h1 with
    | [], _ => rfl
    | [x], _ =>
      obtain ⟨s, hs⟩ := h2 x (by rw [hm]; simp)
      simp [hs, ItemValue.textOf, ItemValue.intoString]
  unfold id3v1Ref yearOf
  rw [key .TrackTitle (by decide), key .TrackArtist (by decide), key .AlbumTitle (by decide), key .Comment (by decide)]

/-- In any case the first item of each key is the one that is saved. -/
theorem id3v1_direct_first (t : Tag) :
    (id3v1Ref t).title = t.getString .TrackTitle ∧ (id3v1Ref t).artist = t.getString .TrackArtist ∧
    (id3v1Ref t).album = t.getString .AlbumTitle ∧ (id3v1Ref t).comment = t.getString .Comment ∧
    (∀ n < 256, t.getString .TrackNumber = some (toDec n) → (id3v1Ref t).track = some (UInt8.ofNat n)) ∧
    (∀ y < 65536, t.getString .Year = some (toDec y) → (id3v1Ref t).year = some y) ∧
    (∀ d, t.date = some d → t.getString .Year = none → (id3v1Ref t).year = some d.year) ∧
    (∀ g ∈ Id3v1.genres, t.getString .Genre = some g → (id3v1Ref t).genreName = some g) := by
  refine ⟨rfl, rfl, rfl, rfl, ?_, ?_, ?_, ?_⟩
  · intro n hn ht
    unfold id3v1Ref
    simp only [ht, Option.bind_some, parseUInt_toDec (show n < 2 ^ 8 from hn), Option.map_some]
  · intro y hy ht
    unfold id3v1Ref yearOf
    simp only [ht, Option.bind_some, parseUInt_toDec (show y < 2 ^ 16 from hy), Option.some_or]
  · intro d hd ht
    unfold id3v1Ref yearOf
    simp only [ht, hd, Option.bind_none, Option.none_or, Option.map_some]
  · intro g hg ht
    have hi : Id3v1.genres.findIdx (fun v => v = g) < Id3v1.genres.length :=
      List.findIdx_lt_length_of_exists ⟨g, hg, by simp⟩
    have hl : Id3v1.genres.length = 192 := by decide +kernel
    have hv : (UInt8.ofNat (Id3v1.genres.findIdx (fun v => v = g))).toNat = Id3v1.genres.findIdx (fun v => v = g) :=
      strings_toDec _ (by omega)
    have hget := List.findIdx_getElem (w := hi)
    have hgo : genreOf (some g) = some (UInt8.ofNat (Id3v1.genres.findIdx (fun v => v = g))) := by
      unfold genreOf
      simp only [Option.bind_some]
      rw [List.findIdx?_eq_some_of_exists ⟨g, hg, by simp⟩]
    unfold id3v1Ref Id3v1.Tag.genreName
    simp only [ht, hgo, Option.bind_some]
    rw [hv, List.getElem?_eq_getElem hi]
    simpa using hget

example : ∀ k ∈ id3v1Read, Single (sample [(.Genre, "Rock"), (.TrackNumber, "7"), (.TrackTitle, "t"), (.Year, "1999"), (.Isrc, "x")]) k := by
  unfold Single
  decide +kernel

/-! ## Vorbis comments -/

/-- **Vorbis comments, saved directly**: every text and locator of a supported key is found again, in order.  Unlike a
conversion, this leaves ratings and flags as they are, whatever vendor is written. -/
theorem vorbis_direct (custom : Rating.Provider) (t : Tag) (vendor : Str) (pics : List (Picture.Pic × Picture.Info)) {k : ItemKey}
    (hk : supports .vorbisComments k = true) (hn : k ≠ .EncoderSoftware ∨ strings t .EncoderSoftware ≠ []) :
    (ofVorbis custom ⟨vendor, (vorbisRef t).2, pics⟩).getStrings k = strings t k := by
  have hitems : (vorbisRef t).2.filterMap (splitComment custom) = t.items.filterMap fun i =>
      i.value.intoString.bind fun v => if supports .vorbisComments i.key then some (TagItem.new i.key (.text v)) else none := by
    unfold vorbisRef
    simp only
    rw [List.filterMap_filterMap]
    apply filterMap_congr'
    intro i _
    cases i.value.intoString with
    | none => rfl
    | some v =>
      simp only [Option.bind_some]
      rw [supports_map (by decide)]
      cases hm : mapKey .vorbisComments i.key with
      | none => rfl
      | some n =>
        simp only [Option.map_some, Option.bind_some, Option.isSome_some, if_true]
        unfold splitComment
        rw [fromKey_mapKey hm, readAs_plain (by simp)]
  have hstr : ∀ k', supports .vorbisComments k' = true → (((vorbisRef t).2.filterMap (splitComment custom)).filterMap
      fun j => if j.key = k' then j.value.textOf else none) = strings t k' := by
    intro k' hk'
    rw [hitems, List.filterMap_filterMap, strings, Tag.getItems, List.filterMap_filter]
    apply filterMap_congr'
    intro i _
    cases i.value.intoString with
    | none => simp
    | some v =>
      simp only [Option.bind_some]
      by_cases hi : i.key = k'
      · simp [hi, hk', TagItem.new, ItemValue.textOf]
      · by_cases hs : supports .vorbisComments i.key = true <;> simp [hi, hs, TagItem.new]
  show (addVendor _ _).filterMap _ = _
  unfold addVendor
  split
  · exact hstr k hk
  · rename_i hany
    rw [List.filterMap_append, hstr k hk]
    have hne : k ≠ .EncoderSoftware := by
      rcases hn with h | h
      · exact h
      · exfalso
        rw [← hstr .EncoderSoftware (by decide +kernel)] at h
        apply h
        rw [List.filterMap_eq_nil_iff]
        intro j hj
        rw [if_neg]
        intro he
        exact hany (List.any_eq_true.mpr ⟨j, hj, by simpa using he⟩)
    simp [TagItem.new, Ne.symm hne]

/-- Saved directly, a tag without an encoder gets an empty one, and a rating stays a text that Vorbis comments do not
use for ratings. -/
theorem vorbis_direct_differs :
    (vorbisRef (sample [(.Popularimeter, "x@y|4|77"), (.FlagCompilation, "true")])).2 =
      [(str "RATING", str "x@y|4|77"), (str "COMPILATION", str "true")] ∧
    (ofVorbis Rating.default ⟨(vorbisRef (sample [(.TrackTitle, "t")])).1, (vorbisRef (sample [(.TrackTitle, "t")])).2, []⟩).items =
      [TagItem.new .TrackTitle (.text (str "t")), TagItem.new .EncoderSoftware (.text [])] := by decide +kernel

/-! ## APE tags -/

theorem splitItem_keys {i : Ape.Item} {k' : ItemKey} (h : fromKey .ape i.key = some k') {x : TagItem}
    (hx : x ∈ (splitItem i).getD []) : x.key = k' ∨ ∃ a b, pairKeys k' = some (a, b) ∧ (x.key = a ∨ x.key = b) := by
  unfold splitItem at hx
  rw [h] at hx
  simp only [Option.map_some, Option.getD_some] at hx
  have hv : ∀ v, x ∈ splitValues k' v → x.key = k' := by
    intro v hxv
    have := splitValues_filter k' v
    rw [← this] at hxv
    simpa using (List.mem_filter.mp hxv).2
  split at hx
  · rename_i a b v hp _
    right
    refine ⟨a, b, hp, ?_⟩
    unfold splitPair at hx
    simp only [List.mem_cons] at hx
    rcases hx with rfl | hx
    · exact .inl rfl
    · exact .inr (mem_optItem hx)
  · exact .inl (hv _ hx)

theorem number_table : ∀ j ∈ ItemKey.all, numberKeys.contains j = false →
    ∀ k ∈ numberKeys, readAs .ape j ≠ k ∧ ∀ p ∈ (pairKeys (readAs .ape j)).toList, p.1 ≠ k ∧ p.2 ≠ k := by
  decide +kernel

/-- The items of an APE tag that are not numbers. -/
def apeOthers (t : Tag) : List Ape.Item :=
  (t.items.filter fun i => !numberKeys.contains i.key).filterMap fun i =>
    (mapKey .ape i.key).map fun k => (⟨false, k, apeValue i.value⟩ : Ape.Item)

theorem others_no_number (t : Tag) {k : ItemKey} (hk : k ∈ numberKeys) {i : Ape.Item} (hi : i ∈ apeOthers t) {x : TagItem}
    (hx : x ∈ (splitItem i).getD []) : x.key ≠ k := by
  obtain ⟨j, hj, hji⟩ := List.mem_filterMap.mp hi
  obtain ⟨_, hjn⟩ := List.mem_filter.mp hj
  have hjn : numberKeys.contains j.key = false := by simpa using hjn
  cases hm : mapKey .ape j.key with
  | none => rw [hm] at hji; cases hji
  | some n =>
    rw [hm] at hji
    obtain rfl := Option.some.inj hji
    have htab := number_table j.key j.key.mem_all hjn k hk
    rcases splitItem_keys (i := ⟨false, n, apeValue j.value⟩) (fromKey_mapKey hm) hx with h | ⟨a, b, hp, h⟩
    · rw [h]; exact htab.1
    · have := htab.2 (a, b) (by rw [hp]; simp)
      rcases h with h | h <;> rw [h]
      · exact this.1
      · exact this.2

/-- The texts under a key, of some items of an APE tag. -/
def apeTexts (l : List Ape.Item) (k : ItemKey) : List Str :=
  (l.flatMap fun i => (splitItem i).getD []).filterMap fun x => if x.key = k then x.value.textOf else none

theorem apeTexts_none {l : List Ape.Item} {k : ItemKey} (h : ∀ i ∈ l, ∀ x ∈ (splitItem i).getD [], x.key ≠ k) : apeTexts l k = [] := by
  unfold apeTexts
  rw [List.filterMap_eq_nil_iff]
  intro x hx
  obtain ⟨i, hi, hxi⟩ := List.mem_flatMap.mp hx
  rw [if_neg (h i hi x hxi)]

theorem apeTexts_append (l m : List Ape.Item) (k : ItemKey) : apeTexts (l ++ m) k = apeTexts l k ++ apeTexts m k := by
  unfold apeTexts
  rw [List.flatMap_append, List.filterMap_append]

theorem apeTexts_ref (t : Tag) (k : ItemKey) : (ofApe ⟨false, apeRef t⟩).getStrings k = apeTexts (apeOthers t) k ++
    apeTexts ((formatPair (t.getString .TrackNumber) (t.getString .TrackTotal)).map fun v =>
      (⟨false, str "Track", .text v⟩ : Ape.Item)).toList k ++
    apeTexts ((formatPair (t.getString .DiscNumber) (t.getString .DiscTotal)).map fun v =>
      (⟨false, str "Disc", .text v⟩ : Ape.Item)).toList k := by
  rw [← apeTexts_append, ← apeTexts_append]
  rfl

theorem fromKey_number {number total : ItemKey} {n : Str} (hp : (number, total, n) ∈ pairNames) :
    fromKey .ape n = some total ∧ pairKeys total = some (number, total) ∧ number ≠ total ∧ number ∈ numberKeys ∧ total ∈ numberKeys := by
  simp only [pairNames, List.mem_cons, Prod.mk.injEq, List.not_mem_nil, or_false] at hp
  rcases hp with ⟨rfl, rfl, rfl⟩ | ⟨rfl, rfl, rfl⟩ <;> decide +kernel

/-- The texts of one number pair. -/
theorem apeTexts_pair {number total : ItemKey} {n : Str} (hp : (number, total, n) ∈ pairNames) (a b : Option Str)
    (ha : ∀ s, a = some s → '/' ∉ s) :
    apeTexts ((formatPair a b).map fun v => (⟨false, n, .text v⟩ : Ape.Item)).toList number =
      (a.or (b.map fun _ => str "0")).toList ∧
    apeTexts ((formatPair a b).map fun v => (⟨false, n, .text v⟩ : Ape.Item)).toList total = b.toList := by
  obtain ⟨hf, hpk, hne, _, _⟩ := fromKey_number hp
  have hsplit : ∀ v, splitItem ⟨false, n, .text v⟩ = some (splitPair v number total) := by
    intro v
    unfold splitItem
    rw [hf]
    simp only [Option.map_some]
    rw [hpk]
  have h0 : split2 '/' (str "0" ++ '/' :: b.getD []) = (str "0", some (b.getD [])) := split2_append _ _ _ (by decide)
  have h00 : toDec 0 = str "0" := by decide
  rcases a with _ | a <;> rcases b with _ | b
  · exact ⟨rfl, rfl⟩
  · have hs : splitPair (toDec 0 ++ '/' :: b) number total =
        [TagItem.new number (.text (str "0")), TagItem.new total (.text b)] := by
      unfold splitPair
      rw [h00, show split2 '/' (str "0" ++ '/' :: b) = (str "0", some b) from h0]
      rfl
    simp only [formatPair, Option.map_some, Option.toList_some, apeTexts, List.flatMap_cons, List.flatMap_nil, hsplit,
      Option.getD_some, hs, List.append_nil]
    constructor <;> simp [TagItem.new, ItemValue.textOf, hne, Ne.symm hne]
  · have hs : splitPair a number total = [TagItem.new number (.text a)] := by
      unfold splitPair
      rw [split2_noSep _ _ (ha a rfl)]
      rfl
    simp only [formatPair, Option.map_some, Option.toList_some, apeTexts, List.flatMap_cons, List.flatMap_nil, hsplit,
      Option.getD_some, hs, List.append_nil]
    constructor <;> simp [TagItem.new, ItemValue.textOf, hne]
  · have hs : splitPair (a ++ '/' :: b) number total = [TagItem.new number (.text a), TagItem.new total (.text b)] := by
      unfold splitPair
      rw [split2_append _ _ _ (ha a rfl)]
      rfl
    simp only [formatPair, Option.map_some, Option.toList_some, apeTexts, List.flatMap_cons, List.flatMap_nil, hsplit,
      Option.getD_some, hs, List.append_nil]
    constructor <;> simp [TagItem.new, ItemValue.textOf, hne, Ne.symm hne]

/-- One pair has no texts of the other keys. -/
theorem apeTexts_pair_other {number total : ItemKey} {n : Str} (hp : (number, total, n) ∈ pairNames) (v : Option Str) {k : ItemKey}
    (h1 : k ≠ number) (h2 : k ≠ total) : apeTexts (v.map fun v => (⟨false, n, .text v⟩ : Ape.Item)).toList k = [] := by
  obtain ⟨hf, hpk, _⟩ := fromKey_number hp
  cases v with
  | none => rfl
  | some v =>
    apply apeTexts_none
    intro i hi x hx
    simp only [Option.map_some, Option.toList_some, List.mem_singleton] at hi
    subst hi
    rcases splitItem_keys (i := ⟨false, n, .text v⟩) hf hx with h | ⟨a, b, hp, h⟩
    · rw [h]; exact Ne.symm h2
    · rw [hpk] at hp
      obtain ⟨rfl, rfl⟩ := Prod.mk.inj (Option.some.inj hp)
      rcases h with h | h <;> rw [h]
      · exact Ne.symm h1
      · exact Ne.symm h2

/-- **Numbers of APE tags, saved directly**: the first track number and track total are found again, and the same for
discs, whatever else is in the tag.  A total without a number brings the number 0 with it.  (A number with a slash in it
is not separated from the total that follows it.) -/
theorem ape_direct_numbers (t : Tag) {number total : ItemKey} {n : Str} (hp : (number, total, n) ∈ pairNames)
    (hs : ∀ s, t.getString number = some s → '/' ∉ s) :
    (ofApe ⟨false, apeRef t⟩).getStrings number = ((t.getString number).or ((t.getString total).map fun _ => str "0")).toList ∧
    (ofApe ⟨false, apeRef t⟩).getStrings total = (t.getString total).toList := by
  obtain ⟨_, _, _, hn1, hn2⟩ := fromKey_number hp
  have ho : ∀ k ∈ numberKeys, apeTexts (apeOthers t) k = [] := fun k hk =>
    apeTexts_none fun i hi x hx => others_no_number t hk hi hx
  rw [apeTexts_ref, apeTexts_ref, ho _ hn1, ho _ hn2, List.nil_append, List.nil_append]
  have hp' := hp
  simp only [pairNames, List.mem_cons, Prod.mk.injEq, List.not_mem_nil, or_false] at hp'
  rcases hp' with ⟨rfl, rfl, rfl⟩ | ⟨rfl, rfl, rfl⟩
  · have hd : (ItemKey.DiscNumber, ItemKey.DiscTotal, str "Disc") ∈ pairNames := by simp [pairNames]
    rw [apeTexts_pair_other hd _ (by decide) (by decide), apeTexts_pair_other hd _ (by decide) (by decide), List.append_nil,
      List.append_nil]
    exact apeTexts_pair hp _ _ hs
  · have hd : (ItemKey.TrackNumber, ItemKey.TrackTotal, str "Track") ∈ pairNames := by simp [pairNames]
    rw [apeTexts_pair_other hd _ (by decide) (by decide), apeTexts_pair_other hd _ (by decide) (by decide), List.nil_append,
      List.nil_append]
    exact apeTexts_pair hp _ _ hs

example : (ofApe ⟨false, apeRef (sample [(.DiscTotal, "3"), (.TrackTitle, "t"), (.TrackNumber, "4"), (.TrackTotal, "9")])⟩).items =
    [TagItem.new .TrackTitle (.text (str "t")), TagItem.new .TrackNumber (.text (str "4")), TagItem.new .TrackTotal (.text (str "9")),
     TagItem.new .DiscNumber (.text (str "0")), TagItem.new .DiscTotal (.text (str "3"))] := by decide +kernel

theorem not_number_of_plain {k : ItemKey} (h : Plain k) : k ∉ numberKeys := by
  intro hk
  have := h.2.1
  simp only [numberKeys, List.mem_cons, List.not_mem_nil, or_false] at hk
  rcases hk with rfl | rfl | rfl | rfl <;> cases this

/-- The texts of a value of an APE tag: NULs separate them. -/
def apeSplit : ItemValue → List Str
  | .text s => Pairs.splitOn (· = '\x00') s
  | _ => []

/-- **Texts of APE tags, saved directly**: the texts of a key, split at NULs, come back in order, together with those of
a key that has the same name in APE tags (the year, for the recording date). -/
theorem ape_direct_strings (t : Tag) {k : ItemKey} (hp : Plain k) (hs : supports .ape k = true) :
    (ofApe ⟨false, apeRef t⟩).getStrings k =
      (t.items.filter fun i => readAs .ape i.key = k).flatMap fun i => apeSplit i.value := by
  obtain ⟨hr, hpk, _⟩ := hp
  have hnum : ∀ e ∈ pairNames, k ≠ e.1 ∧ k ≠ e.2.1 := by
    intro e he
    simp only [pairNames, List.mem_cons, List.not_mem_nil, or_false] at he
    rcases he with rfl | rfl <;> constructor <;> rintro rfl <;> cases hpk
  have h1 := hnum (.TrackNumber, .TrackTotal, str "Track") (by simp [pairNames])
  have h2 := hnum (.DiscNumber, .DiscTotal, str "Disc") (by simp [pairNames])
  rw [apeTexts_ref, apeTexts_pair_other (number := .TrackNumber) (total := .TrackTotal) (by simp [pairNames]) _ h1.1 h1.2,
    apeTexts_pair_other (number := .DiscNumber) (total := .DiscTotal) (by simp [pairNames]) _ h2.1 h2.2, List.append_nil,
    List.append_nil]
  have hsup : ∀ j, readAs .ape j = k → (mapKey .ape j).isSome = true := by
    intro j hj
    have : ∀ j ∈ ItemKey.all, (mapKey .ape (readAs .ape j)).isSome = true → (mapKey .ape j).isSome = true := by decide +kernel
    apply this j j.mem_all
    rw [hj, ← supports_map (by decide)]; exact hs
  have hnk : ∀ j, readAs .ape j = k → numberKeys.contains j = false := by
    intro j hj
    have : ∀ j ∈ ItemKey.all, numberKeys.contains j = true → pairKeys (readAs .ape j) ≠ none := by decide +kernel
    cases hc : numberKeys.contains j with
    | false => rfl
    | true => exact absurd (by rw [hj]; exact hpk) (this j j.mem_all hc)
  unfold apeOthers
  generalize t.items = items
  induction items with
  | nil => rfl
  | cons i items ih =>
    by_cases hi : readAs .ape i.key = k
    · cases hm : mapKey .ape i.key with
      | none => have := hsup _ hi; rw [hm] at this; cases this
      | some n =>
        have hone : apeTexts [⟨false, n, apeValue i.value⟩] k = apeSplit i.value := by
          unfold apeTexts
          rw [List.flatMap_cons, List.flatMap_nil, List.append_nil,
            splitItem_key (i := ⟨false, n, apeValue i.value⟩) hpk (by rw [fromKey_mapKey hm, hi])]
          rcases i.value with s | s | d
          · simp only [apeValue, splitValues, apeSplit]
            rw [List.filterMap_map]
            generalize Pairs.splitOn (fun x => decide (x = '\x00')) s = l
            induction l with
            | nil => rfl
            | cons x l ihl => rw [List.filterMap_cons_some (b := x) (by simp [TagItem.new, ItemValue.textOf]), ihl]
          · simp [apeValue, splitValues, ofApeValue, TagItem.new, ItemValue.textOf, apeSplit]
          · simp [apeValue, splitValues, ofApeValue, TagItem.new, ItemValue.textOf, apeSplit]
        rw [List.filter_cons_of_pos (by rw [hnk _ hi]; rfl), List.filter_cons_of_pos (by simpa using hi),
          List.filterMap_cons_some (by rw [hm]; rfl), List.flatMap_cons, ← List.singleton_append, apeTexts_append, ih, hone]
    · rw [List.filter_cons_of_neg (p := fun i : TagItem => decide (readAs .ape i.key = k)) (by simpa using hi), ← ih]
      by_cases hc : numberKeys.contains i.key = true
      · rw [List.filter_cons_of_neg (by rw [hc]; simp)]
      · rw [List.filter_cons_of_pos (by simpa using hc)]
        cases hm : mapKey .ape i.key with
        | none => rw [List.filterMap_cons_none (by rw [hm]; rfl)]
        | some n =>
          rw [List.filterMap_cons_some (by rw [hm]; rfl), ← List.singleton_append, apeTexts_append]
          have : apeTexts [⟨false, n, apeValue i.value⟩] k = [] := by
            apply apeTexts_none
            intro j hj x hx
            rw [List.mem_singleton] at hj
            subst hj
            have hso := splitItem_other (i := ⟨false, n, apeValue i.value⟩) hpk (by
              rw [fromKey_mapKey hm]; simpa using hi)
            intro he
            have : x ∈ ((splitItem ⟨false, n, apeValue i.value⟩).getD []).filter (fun j => j.key = k) :=
              List.mem_filter.mpr ⟨hx, by simpa using he⟩
            rw [hso] at this
            cases this
          rw [this, List.nil_append]

example : Plain .TrackArtist ∧ supports .ape .TrackArtist = true ∧
    (ofApe ⟨false, apeRef (sample [(.TrackArtist, "a\x00b"), (.TrackNumber, "4"), (.TrackArtist, "c")])⟩).getStrings .TrackArtist =
      [str "a", str "b", str "c"] := by decide +kernel

/-- Saved directly, a tag that has only a total gets the number 0, and a number with a slash changes both. -/
theorem ape_direct_zero :
    (ofApe ⟨false, apeRef (sample [(.TrackTotal, "9")])⟩).getStrings .TrackNumber = [str "0"] ∧
    (ofApe ⟨false, apeRef (sample [(.TrackNumber, "1/2"), (.TrackTotal, "9")])⟩).getStrings .TrackTotal = [str "2/9"] := by
  decide +kernel

end Lofty.Convert
