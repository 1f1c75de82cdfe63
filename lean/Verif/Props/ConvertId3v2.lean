import Verif.Lemmas.ConvertId3v2More
import Verif.Lemmas.Id3v23Date
import Verif.Spec.ConvertId3v2
/-!
# C56: what a generic tag keeps when it becomes an ID3v2 tag

`Through owned t u`: `u` is the generic view of the ID3v2 tag that `t` becomes, either by conversion (`owned`) or when it is
saved directly. The frames pass through a hash set, so their order is any order.
-/
namespace Lofty.Convert
open Lofty.Item
open Lofty.Id3v2 (Frame Content FrameId sameFrame)

/-- `u` is the generic view of the ID3v2 tag that `t` becomes, for some order of the set of frames. -/
def Through (custom : Rating.Provider) (owned : Bool) (t u : Tag) : Prop :=
  ∃ fs l : List Frame, fs.Perm (fromTag custom owned t.items) ∧
    (if owned then mergeId3v2 [] fs t.pictures = .ok l else l = tagFrames fs [] t.pictures) ∧ u = (splitId3v2 custom l).2

/-! ## The whole conversion -/

theorem merge_ok {custom : Rating.Provider} {owned : Bool} {t : Tag} {fs : List Frame}
    (hfs : fs.Perm (fromTag custom owned t.items)) :
    mergeId3v2 [] fs t.pictures = .ok (fs ++ (lastOnly t.pictures).map newPicture) := by
  have hmade : ∀ f ∈ fs, MadeFrame custom f := fun f hf => made_all (mem_set (hfs.mem_iff.mp hf))
  unfold mergeId3v2
  rw [mergeFrames_once fs []]
  · show Except.ok (t.pictures.foldl (fun l p => (Id3v2.insert l (newPicture p)).2) ([] ++ fs)) = Except.ok _
    rw [List.nil_append, insert_pictures fun f hf p => made_no_picture (hmade f hf) p]
  · rw [List.nil_append]
    have : fs.filter isTipl = fs.filter isKv := by
      apply List.filter_congr
      intro f hf
      exact made_tipl (hmade f hf)
    rw [this, fs_kv hfs, kv_frames]
    split <;> simp

theorem pictures_items (custom : Rating.Provider) (ps : List Picture.Pic) : itemsOf custom (ps.map newPicture) = [] := by
  unfold itemsOf
  rw [List.flatMap_eq_nil_iff]
  intro f hf
  obtain ⟨p, _, rfl⟩ := List.mem_map.mp hf
  rfl

theorem keyed_pictures (n : Str) (f : Frame) (g : ItemKey → List TagItem) : (keyed n f g).pictures = [] := by
  unfold keyed
  cases fromKey .id3v2 n <;> rfl

theorem made_pictures {custom : Rating.Provider} {f : Frame} (h : MadeFrame custom f) : (splitFrame custom f).pictures = [] := by
  cases h with
  | text j v h =>
    rw [splitFrame_text]
    cases pairItems (nameOf j) v with
    | some l => rfl
    | none =>
      simp only
      split
      · rfl
      · exact keyed_pictures _ _ _
  | user j v h =>
    unfold newUserText splitFrame
    simp only
    split
    · rfl
    · exact keyed_pictures _ _ _
  | url j v h =>
    unfold newUrl splitFrame
    simp only
    exact keyed_pictures _ _ _
  | time j t h =>
    unfold newTime splitFrame
    simp only
    split
    · exact keyed_pictures _ _ _
    · rfl
  | ufid d => unfold splitFrame; simp only; split <;> rfl
  | pop p => unfold newPop splitFrame; simp only; split <;> rfl
  | tipl l h => unfold splitFrame; simp only; split <;> rfl
  | comment e => rfl
  | lyrics e => rfl

theorem pictures_of (custom : Rating.Provider) {fs : List Frame} (h : ∀ f ∈ fs, MadeFrame custom f) (ps : List Picture.Pic) :
    ((fs ++ ps.map newPicture).flatMap fun f => (splitFrame custom f).pictures) = ps := by
  rw [List.flatMap_append, List.flatMap_eq_nil_iff.mpr fun f hf => made_pictures (h f hf), List.nil_append]
  induction ps with
  | nil => rfl
  | cons p ps ih => rw [List.map_cons, List.flatMap_cons, ih]; rfl

theorem through_items {custom : Rating.Provider} {owned : Bool} {t u : Tag} (h : Through custom owned t u) :
    ∃ fs : List Frame, fs.Perm (fromTag custom owned t.items) ∧ u.items = itemsOf custom fs ∧
      u.pictures = if owned then lastOnly t.pictures else t.pictures := by
  obtain ⟨fs, l, hfs, hl, rfl⟩ := h
  have hmade : ∀ f ∈ fs, MadeFrame custom f := fun f hf => made_all (mem_set (hfs.mem_iff.mp hf))
  refine ⟨fs, hfs, ?_⟩
  cases owned with
  | true =>
    rw [if_pos rfl, merge_ok hfs] at hl
    obtain rfl := (Except.ok.injEq _ _).mp hl
    constructor
    · show itemsOf custom (fs ++ _) = _
      rw [itemsOf_append, pictures_items, List.append_nil]
    · exact pictures_of custom hmade _
  | false =>
    rw [if_neg (by simp)] at hl
    subst hl
    unfold tagFrames
    rw [List.append_nil]
    constructor
    · show itemsOf custom (fs ++ _) = _
      rw [itemsOf_append, pictures_items, List.append_nil]
    · exact pictures_of custom hmade _

/-- The conversion always succeeds, whatever the order of the set of frames: nothing panics. -/
theorem id3v2_total (custom : Rating.Provider) (owned : Bool) (t : Tag) (fs : List Frame)
    (hfs : fs.Perm (fromTag custom owned t.items)) : ∃ l, mergeId3v2 [] fs t.pictures = .ok l := ⟨_, merge_ok hfs⟩

theorem through_exists (custom : Rating.Provider) (owned : Bool) (t : Tag) : ∃ u, Through custom owned t u := by
  cases owned with
  | true => exact ⟨_, fromTag custom true t.items, _, List.Perm.refl _, by rw [if_pos rfl]; exact merge_ok (List.Perm.refl _), rfl⟩
  | false => exact ⟨_, fromTag custom false t.items, _, List.Perm.refl _, by rw [if_neg (by simp)], rfl⟩

/-! ## The words of the specification -/

theorem pieces_eq (s : Str) : Spec.pieces s = Id3v2.splitOn '\x00' s := by
  induction s with
  | nil => rfl
  | cons c s ih =>
    unfold Spec.pieces Id3v2.splitOn
    rw [ih]
    split
    · rfl
    · cases Id3v2.splitOn '\x00' s <;> rfl

theorem pieces_fun : Spec.pieces = Id3v2.splitOn '\x00' := funext pieces_eq

theorem textFor_eq (owned : Bool) (i : TagItem) : Spec.textFor owned i.value = itemText owned i := by
  unfold itemText
  cases owned <;> cases i.value <;> rfl

theorem textFor_fun (owned : Bool) : (fun i : TagItem => Spec.textFor owned i.value) = itemText owned := funext (textFor_eq owned)

theorem given_eq (owned : Bool) (t : Tag) (k : ItemKey) : Spec.given owned t k = textsOf owned t.items k := by
  unfold Spec.given textsOf
  rw [textFor_fun]; rfl

theorem firsts_eq {α κ : Type} [DecidableEq κ] (key : α → κ) (l : List α) : Spec.firsts key l = firstBy key l := by
  induction l with
  | nil => rfl
  | cons a l ih => unfold Spec.firsts firstBy; rw [ih]

theorem values_pieces (k : ItemKey) (s : Str) : values k s = Spec.items k (Spec.pieces s) := by rw [pieces_eq]; rfl

theorem items_flatMap (k : ItemKey) (l : List Str) (g : Str → List Str) :
    (l.flatMap fun s => Spec.items k (g s)) = Spec.items k (l.flatMap g) := by
  unfold Spec.items
  rw [List.map_flatMap]

theorem textsIn_own {keys : List ItemKey} {owned : Bool} {t : Tag} {k : ItemKey}
    (h : ∀ j ∈ ItemKey.all, (keys.contains j && decide (readAs .id3v2 j = k)) = decide (j = k)) :
    textsIn keys owned t.items k = Spec.given owned t k := by
  rw [given_eq]
  unfold textsIn textsOf
  congr 1
  apply List.filter_congr
  intro i _
  exact h i.key i.key.mem_all

/-! ## Texts -/

theorem text_items {custom : Rating.Provider} {owned : Bool} {t u : Tag} (h : Through custom owned t u) {k : ItemKey}
    (hk : k ∈ multiText ++ otherText) (hr : readAs .id3v2 k = k) (hg : k ≠ .Genre) :
    u.getItems k = Spec.items k (((textsIn otherText owned t.items k ++ (joined (textsIn multiText owned t.items k)).toList).take 1).flatMap
      Spec.pieces) := by
  obtain ⟨fs, hfs, hu, _⟩ := through_items h
  have hp : k ∈ plainText := by
    have : ∀ k ∈ multiText ++ otherText, k ∈ plainText := by decide
    exact this k hk
  unfold Tag.getItems
  rw [hu, items_class hfs fun f hm hf => from_text hp hm hf,
    class_take hfs (isText_same _) (fun _ _ => same_isText), text_frames hk hr, ← List.map_take]
  have ht : k ∈ textKeys ∧ k ≠ .TrackNumber ∧ k ≠ .DiscNumber := by
    have : ∀ k ∈ multiText ++ otherText, k ∈ textKeys ∧ k ≠ .TrackNumber ∧ k ≠ .DiscNumber := by decide
    exact this k hk
  unfold itemsOf
  rw [List.flatMap_map]
  simp only [split_text_frame ht.1 ht.2.1 ht.2.2 hg, hr, values_pieces]
  rw [items_flatMap]
  exact asItems_filter k _

theorem joined_pieces (l : List Str) : (((joined l).toList).take 1).flatMap Spec.pieces = l.flatMap Spec.pieces := by
  rw [List.take_of_length_le (by cases joined l <;> simp), pieces_fun, splitOn_joined]

theorem user_items {custom : Rating.Provider} {owned : Bool} {t u : Tag} (h : Through custom owned t u) {k : ItemKey}
    (hk : k ∈ userKeys) {l : List Str}
    (hl : (allFrames custom owned t.items).filter (isUser (nameOf k)) = l.map (newUserText (nameOf k))) :
    u.getItems k = Spec.items k ((l.take 1).flatMap Spec.pieces) := by
  obtain ⟨fs, hfs, hu, _⟩ := through_items h
  unfold Tag.getItems
  rw [hu, items_class hfs fun f hm hf => from_user hk hm hf,
    class_take hfs (isUser_same _) (fun _ _ => same_isUser), hl, ← List.map_take]
  unfold itemsOf
  rw [List.flatMap_map]
  simp only [split_user hk, values_pieces]
  rw [items_flatMap]
  exact asItems_filter k _

theorem several_table : ∀ k ∈ Spec.severalKeys, k ∈ multiUser ∨ (k ∈ multiText ∧ readAs .id3v2 k = k ∧ k ≠ .Genre ∧
    ∀ j ∈ ItemKey.all, (otherText.contains j && decide (readAs .id3v2 j = k)) = false ∧
      (multiText.contains j && decide (readAs .id3v2 j = k)) = decide (j = k)) := by decide +kernel

/-- **Texts with several values.** Every text is kept, in order; one with NULs comes back as its parts. -/
theorem id3v2_several {custom : Rating.Provider} {owned : Bool} {t u : Tag} (h : Through custom owned t u) {k : ItemKey}
    (hk : k ∈ Spec.severalKeys) : u.getItems k = Spec.items k ((Spec.given owned t k).flatMap Spec.pieces) := by
  rcases several_table k hk with hm | ⟨hm, hr, hg, htab⟩
  · rw [user_items h (by simp [userKeys, hm]) (multi_user_frames hm), joined_pieces, given_eq]
  · rw [text_items h (by simp [hm]) hr hg, textsIn_nil (keys := otherText) (k := k), textsIn_own fun j hj => (htab j hj).2,
      List.nil_append, joined_pieces]
    intro i _ hi hri
    have := (htab i.key i.key.mem_all).1
    simp [hi, hri] at this

theorem pieces_plain {l : List Str} (h : ∀ s ∈ l, '\x00' ∉ s) : l.flatMap Spec.pieces = l := by
  induction l with
  | nil => rfl
  | cons s l ih =>
    rw [List.flatMap_cons, ih fun x hx => h x (by simp [hx]), pieces_eq, splitOn_none (h s (by simp))]; rfl

/-- The same for texts without NULs: they all come back. -/
theorem id3v2_several_plain {custom : Rating.Provider} {owned : Bool} {t u : Tag} (h : Through custom owned t u) {k : ItemKey}
    (hk : k ∈ Spec.severalKeys) (hn : ∀ s ∈ Spec.given owned t k, '\x00' ∉ s) :
    u.getItems k = Spec.items k (Spec.given owned t k) := by
  rw [id3v2_several h hk, pieces_plain hn]

/-- **Texts with one value.** The first text is kept. -/
theorem id3v2_first {custom : Rating.Provider} {owned : Bool} {t u : Tag} (h : Through custom owned t u) {k : ItemKey}
    (hk : k ∈ Spec.firstKeys) : u.getItems k = Spec.items k (((Spec.given owned t k).take 1).flatMap Spec.pieces) := by
  have htab : ∀ k ∈ Spec.firstKeys, k ∈ otherText ∧ readAs .id3v2 k = k ∧ k ≠ .Genre ∧
    ∀ j ∈ ItemKey.all, (otherText.contains j && decide (readAs .id3v2 j = k)) = decide (j = k) ∧
      (multiText.contains j && decide (readAs .id3v2 j = k)) = false := by decide +kernel
  obtain ⟨hm, hr, hg, htab⟩ := htab k hk
  rw [text_items h (by simp [hm]) hr hg, textsIn_own fun j hj => (htab j hj).1, textsIn_nil (keys := multiText) (k := k)]
  · simp only [joined, Option.toList_none, List.append_nil]
  · intro i _ hi hri
    have := (htab i.key i.key.mem_all).2
    simp [hi, hri] at this

/-- **Lyricists** get the writers too. -/
theorem id3v2_lyricist {custom : Rating.Provider} {owned : Bool} {t u : Tag} (h : Through custom owned t u) :
    u.getItems .Lyricist = Spec.items .Lyricist
      (((t.items.filter fun i => i.key = .Writer ∨ i.key = .Lyricist).filterMap fun i => Spec.textFor owned i.value).flatMap Spec.pieces) := by
  have htab : ∀ j ∈ ItemKey.all, (otherText.contains j && decide (readAs .id3v2 j = .Lyricist)) = false ∧
      (multiText.contains j && decide (readAs .id3v2 j = .Lyricist)) = decide (j = .Writer ∨ j = .Lyricist) := by decide +kernel
  rw [text_items h (by decide) (by decide) (by decide), textsIn_nil (keys := otherText), List.nil_append, joined_pieces, textFor_fun]
  · congr 2
    unfold textsIn
    congr 1
    apply List.filter_congr
    intro i _
    exact (htab i.key i.key.mem_all).2
  · intro i _ hi hri
    have := (htab i.key i.key.mem_all).1
    simp [hi, hri] at this

/-- **Publishers**: the first label if there is one, and otherwise every publisher. -/
theorem id3v2_publisher {custom : Rating.Provider} {owned : Bool} {t u : Tag} (h : Through custom owned t u) :
    u.getItems .Publisher = Spec.items .Publisher
      (match Spec.given owned t .Label with
       | l :: _ => Spec.pieces l
       | [] => (Spec.given owned t .Publisher).flatMap Spec.pieces) := by
  have htab : ∀ j ∈ ItemKey.all, (otherText.contains j && decide (readAs .id3v2 j = .Publisher)) = decide (j = .Label) ∧
      (multiText.contains j && decide (readAs .id3v2 j = .Publisher)) = decide (j = .Publisher) := by decide +kernel
  have h1 : textsIn otherText owned t.items .Publisher = Spec.given owned t .Label := by
    rw [given_eq]
    unfold textsIn textsOf
    congr 1
    apply List.filter_congr
    intro i _
    exact (htab i.key i.key.mem_all).1
  rw [text_items h (by decide) (by decide) (by decide), h1, textsIn_own fun j hj => (htab j hj).2]
  cases Spec.given owned t .Label with
  | nil => rw [List.nil_append, joined_pieces]
  | cons l ls => simp

/-- **Encoder settings** are the first of the encoders' names and settings. -/
theorem id3v2_encoder {custom : Rating.Provider} {owned : Bool} {t u : Tag} (h : Through custom owned t u) :
    u.getItems .EncoderSettings = Spec.items .EncoderSettings
      ((((t.items.filter fun i => i.key = .EncoderSoftware ∨ i.key = .EncoderSettings).filterMap fun i => Spec.textFor owned i.value).take 1).flatMap
        Spec.pieces) := by
  have htab : ∀ j ∈ ItemKey.all,
      (otherText.contains j && decide (readAs .id3v2 j = .EncoderSettings)) = decide (j = .EncoderSoftware ∨ j = .EncoderSettings) ∧
      (multiText.contains j && decide (readAs .id3v2 j = .EncoderSettings)) = false := by decide +kernel
  rw [text_items h (by decide) (by decide) (by decide), textsIn_nil (keys := multiText), textFor_fun]
  · simp only [joined, Option.toList_none, List.append_nil]
    congr 3
    unfold textsIn
    congr 1
    apply List.filter_congr
    intro i _
    exact (htab i.key i.key.mem_all).1
  · intro i _ hi hri
    have := (htab i.key i.key.mem_all).2
    simp [hi, hri] at this

theorem joinNul_fold (vs : List Str) : ∀ v, vs.foldl (fun c v => c ++ '\x00' :: v) v = Id3v2.joinNul (v :: vs) := by
  induction vs with
  | nil => intro v; rfl
  | cons w vs ih =>
    intro v
    rw [List.foldl_cons, ih]
    cases vs with
    | nil => rfl
    | cons x vs => simp [Id3v2.joinNul]

theorem joined_joinNul (l : List Str) (hl : l ≠ []) : joined l = some (Id3v2.joinNul l) := by
  cases l with
  | nil => exact absurd rfl hl
  | cons v vs => exact congrArg some (joinNul_fold vs v)

/-- **Genres**: every one is kept, those that are numbers of the ID3v1 list (or "RX", "CR") as their names. -/
theorem id3v2_genre {custom : Rating.Provider} {owned : Bool} {t u : Tag} (h : Through custom owned t u)
    (hg : ∀ g ∈ Spec.given owned t .Genre, g ≠ [] ∧ '\x00' ∉ g)
    (hl : ∀ g, (Spec.given owned t .Genre).getLast? = some g → g.head? ≠ some '(') :
    u.getItems .Genre = Spec.items .Genre ((Spec.given owned t .Genre).map Id3v2.genreName) := by
  obtain ⟨fs, hfs, hu, _⟩ := through_items h
  have htab : ∀ j ∈ ItemKey.all, (otherText.contains j && decide (readAs .id3v2 j = .Genre)) = false ∧
      (multiText.contains j && decide (readAs .id3v2 j = .Genre)) = decide (j = .Genre) := by decide +kernel
  unfold Tag.getItems
  rw [hu, items_class hfs fun f hm hf => from_text (by decide) hm hf,
    class_take hfs (isText_same _) (fun _ _ => same_isText), text_frames (by decide) (by decide), textsIn_nil (keys := otherText),
    textsIn_own fun j hj => (htab j hj).2, List.nil_append]
  · cases hgs : Spec.given owned t .Genre with
    | nil => rfl
    | cons g gs =>
      rw [← hgs, joined_joinNul _ (by rw [hgs]; simp)]
      simp only [Option.toList_some, List.map_cons, List.map_nil, List.take_succ_cons, List.take_nil]
      unfold itemsOf
      rw [List.flatMap_cons, List.flatMap_nil, List.append_nil, split_genre, Id3v2.genreList_join _ hg hl _ (Nat.le_refl _)]
      exact asItems_filter .Genre _
  · intro i _ hi hri
    have := (htab i.key i.key.mem_all).1
    simp [hi, hri] at this

/-- **Replay gain**: the last text is kept. -/
theorem id3v2_last {custom : Rating.Provider} {owned : Bool} {t u : Tag} (h : Through custom owned t u) {k : ItemKey}
    (hk : k ∈ Spec.lastKeys) : u.getItems k = Spec.items k ((Spec.given owned t k).getLast?.toList.flatMap Spec.pieces) := by
  have hs : k ∈ singleUser := hk
  rw [user_items h (by simp [userKeys, hs]) (single_user_frames hs), given_eq,
    List.take_of_length_le (by cases (textsOf owned t.items k).getLast? <;> simp)]

theorem pieces_toDec (n : Nat) : Spec.pieces (toDec n) = [toDec n] := by
  rw [pieces_eq, splitOn_none]
  intro h
  have := toDec_digits n _ h
  revert this; decide

/-- **Advisory ratings**: the first valid one is kept. -/
theorem id3v2_advisory {custom : Rating.Provider} {owned : Bool} {t u : Tag} (h : Through custom owned t u) :
    u.getItems .ParentalAdvisory = Spec.items .ParentalAdvisory
      (((t.getItems .ParentalAdvisory).filterMap fun i => Spec.advisory i.value).take 1) := by
  have hsame : ∀ i : TagItem, Spec.advisory i.value = (advisoryOf i).map toDec := by
    intro i
    unfold Spec.advisory advisoryOf
    cases i.value with
    | text s =>
      show (parseUInt 256 s).bind _ = ((parseUInt 256 s).bind Ilst.ratingOf).map toDec
      cases parseUInt 256 s with
      | none => rfl
      | some n =>
        simp only [Option.bind_some, Ilst.ratingOf]
        by_cases h0 : n = 0
        · subst h0; rfl
        · by_cases h1 : n = 1
          · subst h1; rfl
          · by_cases h4 : n = 4
            · subst h4; rfl
            · by_cases h2 : n = 2
              · subst h2; rfl
              · rw [if_neg (by omega), if_neg h4, if_neg h0, if_neg (by omega), if_neg h2]; rfl
    | locator s => rfl
    | binary b => rfl
  have hl := advisory_frames (custom := custom) (owned := owned) (items := t.items)
  have hl' : (allFrames custom owned t.items).filter (isUser (nameOf .ParentalAdvisory)) =
      (((t.items.filter fun i => i.key = .ParentalAdvisory).filterMap advisoryOf).map toDec).map
        (newUserText (nameOf .ParentalAdvisory)) := by
    rw [hl, List.map_map]; rfl
  rw [user_items h (by decide) hl']
  have e : ((t.getItems .ParentalAdvisory).filterMap fun i => Spec.advisory i.value) =
      ((t.items.filter fun i => i.key = .ParentalAdvisory).filterMap advisoryOf).map toDec := by
    rw [List.map_filterMap]
    unfold Tag.getItems
    congr 1
    funext i
    exact hsame i
  rw [e, ← List.map_take]
  generalize (((t.items.filter fun i => i.key = .ParentalAdvisory).filterMap advisoryOf).take 1) = l
  congr 1
  induction l with
  | nil => rfl
  | cons n l ih => rw [List.map_cons, List.flatMap_cons, ih, pieces_toDec]; rfl

theorem flag_same (s : Str) : Spec.flagOf (.text s) = (flagItem s).map flagText := by
  unfold flagItem
  show (if s = str "1" ∨ s = str "true" then some (str "1") else if s = str "0" ∨ s = str "false" then some (str "0") else none) = _
  by_cases h1 : s = str "1" ∨ s = str "true"
  · rw [if_pos h1, if_pos h1]; rfl
  · rw [if_neg h1, if_neg h1]
    by_cases h2 : s = str "0" ∨ s = str "false"
    · rw [if_pos h2, if_pos h2]; rfl
    · rw [if_neg h2, if_neg h2]; rfl

theorem itemsOf_cons (custom : Rating.Provider) (f : Frame) (l : List Frame) :
    itemsOf custom (f :: l) = (splitFrame custom f).items ++ itemsOf custom l := by
  unfold itemsOf
  rw [List.flatMap_cons]

/-- **Flags**: the first valid one is kept. -/
theorem id3v2_flag {custom : Rating.Provider} {owned : Bool} {t u : Tag} (h : Through custom owned t u) {k : ItemKey}
    (hk : k = .FlagCompilation ∨ k = .FlagPodcast) :
    u.getItems k = Spec.items k (((t.getItems k).filterMap fun i => Spec.flagOf i.value).take 1) := by
  obtain ⟨fs, hfs, hu, _⟩ := through_items h
  have hf : k ∈ flagKeys := by rcases hk with rfl | rfl <;> decide
  have hp : ∀ k ∈ flagKeys, k ∈ plainText ∧ k ∈ textKeys ∧ k ≠ .TrackNumber ∧ k ≠ .DiscNumber ∧ k ≠ .Genre ∧ readAs .id3v2 k = k := by
    decide
  obtain ⟨p1, p2, p3, p4, p5, p6⟩ := hp k hf
  have e : ((t.getItems k).filterMap fun i => Spec.flagOf i.value) =
      ((t.items.filter fun i => i.key = k).filterMap fun i => i.value.textOf.bind flagItem).map flagText := by
    rw [List.map_filterMap]
    unfold Tag.getItems
    congr 1
    funext i
    cases i.value with
    | text s => exact flag_same s
    | locator s => rfl
    | binary b => rfl
  unfold Tag.getItems at e ⊢
  rw [hu, items_class hfs fun f hm hf => from_text p1 hm hf,
    class_take hfs (isText_same _) (fun _ _ => same_isText), flag_frames hf, e, ← List.map_take, ← List.map_take]
  generalize ((t.items.filter fun i => i.key = k).filterMap fun i => i.value.textOf.bind flagItem).take 1 = l
  unfold itemsOf
  rw [List.flatMap_map]
  simp only [split_text_frame p2 p3 p4 p5, p6, values_pieces]
  have hpf : ∀ b, Spec.pieces (flagText b) = [flagText b] := by decide
  simp only [hpf]
  have : (l.flatMap fun b => Spec.items k [flagText b]) = Spec.items k (l.map flagText) := by
    induction l with
    | nil => rfl
    | cons b l ih => rw [List.flatMap_cons, ih]; rfl
  rw [this]
  exact asItems_filter k _

/-! ## Links and recording ids -/

/-- **Links**: the first is kept, as a link. -/
theorem id3v2_links {custom : Rating.Provider} {owned : Bool} {t u : Tag} (h : Through custom owned t u) {k : ItemKey}
    (hk : k ∈ Spec.linkKeys) : u.getItems k = ((Spec.given owned t k).take 1).map fun s => TagItem.new k (.locator s) := by
  obtain ⟨fs, hfs, hu, _⟩ := through_items h
  have hl : k ∈ urlKeys := hk
  unfold Tag.getItems
  rw [hu, items_class hfs fun f hm hf => from_url hl hm hf,
    class_take hfs (isUrl_same _) (fun _ _ => same_isUrl), url_frames hl, ← List.map_take, given_eq]
  generalize (textsOf owned t.items k).take 1 = l
  induction l with
  | nil => rfl
  | cons s l ih =>
    rw [List.map_cons, List.map_cons, itemsOf_cons, split_url hl, List.singleton_append, List.filter_cons_of_pos (by simp [TagItem.new])]
    exact congrArg _ ih

theorem from_ufid {custom : Rating.Provider} {f : Frame} (hm : MadeFrame custom f) (hf : isUfid f = false) :
    ∀ x ∈ (splitFrame custom f).items, x.key ≠ .MusicBrainzRecordingId := by
  intro x hx he
  rcases made_keys hm hx with ⟨i, v, hi, rfl, hy⟩ | ⟨j, v, hj, rfl, hy⟩ | ⟨j, v, hj, _, hy⟩ | ⟨j, v, hj, rfl, hy⟩ | ⟨_, rfl, _⟩ |
    ⟨_, _, hy⟩ | ⟨_, _, hy⟩ | ⟨_, _, hy⟩ | ⟨_, _, hy⟩
  · rw [he] at hy
    have htab : ∀ i ∈ textKeys, ItemKey.MusicBrainzRecordingId ∉ yieldOf i := by decide
    exact htab i hi hy
  · exact (show ItemKey.MusicBrainzRecordingId ∉ userKeys by decide) (by rw [← he, hy]; exact hj)
  · exact (show ItemKey.MusicBrainzRecordingId ∉ urlKeys by decide) (by rw [← he, hy]; exact hj)
  · exact (show ItemKey.MusicBrainzRecordingId ∉ dateKeys by decide) (by rw [← he, hy]; exact hj)
  · simp [isUfid] at hf
  · rw [he] at hy; cases hy
  · rw [he] at hy; revert hy; decide
  · rw [he] at hy; cases hy
  · rw [he] at hy; cases hy

/-- **Recording ids**: the first that is ASCII is kept, without NULs at its end. -/
theorem id3v2_recording {custom : Rating.Provider} {owned : Bool} {t u : Tag} (h : Through custom owned t u) :
    u.getItems .MusicBrainzRecordingId = Spec.items .MusicBrainzRecordingId
      ((((Spec.given owned t .MusicBrainzRecordingId).filter fun s => s.all fun c => c.toNat < 128).take 1).map Text.trimEndNulls) := by
  obtain ⟨fs, hfs, hu, _⟩ := through_items h
  have e : ((t.items.filter fun i => i.key = .MusicBrainzRecordingId).filterMap (recordingOf owned)) =
      (Spec.given owned t .MusicBrainzRecordingId).filter fun s => s.all fun c => c.toNat < 128 := by
    rw [given_eq]
    unfold textsOf
    rw [List.filter_filterMap]
    congr 1
    funext i
    unfold recordingOf
    cases itemText owned i with
    | none => rfl
    | some s => rfl
  unfold Tag.getItems
  rw [hu, items_class hfs fun f hm hf => from_ufid hm hf,
    class_take hfs isUfid_same (fun _ _ => same_isUfid), ufid_frames, e, ← List.map_take]
  have hall : ∀ s ∈ ((Spec.given owned t .MusicBrainzRecordingId).filter fun s => s.all fun c => c.toNat < 128).take 1,
      ∀ c ∈ s, c.toNat ≤ 127 := by
    intro s hs c hc
    have := (List.mem_filter.mp (List.mem_of_mem_take hs)).2
    have := List.all_eq_true.mp this c hc
    rw [decide_eq_true_eq] at this
    omega
  generalize (((Spec.given owned t .MusicBrainzRecordingId).filter fun s => s.all fun c => c.toNat < 128).take 1) = l at hall
  clear e
  induction l with
  | nil => rfl
  | cons s l ih =>
    rw [List.map_cons, List.map_cons]
    have hs : (splitFrame custom (.leaf {} (.ufid ⟨musicbrainz, utf8 s⟩))).items =
        [TagItem.new .MusicBrainzRecordingId (.text (Text.trimEndNulls s))] := by
      unfold splitFrame
      simp only
      rw [if_neg (by simp)]
      unfold Text.latin1Decode
      rw [utf8_ascii s (hall s (by simp)), Text.latin1_map_map s fun c hc => by have := hall s (by simp) c hc; omega]
    rw [itemsOf_cons, hs, List.singleton_append, List.filter_cons_of_pos (by simp [TagItem.new])]
    exact congrArg _ (ih fun s hs => hall s (by simp [hs]))

/-! ## Numbers -/

theorem numberOf_eq (t : Tag) (k : ItemKey) : Spec.numberOf t k = numberGiven k t.items := by
  unfold Spec.numberOf numberGiven Tag.getItems
  cases (t.items.filter fun i => i.key = k).getLast? with
  | none => rfl
  | some i =>
    simp only [Option.bind_some, parseNumber]
    cases i.value <;> rfl

theorem number_items {custom : Rating.Provider} {owned : Bool} {t u : Tag} (h : Through custom owned t u) {x y k : ItemKey} {n : Str}
    (hn : (x = .TrackNumber ∧ y = .TrackTotal ∧ n = str "TRCK") ∨ (x = .DiscNumber ∧ y = .DiscTotal ∧ n = str "TPOS"))
    (hk : k = x ∨ k = y) : u.getItems k =
      (asItems x (shownNumber (numberGiven x t.items) (numberGiven y t.items)) ++ asItems y (shownTotal (numberGiven y t.items))).filter
        fun i => i.key = k := by
  obtain ⟨fs, hfs, hu, _⟩ := through_items h
  have hfrom : ∀ f, MadeFrame custom f → isText n f = false → ∀ i ∈ (splitFrame custom f).items, i.key ≠ k := by
    intro f hm hf
    refine from_number (j := x) ?_ hm hf
    rcases hn with ⟨rfl, rfl, rfl⟩ | ⟨rfl, rfl, rfl⟩
    · exact .inl ⟨by rcases hk with rfl | rfl <;> decide, rfl, rfl⟩
    · exact .inr ⟨by rcases hk with rfl | rfl <;> decide, rfl, rfl⟩
  have hframes : (allFrames custom owned t.items).filter (isText n) = (numberFrame n (numberGiven x t.items) (numberGiven y t.items)).toList := by
    rcases hn with ⟨rfl, rfl, rfl⟩ | ⟨rfl, rfl, rfl⟩
    · exact track_frames custom owned t.items
    · exact disc_frames custom owned t.items
  have hpair : ∀ v, pairItems n v = splitNumbers v x y := by
    rcases hn with ⟨rfl, rfl, rfl⟩ | ⟨rfl, rfl, rfl⟩ <;> intro v <;> rfl
  unfold Tag.getItems
  rw [hu, items_class hfs hfrom, class_take hfs (isText_same _) (fun _ _ => same_isText), hframes,
    List.take_of_length_le (by cases numberFrame n (numberGiven x t.items) (numberGiven y t.items) <;> simp),
    numberFrame_items (fun _ => numberIn_lt) (fun _ => numberIn_lt) hpair]

/-- **Numbers**: the number and the total that the last items give; a total without a number comes with the number 0, and
an item that is not a number erases the earlier ones. -/
theorem id3v2_numbers {custom : Rating.Provider} {owned : Bool} {t u : Tag} (h : Through custom owned t u) {x y : ItemKey}
    (hn : (x = .TrackNumber ∧ y = .TrackTotal) ∨ (x = .DiscNumber ∧ y = .DiscTotal)) :
    u.getItems x = Spec.items x (match Spec.numberOf t x, Spec.numberOf t y with
      | some n, _ => [toDec n]
      | none, some _ => [str "0"]
      | none, none => []) ∧
    u.getItems y = Spec.items y ((Spec.numberOf t y).toList.map toDec) := by
  have hxy : x ≠ y := by rcases hn with ⟨rfl, rfl⟩ | ⟨rfl, rfl⟩ <;> decide
  obtain ⟨n, hn'⟩ : ∃ n, (x = .TrackNumber ∧ y = .TrackTotal ∧ n = str "TRCK") ∨ (x = .DiscNumber ∧ y = .DiscTotal ∧ n = str "TPOS") := by
    rcases hn with ⟨rfl, rfl⟩ | ⟨rfl, rfl⟩
    · exact ⟨_, .inl ⟨rfl, rfl, rfl⟩⟩
    · exact ⟨_, .inr ⟨rfl, rfl, rfl⟩⟩
  constructor
  · rw [number_items h hn' (.inl rfl), List.filter_append, asItems_filter, asItems_other (Ne.symm hxy), List.append_nil, numberOf_eq,
      numberOf_eq]
    cases numberGiven x t.items <;> cases numberGiven y t.items <;> rfl
  · rw [number_items h hn' (.inr rfl), List.filter_append, asItems_filter, asItems_other hxy, List.nil_append, numberOf_eq]
    rfl

/-! ## Dates -/

/-- **Dates**: every different valid date is kept (in some order), and of the texts that are no dates the first. -/
theorem id3v2_dates {custom : Rating.Provider} {owned : Bool} {t u : Tag} (h : Through custom owned t u) {k : ItemKey}
    (hk : k = .RecordingDate ∨ k = .OriginalReleaseDate) :
    (u.getItems k).Perm (Spec.items k
      (((Spec.firsts id ((Spec.given owned t k).filterMap fun s => (Timestamp.fromStr s).toOption)).filter fun d => d.verify).map Timestamp.fmt ++
        ((((Spec.given owned t k).filter fun s => !(Timestamp.fromStr s).isOk).take 1).flatMap Spec.pieces))) := by
  obtain ⟨fs, hfs, hu, _⟩ := through_items h
  have hd : k ∈ dateKeys := by rcases hk with rfl | rfl <;> decide
  have hp : ∀ k ∈ dateKeys, k ∈ textKeys ∧ k ≠ .TrackNumber ∧ k ≠ .DiscNumber ∧ k ≠ .Genre ∧ readAs .id3v2 k = k := by decide
  obtain ⟨p2, p3, p4, p5, p6⟩ := hp k hd
  have e1 : (Spec.given owned t k).filterMap (fun s => (Timestamp.fromStr s).toOption) =
      (t.items.filter fun i => i.key = k).filterMap (timeOf owned) := by
    rw [given_eq]
    unfold textsOf
    rw [List.filterMap_filterMap]; rfl
  have e2 : (Spec.given owned t k).filter (fun s => !(Timestamp.fromStr s).isOk) =
      (t.items.filter fun i => i.key = k).filterMap (untimed owned) := by
    rw [given_eq]
    unfold textsOf
    rw [List.filter_filterMap]
    congr 1
    funext i
    unfold untimed
    cases itemText owned i with
    | none => rfl
    | some s =>
      simp only [Option.bind_some, Option.filter_some]
      cases Timestamp.fromStr s <;> rfl
  unfold Tag.getItems
  rw [hu, items_class hfs fun f hm hf => from_date hd hm hf, e1, e2]
  have h1 : (itemsOf custom (fs.filter (isTime (nameOf k)))).Perm (Spec.items k
      (((Spec.firsts id ((t.items.filter fun i => i.key = k).filterMap (timeOf owned))).filter fun d => d.verify).map Timestamp.fmt)) := by
    have hperm : (fs.filter (isTime (nameOf k))).Perm
        ((firstBy id ((t.items.filter fun i => i.key = k).filterMap (timeOf owned))).map (newTime (nameOf k))) := by
      have := hfs.filter (isTime (nameOf k))
      unfold fromTag at this
      rw [set_filter (isTime_same _), time_frames hd, set_map (key := id) (fun a b => same_time _ a b)] at this
      exact this
    rw [firsts_eq]
    refine (itemsOf_perm custom hperm).trans ?_
    generalize firstBy id ((t.items.filter fun i => i.key = k).filterMap (timeOf owned)) = l
    refine List.Perm.of_eq ?_
    induction l with
    | nil => rfl
    | cons d l ih =>
      rw [List.map_cons, itemsOf_cons, ih, split_time hd]
      cases hv : d.verify with
      | true => rw [if_pos rfl, List.filter_cons_of_pos (by simpa using hv)]; rfl
      | false => rw [if_neg (by simp), List.filter_cons_of_neg (by simpa using hv)]; rfl
  have h2 : itemsOf custom (fs.filter (isText (nameOf k))) = Spec.items k
      ((((t.items.filter fun i => i.key = k).filterMap (untimed owned)).take 1).flatMap Spec.pieces) := by
    rw [class_take hfs (isText_same _) (fun _ _ => same_isText), date_text_frames hd, ← List.map_take]
    unfold itemsOf
    rw [List.flatMap_map]
    simp only [split_text_frame p2 p3 p4 p5, p6, values_pieces]
    rw [items_flatMap]
  have h3 := (items_two custom (p := isTime (nameOf k)) (q := isText (nameOf k)) (by
    intro f hf
    cases f with
    | leaf fl c => cases c <;> first | rfl | cases hf
    | chapter => rfl
    | toc => rfl) fs).trans (h1.append (List.Perm.of_eq h2))
  have e : Spec.items k (((Spec.firsts id ((t.items.filter fun i => i.key = k).filterMap (timeOf owned))).filter fun d => d.verify).map
      Timestamp.fmt) ++ Spec.items k ((((t.items.filter fun i => i.key = k).filterMap (untimed owned)).take 1).flatMap Spec.pieces) =
      Spec.items k (((Spec.firsts id ((t.items.filter fun i => i.key = k).filterMap (timeOf owned))).filter fun d => d.verify).map
      Timestamp.fmt ++ (((t.items.filter fun i => i.key = k).filterMap (untimed owned)).take 1).flatMap Spec.pieces) := by
    unfold Spec.items
    rw [List.map_append]
  rw [e] at h3
  refine (h3.filter fun x => x.key = k).trans (List.Perm.of_eq ?_)
  exact asItems_filter k _

/-- A single valid date comes back as it is written. -/
theorem id3v2_date {custom : Rating.Provider} {owned : Bool} {t u : Tag} (h : Through custom owned t u) {k : ItemKey}
    (hk : k = .RecordingDate ∨ k = .OriginalReleaseDate) {s : Str} {d : Timestamp} (hs : Spec.given owned t k = [s])
    (hd : Timestamp.fromStr s = .ok d) (hv : d.verify = true) : u.getItems k = Spec.items k [d.fmt] := by
  have := id3v2_dates h hk
  rw [hs] at this
  have e1 : [s].filterMap (fun s => (Timestamp.fromStr s).toOption) = [d] := by
    rw [List.filterMap_cons_some (b := d) (by rw [hd]; rfl)]; rfl
  have e2 : ([s].filter fun s => !(Timestamp.fromStr s).isOk) = [] := by
    rw [List.filter_cons_of_neg (by rw [hd]; simp [Except.isOk, Except.toBool])]; rfl
  rw [e1, e2] at this
  have e3 : Spec.firsts id [d] = [d] := rfl
  rw [e3, List.filter_cons_of_pos (by simpa using hv)] at this
  exact List.perm_singleton.mp this

/-! ## Ratings -/

/-- **Ratings**: the first valid one of each address is kept, exactly (in some order). -/
theorem id3v2_ratings {custom : Rating.Provider} (hc : Rating.Lawful custom) {owned : Bool} {t u : Tag} (h : Through custom owned t u) :
    (u.getItems .Popularimeter).Perm (Spec.items .Popularimeter
      ((Spec.firsts (fun p => p.email.getD []) ((Spec.given owned t .Popularimeter).filterMap (Rating.fromStr custom))).map Rating.Pop.fmt)) := by
  obtain ⟨fs, hfs, hu, _⟩ := through_items h
  have e1 : (Spec.given owned t .Popularimeter).filterMap (Rating.fromStr custom) =
      (t.items.filter fun i => i.key = .Popularimeter).filterMap fun i => (itemText owned i).bind (Rating.fromStr custom) := by
    rw [given_eq]
    unfold textsOf
    rw [List.filterMap_filterMap]
  have hperm : (fs.filter isPop).Perm ((Spec.firsts (fun p : Rating.Pop => p.email.getD [])
      ((Spec.given owned t .Popularimeter).filterMap (Rating.fromStr custom))).map (newPop custom)) := by
    have := hfs.filter isPop
    unfold fromTag at this
    rw [set_filter isPop_same, pop_frames, set_map (key := fun p : Rating.Pop => p.email.getD []) (same_pop custom)] at this
    rw [firsts_eq, e1]
    exact this
  have hok : ∀ p ∈ Spec.firsts (fun p : Rating.Pop => p.email.getD []) ((Spec.given owned t .Popularimeter).filterMap (Rating.fromStr custom)),
      Rating.Proper custom p := by
    intro p hp
    rw [firsts_eq] at hp
    obtain ⟨s, _, hs⟩ := List.mem_filterMap.mp (firstBy_sub _ _ p hp)
    exact (Rating.fromStr_ok hs).1
  unfold Tag.getItems
  rw [hu, items_class hfs fun f hm hf => from_pop hm hf]
  refine ((itemsOf_perm custom hperm).filter fun x => x.key = .Popularimeter).trans (List.Perm.of_eq ?_)
  revert hok
  generalize Spec.firsts (fun p : Rating.Pop => p.email.getD []) ((Spec.given owned t .Popularimeter).filterMap (Rating.fromStr custom)) = l
  intro hok
  have : itemsOf custom (l.map (newPop custom)) = Spec.items .Popularimeter (l.map Rating.Pop.fmt) := by
    induction l with
    | nil => rfl
    | cons p l ih =>
      rw [List.map_cons, itemsOf_cons, ih fun q hq => hok q (by simp [hq])]
      have hb : p.mappedValue custom .id3v2 ≤ 255 := by
        have hl : Rating.Lawful (p.kind.provider custom) := by
          cases p.kind
          · exact Rating.wmp_lawful
          · exact Rating.musicbee_lawful
          · exact Rating.picard_lawful
          · exact hc
        exact hl.byte _ _
      have hsplit : (splitFrame custom (newPop custom p)).items = [TagItem.new .Popularimeter (.text p.fmt)] := by
        unfold newPop splitFrame
        simp only
        rw [UInt8.toNat_ofNat_of_lt' (by show p.mappedValue custom .id3v2 < 256; omega), Rating.mapped_rt hc (hok p (by simp))]
      rw [hsplit]; rfl
  rw [this]
  exact asItems_filter .Popularimeter _

/-! ## People -/

/-- **People**: every name is kept, in order. -/
theorem id3v2_people {custom : Rating.Provider} {owned : Bool} {t u : Tag} (h : Through custom owned t u) {k : ItemKey}
    (hk : k ∈ Spec.peopleKeys) : u.getItems k = Spec.items k (Spec.given owned t k) := by
  obtain ⟨fs, hfs, hu, _⟩ := through_items h
  have hk' : k ∈ tiplMap.map fun e => e.1 := hk
  unfold Tag.getItems
  rw [hu, items_class hfs fun f hm hf => from_kv hk' hm hf, fs_kv hfs, kv_frames, given_eq]
  have := tipl_pairs k hk' owned t.items
  cases hl : t.items.filterMap (tiplOp owned) with
  | nil => rw [hl] at this; exact this
  | cons p l =>
    rw [if_neg (by simp), ← hl, itemsOf_cons]
    have e : (splitFrame custom (Frame.leaf {} (.keyValue ⟨.valid (str "TIPL"), .utf8, t.items.filterMap (tiplOp owned)⟩))).items =
        (t.items.filterMap (tiplOp owned)).filterMap fun p => (tiplMap.find? fun e => e.2 = p.1).map fun e => TagItem.new e.1 (.text p.2) := by
      unfold splitFrame
      simp only [FrameId.asStr]
      rw [if_pos trivial]
    rw [e]
    have e2 : itemsOf custom [] = [] := rfl
    rw [e2, List.append_nil]
    exact this

/-! ## Comments and lyrics -/

/-- The comments (or lyrics) of a tag: language, description and text. -/
def remarks (owned : Bool) (t : Tag) (k : ItemKey) : List ((Bytes × Str) × Str) :=
  (t.getItems k).filterMap fun i => (Spec.textFor owned i.value).map fun v => ((i.lang, i.description), v)

theorem remarks_eq (owned : Bool) (t : Tag) (k : ItemKey) : remarks owned t k = t.items.filterMap (langOp k owned) := by
  unfold remarks Tag.getItems
  rw [List.filterMap_filter]
  apply filterMap_congr'
  intro i _
  unfold langOp
  by_cases h : i.key = k
  · rw [if_pos h, if_pos (by simpa using h), textFor_eq]
  · rw [if_neg h, if_neg (by simpa using h)]

theorem langValues_group {k : ItemKey} {lang : Bytes} (hl : lang.length = 3) (desc content : Str) :
    langValues k ⟨.utf8, langOf lang, desc, content⟩ = Spec.group k lang desc (Spec.pieces content) := by
  unfold langValues
  simp only [langBytes_langOf hl, pieces_eq]
  cases Id3v2.splitOn '\x00' content <;> rfl

theorem pairwise_keys {κ : Type} [DecidableEq κ] {l : List (κ × Str)} (h : (l.map fun e => e.1).Nodup) {g : κ × Str → Frame}
    (hs : ∀ a ∈ l, ∀ b ∈ l, sameFrame (g a) (g b) = true → a.1 = b.1) : (l.map g).Pairwise fun a b => sameFrame a b = false := by
  rw [List.pairwise_map]
  rw [List.Nodup, List.pairwise_map] at h
  refine List.Pairwise.imp_of_mem ?_ h
  intro a b ha hb hne
  cases hsame : sameFrame (g a) (g b) with
  | false => rfl
  | true => exact absurd (hs a ha b hb hsame) hne

/-- What is common to comments and lyrics. -/
theorem lang_items {custom : Rating.Provider} {owned : Bool} {t u : Tag} (h : Through custom owned t u) {k : ItemKey}
    (hlang : ∀ i ∈ t.items, i.lang.length = 3) {p : Frame → Bool} {g : (Bytes × Str) × Str → Frame}
    (hp : ∀ a b, sameFrame a b = true → p a = p b) (hfrom : ∀ f, MadeFrame custom f → p f = false → ∀ x ∈ (splitFrame custom f).items, x.key ≠ k)
    (hframes : (allFrames custom owned t.items).filter p =
      ((t.items.filterMap (langOp k owned)).foldl (fun l e => upsert (extendText e.2) e.1 e.2 l) []).map g)
    (hsame : ∀ a b, sameFrame (g a) (g b) = true → langOf a.1.1 = langOf b.1.1 ∧ a.1.2 = b.1.2)
    (hsplit : ∀ e, (splitFrame custom (g e)).items = langValues k ⟨.utf8, langOf e.1.1, e.1.2, e.2⟩) :
    (u.getItems k).Perm ((Spec.firsts id ((remarks owned t k).map fun e => e.1)).flatMap fun d =>
      Spec.group k d.1 d.2 ((((remarks owned t k).filter fun e => e.1 = d).map fun e => e.2).flatMap Spec.pieces)) := by
  obtain ⟨fs, hfs, hu, _⟩ := through_items h
  rw [← remarks_eq, upserts_eq] at hframes
  have hlen : ∀ e ∈ remarks owned t k, e.1.1.length = 3 := by
    intro e he
    obtain ⟨i, hi, hie⟩ := List.mem_filterMap.mp he
    obtain ⟨v, _, rfl⟩ := mem_optMap' hie
    exact hlang i (List.mem_filter.mp hi).1
  have hlen' : ∀ d ∈ firstBy (fun d => d) ((remarks owned t k).map fun e => e.1), d.1.length = 3 := by
    intro d hd
    obtain ⟨e, he, rfl⟩ := List.mem_map.mp (firstBy_sub _ _ d hd)
    exact hlen e he
  have hnodup : (firstBy (fun d => d) ((remarks owned t k).map fun e => e.1)).Nodup := firstBy_nodup _
  have hperm : (fs.filter p).Perm ((allFrames custom owned t.items).filter p) := by
    have := hfs.filter p
    unfold fromTag at this
    rw [set_filter hp, set_distinct] at this
    · exact this
    · rw [hframes]
      refine pairwise_keys ?_ ?_
      · rw [List.map_map]
        exact (List.map_id _).symm ▸ hnodup
      · intro a ha b hb hab
        obtain ⟨da, hda, rfl⟩ := List.mem_map.mp ha
        obtain ⟨db, hdb, rfl⟩ := List.mem_map.mp hb
        obtain ⟨h1, h2⟩ := hsame _ _ hab
        exact Prod.ext (langOf_inj (hlen' da hda) (hlen' db hdb) h1) h2
  unfold Tag.getItems
  rw [hu, items_class hfs hfrom]
  refine ((itemsOf_perm custom hperm).filter fun x => x.key = k).trans (List.Perm.of_eq ?_)
  rw [hframes, firsts_eq]
  have hid : firstBy id ((remarks owned t k).map fun e => e.1) = firstBy (fun d => d) ((remarks owned t k).map fun e => e.1) := rfl
  rw [hid]
  revert hlen'
  generalize hds : firstBy (fun d => d) ((remarks owned t k).map fun e => e.1) = ds
  have hmem : ∀ d ∈ ds, ∃ e ∈ remarks owned t k, e.1 = d := by
    intro d hd
    rw [← hds] at hd
    exact List.mem_map.mp (firstBy_sub _ _ d hd)
  clear hds hnodup hframes hperm
  intro hlen'
  induction ds with
  | nil => rfl
  | cons d ds ih =>
    have hd3 := hlen' d (by simp)
    rw [List.map_cons, List.map_cons, itemsOf_cons, List.filter_append, ih (fun x hx => hmem x (by simp [hx])) (fun x hx => hlen' x (by simp [hx])),
      List.flatMap_cons, hsplit]
    congr 1
    rw [langValues_group hd3]
    have hne : ((remarks owned t k).filter fun e => e.1 = d).map (fun e => e.2) ≠ [] := by
      obtain ⟨e, he, hed⟩ := hmem d (by simp)
      intro hnil
      have := List.map_eq_nil_iff.mp hnil
      rw [List.filter_eq_nil_iff] at this
      exact this e he (by simpa using hed)
    have hj : Spec.pieces ((joined (((remarks owned t k).filter fun e => e.1 = d).map fun e => e.2)).getD []) =
        (((remarks owned t k).filter fun e => e.1 = d).map fun e => e.2).flatMap Spec.pieces := by
      have h1 := splitOn_joined (((remarks owned t k).filter fun e => e.1 = d).map fun e => e.2)
      rw [← pieces_fun] at h1
      rw [joined_joinNul _ hne] at h1 ⊢
      rw [← h1]
      simp
    rw [hj]
    have hkey : ∀ (l : List Str), ∀ x ∈ Spec.group k d.1 d.2 l, x.key = k := by
      intro l x hx
      cases l with
      | nil => cases hx
      | cons v vs =>
        rcases List.mem_cons.mp hx with rfl | hx
        · rfl
        · obtain ⟨_, _, rfl⟩ := List.mem_map.mp hx; rfl
    rw [List.filter_eq_self]
    intro x hx
    simpa using hkey _ x hx

/-- **Comments**: every text is kept. Comments with the same language and description are one comment with several texts,
and only the first of its texts keeps the description. -/
theorem id3v2_comments {custom : Rating.Provider} {owned : Bool} {t u : Tag} (h : Through custom owned t u)
    (hlang : ∀ i ∈ t.items, i.lang.length = 3) :
    (u.getItems .Comment).Perm ((Spec.firsts id ((remarks owned t .Comment).map fun e => e.1)).flatMap fun d =>
      Spec.group .Comment d.1 d.2 ((((remarks owned t .Comment).filter fun e => e.1 = d).map fun e => e.2).flatMap Spec.pieces)) := by
  refine lang_items h hlang (p := isComment) (g := newComment) (fun a b hab => (isComment_same a b hab).1) ?_ ?_ ?_ (fun e => rfl)
  · intro f hm hf x hx he
    rcases made_keys hm hx with ⟨i, v, hi, rfl, hy⟩ | ⟨j, v, hj, rfl, hy⟩ | ⟨j, v, hj, _, hy⟩ | ⟨j, v, hj, rfl, hy⟩ | ⟨_, _, hy⟩ |
      ⟨_, _, hy⟩ | ⟨_, _, hy⟩ | ⟨_, rfl, _⟩ | ⟨_, _, hy⟩
    · rw [he] at hy
      have htab : ∀ i ∈ textKeys, ItemKey.Comment ∉ yieldOf i := by decide
      exact htab i hi hy
    · exact (show ItemKey.Comment ∉ userKeys by decide) (by rw [← he, hy]; exact hj)
    · exact (show ItemKey.Comment ∉ urlKeys by decide) (by rw [← he, hy]; exact hj)
    · exact (show ItemKey.Comment ∉ dateKeys by decide) (by rw [← he, hy]; exact hj)
    · rw [he] at hy; cases hy
    · rw [he] at hy; cases hy
    · rw [he] at hy; revert hy; decide
    · cases hf
    · rw [he] at hy; cases hy
  · rw [comment_frames, ctx_comments]
  · intro a b hab
    simpa [sameFrame, newComment, Id3v2.sameContent] using hab

/-- **Lyrics**, likewise. -/
theorem id3v2_lyrics {custom : Rating.Provider} {owned : Bool} {t u : Tag} (h : Through custom owned t u)
    (hlang : ∀ i ∈ t.items, i.lang.length = 3) :
    (u.getItems .UnsyncLyrics).Perm ((Spec.firsts id ((remarks owned t .UnsyncLyrics).map fun e => e.1)).flatMap fun d =>
      Spec.group .UnsyncLyrics d.1 d.2 ((((remarks owned t .UnsyncLyrics).filter fun e => e.1 = d).map fun e => e.2).flatMap Spec.pieces)) := by
  refine lang_items h hlang (p := isLyrics) (g := newLyrics) (fun a b hab => (isComment_same a b hab).2) ?_ ?_ ?_ (fun e => rfl)
  · intro f hm hf x hx he
    rcases made_keys hm hx with ⟨i, v, hi, rfl, hy⟩ | ⟨j, v, hj, rfl, hy⟩ | ⟨j, v, hj, _, hy⟩ | ⟨j, v, hj, rfl, hy⟩ | ⟨_, _, hy⟩ |
      ⟨_, _, hy⟩ | ⟨_, _, hy⟩ | ⟨_, _, hy⟩ | ⟨_, rfl, _⟩
    · rw [he] at hy
      have htab : ∀ i ∈ textKeys, ItemKey.UnsyncLyrics ∉ yieldOf i := by decide
      exact htab i hi hy
    · exact (show ItemKey.UnsyncLyrics ∉ userKeys by decide) (by rw [← he, hy]; exact hj)
    · exact (show ItemKey.UnsyncLyrics ∉ urlKeys by decide) (by rw [← he, hy]; exact hj)
    · exact (show ItemKey.UnsyncLyrics ∉ dateKeys by decide) (by rw [← he, hy]; exact hj)
    · rw [he] at hy; cases hy
    · rw [he] at hy; cases hy
    · rw [he] at hy; revert hy; decide
    · rw [he] at hy; cases hy
    · cases hf
  · rw [lyrics_frames, ctx_lyrics]
  · intro a b hab
    simpa [sameFrame, newLyrics, Id3v2.sameContent] using hab

/-! ## What is lost, and pictures -/

/-- **Lost keys.** Nothing is found under these keys, whatever the tag had. -/
theorem id3v2_gone {custom : Rating.Provider} {owned : Bool} {t u : Tag} (h : Through custom owned t u) {k : ItemKey}
    (hk : k ∈ Spec.goneKeys) : u.getItems k = [] := by
  obtain ⟨fs, hfs, hu, _⟩ := through_items h
  have hmade : ∀ f ∈ fs, MadeFrame custom f := fun f hf => made_all (mem_set (hfs.mem_iff.mp hf))
  have htab : ∀ k ∈ Spec.goneKeys, k ∉ textKeys.flatMap yieldOf ∧ k ∉ userKeys ∧ k ∉ urlKeys ∧ k ∉ dateKeys ∧ k ≠ .MusicBrainzRecordingId ∧
      k ≠ .Popularimeter ∧ k ∉ tiplMap.map (fun e => e.1) ∧ k ≠ .Comment ∧ k ≠ .UnsyncLyrics := by decide +kernel
  obtain ⟨a1, a2, a3, a4, a5, a6, a7, a8, a9⟩ := htab k hk
  unfold Tag.getItems
  rw [hu, List.filter_eq_nil_iff]
  intro x hx he
  have he : x.key = k := by simpa using he
  obtain ⟨f, hf, hxf⟩ := List.mem_flatMap.mp hx
  rcases made_keys (hmade f hf) hxf with ⟨j, v, hj, rfl, hy⟩ | ⟨j, v, hj, rfl, hy⟩ | ⟨j, v, hj, _, hy⟩ | ⟨j, v, hj, _, hy⟩ | ⟨_, _, hy⟩ |
    ⟨_, _, hy⟩ | ⟨_, _, hy⟩ | ⟨_, _, hy⟩ | ⟨_, _, hy⟩
  · exact a1 (List.mem_flatMap.mpr ⟨j, hj, he ▸ hy⟩)
  · exact a2 (by rw [← he, hy]; exact hj)
  · exact a3 (by rw [← he, hy]; exact hj)
  · exact a4 (by rw [← he, hy]; exact hj)
  · exact a5 (he.symm.trans hy)
  · exact a6 (he.symm.trans hy)
  · exact a7 (by rw [← he]; exact hy)
  · exact a8 (he.symm.trans hy)
  · exact a9 (he.symm.trans hy)

/-- The theorems above cover every key. -/
theorem id3v2_every_key (k : ItemKey) : k ∈ Spec.severalKeys ++ Spec.firstKeys ++ Spec.lastKeys ++ Spec.linkKeys ++ Spec.peopleKeys ++
    Spec.goneKeys ++ Spec.otherKeys := by
  have : ∀ k ∈ ItemKey.all, k ∈ Spec.severalKeys ++ Spec.firstKeys ++ Spec.lastKeys ++ Spec.linkKeys ++ Spec.peopleKeys ++
    Spec.goneKeys ++ Spec.otherKeys := by decide +kernel
  exact this k k.mem_all

/-- **Pictures**: all of them are kept when a tag is saved directly; a conversion keeps each different picture once. -/
theorem id3v2_pictures {custom : Rating.Provider} {owned : Bool} {t u : Tag} (h : Through custom owned t u) :
    (owned = false → u.pictures = t.pictures) ∧
    (owned = true → (∀ p, p ∈ u.pictures ↔ p ∈ t.pictures) ∧ u.pictures.Nodup ∧ (t.pictures.Nodup → u.pictures = t.pictures)) := by
  obtain ⟨_, _, _, hp⟩ := through_items h
  constructor
  · rintro rfl; exact hp
  · rintro rfl
    rw [if_pos rfl] at hp
    rw [hp]
    exact ⟨lastOnly_mem _, lastOnly_nodup _, lastOnly_id⟩

/-! ## Concrete cases -/

/-- The generic view after the conversion, with the frames in the order of insertion. -/
def viewed (owned : Bool) (t : Tag) : Tag :=
  (splitId3v2 Rating.default (fromTag Rating.default owned t.items ++ (lastOnly t.pictures).map newPicture)).2

theorem viewed_through (t : Tag) : Through Rating.default true t (viewed true t) :=
  ⟨fromTag Rating.default true t.items, _, List.Perm.refl _, by rw [if_pos rfl]; exact merge_ok (List.Perm.refl _), rfl⟩

/-- The texts of an item. -/
def shown (u : Tag) : List (ItemKey × Option Str) := u.items.map fun i => (i.key, i.value.intoString)

-- several artists, one title, numbers, a date, a rating and people
example : shown (viewed true (sample [(.TrackArtist, "a"), (.TrackTitle, "t"), (.TrackArtist, "b"), (.TrackNumber, "3"), (.TrackTotal, "12"),
      (.RecordingDate, "2020-05"), (.Popularimeter, "x@y|4|77"), (.Producer, "p"), (.Producer, "q"), (.Genre, "17")])) =
    [(.RecordingDate, some (str "2020-05")), (.Popularimeter, some (str "x@y|4|77")), (.Producer, some (str "p")), (.Producer, some (str "q")),
     (.TrackArtist, some (str "a")), (.TrackArtist, some (str "b")), (.TrackTitle, some (str "t")), (.Genre, some (str "Rock")),
     (.TrackNumber, some (str "3")), (.TrackTotal, some (str "12"))] := by decide +kernel

example : ∃ u, Through Rating.default true (sample [(.TrackArtist, "a"), (.TrackArtist, "b")]) u ∧
    u.getItems .TrackArtist = Spec.items .TrackArtist [str "a", str "b"] :=
  ⟨_, viewed_through _, by rw [id3v2_several_plain (viewed_through _) (by decide) (by decide +kernel)]; decide +kernel⟩

example : Rating.Lawful Rating.default := Rating.default_lawful

/-- A label hides every publisher. -/
theorem publisher_lost : shown (viewed true (sample [(.Publisher, "a"), (.Label, "b"), (.Publisher, "c")])) =
    [(.Publisher, some (str "b"))] := by decide +kernel

/-- MusicBrainz ids of releases, release groups and tracks are dropped, and so are the numbers of movements and the colour. -/
theorem ids_lost : (viewed true (sample [(.MusicBrainzReleaseId, "a"), (.MusicBrainzTrackId, "b"), (.MusicBrainzReleaseGroupId, "c"),
    (.MovementNumber, "1"), (.MovementTotal, "2"), (.Color, "d")])).items = [] ∧
    ∀ k ∈ [ItemKey.MusicBrainzReleaseId, .MusicBrainzTrackId, .MusicBrainzReleaseGroupId, .MovementNumber, .MovementTotal, .Color],
      (mapKey .id3v2 k).isSome = true := by decide +kernel

/-- The second of two comments without distinction loses its description. -/
theorem description_lost : (viewed true ⟨.id3v2, [], [⟨[101, 110, 103], str "d", .Comment, .text (str "a")⟩,
      ⟨[101, 110, 103], str "d", .Comment, .text (str "b")⟩], false⟩).items =
    [⟨[101, 110, 103], str "d", .Comment, .text (str "a")⟩, ⟨[101, 110, 103], [], .Comment, .text (str "b")⟩] := by decide +kernel

/-- Saved directly, a tag loses its links; converted first, it keeps them. -/
theorem links_lost : (viewed false ⟨.id3v2, [], [TagItem.new .AudioFileUrl (.locator (str "http://x"))], false⟩).items = [] ∧
    (viewed true ⟨.id3v2, [], [TagItem.new .AudioFileUrl (.locator (str "http://x"))], false⟩).items =
      [TagItem.new .AudioFileUrl (.locator (str "http://x"))] := by decide +kernel

/-- A later text that is no number erases the number; a total alone makes the number 0. -/
theorem number_erased : shown (viewed true (sample [(.TrackNumber, "3"), (.TrackNumber, "x")])) = [] ∧
    shown (viewed true (sample [(.TrackTotal, "12")])) = [(.TrackNumber, some (str "0")), (.TrackTotal, some (str "12"))] := by
  decide +kernel

/-- The name of an encoder becomes its settings, and of several ISRCs only the first stays. -/
theorem encoder_renamed : shown (viewed true (sample [(.EncoderSoftware, "e"), (.EncoderSettings, "s"), (.Isrc, "1"), (.Isrc, "2")])) =
    [(.EncoderSettings, some (str "e")), (.Isrc, some (str "1"))] := by decide +kernel

end Lofty.Convert
