import Verif.Props.Convert
/-!
# Conversion of generic tags: Vorbis comments (C49, C50)
-/
namespace Lofty.Convert
open Lofty.Item

/-! ## Keys and pictures -/

theorem vorbis_no_colon {s : Str} (h : ':' ∈ s) : fromKey .vorbisComments s = none := by
  cases hf : fromKey .vorbisComments s with
  | none => rfl
  | some k =>
    exfalso
    obtain ⟨rows, hr, row, hrow, key, hkey, he⟩ := (fromKey_isSome .vorbisComments s).mp (by rw [hf]; rfl)
    have hall : ∀ row ∈ vorbisMap, ∀ n ∈ row.1, ':' ∉ (str n).map lowerChar := by decide +kernel
    have hrows : rows = vorbisMap := by
      have : mapOf .vorbisComments = some vorbisMap := rfl
      rw [this] at hr; exact (Option.some.inj hr).symm
    subst hrows
    apply hall row hrow key hkey
    rw [eqIc, beq_iff_eq] at he
    rw [he]
    exact List.mem_map.mpr ⟨':', h, by decide⟩

/-- The pictures that Vorbis comments keep: those whose dimensions can be determined or are unknown, that is all of the
supported formats that are not broken. -/
def pictureKept (p : Picture.Pic) : Bool := (Picture.infoOf p).toOption.isSome

theorem mergePictures_ok {l : List Picture.Pic} {r : List (Picture.Pic × Picture.Info)} (h : mergePictures l = .ok r) :
    r.map (fun p => p.1) = l.filter pictureKept ∧ ∀ p ∈ r, Picture.infoOf p.1 = .ok p.2 := by
  induction l generalizing r with
  | nil => cases h; exact ⟨rfl, by simp⟩
  | cons p ps ih =>
    unfold mergePictures at h
    cases hi : Picture.infoOf p with
    | ok i =>
      rw [hi] at h
      simp only at h
      cases hm : mergePictures ps with
      | error e => rw [hm] at h; cases h
      | ok q =>
        rw [hm] at h
        cases h
        obtain ⟨h1, h2⟩ := ih hm
        refine ⟨?_, ?_⟩
        · rw [List.map_cons, h1, List.filter_cons_of_pos (by simp [pictureKept, hi, Except.toOption])]
        · intro x hx
          rcases List.mem_cons.mp hx with rfl | hx
          · exact hi
          · exact h2 x hx
    | error e =>
      rw [hi] at h
      have hf : (p :: ps).filter pictureKept = ps.filter pictureKept :=
        List.filter_cons_of_neg (by simp [pictureKept, hi, Except.toOption])
      rw [hf]
      cases e <;> simp only at h <;> first | cases h | exact ih h

/-! ## Generic tag to Vorbis comments and back -/

/-- What becomes of an item: texts and locators of supported keys stay, as texts without language and description; a flag
is written as 1 or 0 and dropped if it is neither; of a rating the counter is lost, and a rating without email comes back
as a bare number. -/
def vorbisKept (custom : Rating.Provider) (i : TagItem) : Option TagItem :=
  match i.value with
  | .binary _ => none
  | .text s | .locator s =>
    if i.key = .FlagCompilation then (flagItem s).map fun b => TagItem.new i.key (.text (flagText b))
    else if i.key = .Popularimeter then
      (Rating.fromStr custom s).bind fun p =>
        match p.email with
        | some e =>
          if Vorbis.validKey (utf8 e) then some (TagItem.new i.key (.text { p with counter := 0 }.fmt)) else none
        | none => some (TagItem.new i.key (.text (toDec (p.mappedValue custom .vorbisComments))))
    else if supports .vorbisComments i.key then some (TagItem.new i.key (.text s))
    else none

theorem mappedValue_lt {custom : Rating.Provider} (hc : Rating.Lawful custom) (p : Rating.Pop) (t : TagType) :
    p.mappedValue custom t < 2 ^ 8 := by
  have hl : Rating.Lawful (p.kind.provider custom) := by
    cases p.kind
    · exact Rating.wmp_lawful
    · exact Rating.musicbee_lawful
    · exact Rating.picard_lawful
    · exact hc
  have := hl.byte t p.rating
  unfold Rating.Pop.mappedValue
  omega

theorem split_plain (custom : Rating.Provider) {k : ItemKey} {n : Str} (h : mapKey .vorbisComments k = some n) (s : Str) :
    splitComment custom (n, s) = some (TagItem.new k (.text s)) := by
  unfold splitComment
  simp only
  rw [fromKey_mapKey h, readAs_plain (by simp)]

/-- A rating with an email is read as the same rating, with the counter zero. -/
theorem split_rating {custom : Rating.Provider} (hc : Rating.Lawful custom) {p : Rating.Pop} (hp : Rating.Proper custom p)
    {e : Str} (he : p.email = some e) :
    splitComment custom (str "RATING" ++ ':' :: e, toDec (p.mappedValue custom .vorbisComments)) =
      some (TagItem.new .Popularimeter (.text { p with counter := 0 }.fmt)) := by
  unfold splitComment
  simp only
  rw [vorbis_no_colon (by simp)]
  simp only
  have ht : (str "RATING" ++ ':' :: e).take 7 = str "RATING:" := by
    show (['R', 'A', 'T', 'I', 'N', 'G', ':'] ++ e).take 7 = _
    rfl
  have hd : (str "RATING" ++ ':' :: e).drop 7 = e := by
    show (['R', 'A', 'T', 'I', 'N', 'G', ':'] ++ e).drop 7 = _
    rfl
  rw [if_pos ht, hd, parseUInt_toDec (mappedValue_lt hc p _), Option.bind_some]
  have hm := Rating.mapped_rt hc (p := { p with counter := 0 }) hp .vorbisComments
  simp only [he, Option.getD_some] at hm
  have hv : ({ p with counter := 0 } : Rating.Pop).mappedValue custom .vorbisComments = p.mappedValue custom .vorbisComments := rfl
  have hm' : Rating.mapped custom e .vorbisComments (p.mappedValue custom .vorbisComments) 0 = some { p with counter := 0 } := by
    rw [← hv]
    rw [he]
    exact hm
  rw [hm', Option.map_some]

theorem merge_split {custom : Rating.Provider} (hc : Rating.Lawful custom) (i : TagItem) :
    (mergeComment custom i).bind (splitComment custom) = vorbisKept custom i := by
  have hcomp : mapKey .vorbisComments .FlagCompilation = some (str "COMPILATION") := by decide +kernel
  have hrat : mapKey .vorbisComments .Popularimeter = some (str "RATING") := by decide +kernel
  have key : ∀ s : Str, ((if i.key = .FlagCompilation then (flagItem s).map flagText else some s).bind fun val =>
      (mapKey .vorbisComments i.key).bind fun key =>
        if i.key = .Popularimeter then
          (Rating.fromStr custom val).bind fun p =>
            let value := toDec (p.mappedValue custom .vorbisComments)
            match p.email with
            | some e => if Vorbis.validKey (utf8 e) then some (key ++ ':' :: e, value) else none
            | none => some (key, value)
        else some (key, val)).bind (splitComment custom) =
      if i.key = .FlagCompilation then (flagItem s).map fun b => TagItem.new i.key (.text (flagText b))
      else if i.key = .Popularimeter then
        (Rating.fromStr custom s).bind fun p =>
          match p.email with
          | some e =>
            if Vorbis.validKey (utf8 e) then some (TagItem.new i.key (.text { p with counter := 0 }.fmt)) else none
          | none => some (TagItem.new i.key (.text (toDec (p.mappedValue custom .vorbisComments))))
      else if supports .vorbisComments i.key then some (TagItem.new i.key (.text s))
      else none := by
    intro s
    by_cases h1 : i.key = .FlagCompilation
    · have hne : ¬ i.key = .Popularimeter := by rw [h1]; decide
      have hm : mapKey .vorbisComments i.key = some (str "COMPILATION") := by rw [h1]; exact hcomp
      simp only [if_pos h1, if_neg hne, hm, Option.bind_some]
      cases flagItem s with
      | none => rfl
      | some b =>
        simp only [Option.map_some, Option.bind_some]
        exact split_plain custom hm _
    · rw [if_neg h1, if_neg h1, Option.bind_some]
      by_cases h2 : i.key = .Popularimeter
      · have hm : mapKey .vorbisComments i.key = some (str "RATING") := by rw [h2]; exact hrat
        simp only [if_pos h2, hm, Option.bind_some]
        cases hp : Rating.fromStr custom s with
        | none => rfl
        | some p =>
          simp only [Option.bind_some]
          cases he : p.email with
          | none =>
            simp only [Option.bind_some]
            exact split_plain custom hm _
          | some e =>
            simp only
            split
            · have hr := split_rating hc (Rating.fromStr_ok hp).1 he
              rw [he] at hr
              rw [Option.bind_some, h2]
              exact hr
            · rfl
      · simp only [if_neg h2]
        rw [supports_map (by decide)]
        cases hm : mapKey .vorbisComments i.key with
        | none => rfl
        | some n =>
          simp only [Option.bind_some, Option.isSome_some, if_true]
          exact split_plain custom hm s
  unfold mergeComment vorbisKept
  rcases i.value with s | s | d
  · exact key s
  · exact key s
  · rfl

theorem vorbisKept_key {custom : Rating.Provider} {i j : TagItem} (h : vorbisKept custom i = some j) : j.key = i.key := by
  unfold vorbisKept at h
  have fin : ∀ {v : ItemValue}, TagItem.new i.key v = j → j.key = i.key := by
    intro v hv; rw [← hv]; rfl
  have key : ∀ s : Str, (if i.key = .FlagCompilation then (flagItem s).map fun b => TagItem.new i.key (.text (flagText b))
      else if i.key = .Popularimeter then
        (Rating.fromStr custom s).bind fun p =>
          match p.email with
          | some e =>
            if Vorbis.validKey (utf8 e) then some (TagItem.new i.key (.text { p with counter := 0 }.fmt)) else none
          | none => some (TagItem.new i.key (.text (toDec (p.mappedValue custom .vorbisComments))))
      else if supports .vorbisComments i.key then some (TagItem.new i.key (.text s))
      else none) = some j → j.key = i.key := by
    intro s h
    split at h
    · cases hf : flagItem s with
      | none => rw [hf] at h; cases h
      | some b => rw [hf] at h; exact fin (Option.some.inj h)
    · split at h
      · cases hp : Rating.fromStr custom s with
        | none => rw [hp] at h; cases h
        | some p =>
          rw [hp, Option.bind_some] at h
          cases he : p.email with
          | none => rw [he] at h; exact fin (Option.some.inj h)
          | some e =>
            rw [he] at h
            simp only at h
            split at h
            · exact fin (Option.some.inj h)
            · cases h
      · split at h
        · exact fin (Option.some.inj h)
        · cases h
  revert h
  rcases i.value with s | s | d
  · exact key s
  · exact key s
  · intro h; cases h

/-- **Generic tag to Vorbis comments and back**: the vendor is the first encoder of the tag and comes last; all other
items are kept as `vorbisKept` says, and the pictures that are not broken, in order.  The order of the items is only
certain if the tag has no encoder. -/
theorem vorbis_rt_partial {custom : Rating.Provider} (hc : Rating.Lawful custom) {t : Tag} {v : Vorbis.Tag}
    (h : toVorbis custom t = .ok v) :
    (∃ l, (ofVorbis custom v).items =
        l ++ [TagItem.new .EncoderSoftware (.text (((t.getItems .EncoderSoftware).head?.bind fun i => i.value.textOf).getD []))] ∧
      l.Perm ((t.items.filter fun i => i.key ≠ .EncoderSoftware).filterMap (vorbisKept custom)) ∧
      (t.getItems .EncoderSoftware = [] → l = t.items.filterMap (vorbisKept custom))) ∧
    (ofVorbis custom v).pictures = t.pictures.filter pictureKept := by
  unfold toVorbis mergeVorbis at h
  obtain ⟨h1, h2, h3⟩ := take_partial t .EncoderSoftware
  have h4 : (t.take .EncoderSoftware).2.pictures = t.pictures := rfl
  revert h
  simp only
  rw [h4]
  cases hp : mergePictures t.pictures with
  | error e => intro h; cases h
  | ok pics =>
    intro h
    simp only [Except.map, Except.ok.injEq] at h
    subst h
    unfold ofVorbis splitVorbis
    simp only [List.nil_append]
    refine ⟨⟨(t.take .EncoderSoftware).2.items.filterMap (vorbisKept custom), ?_, ?_, ?_⟩, (mergePictures_ok hp).1⟩
    · rw [List.filterMap_filterMap]
      have hf : ((t.take .EncoderSoftware).2.items.filterMap fun i => (mergeComment custom i).bind (splitComment custom)) =
          (t.take .EncoderSoftware).2.items.filterMap (vorbisKept custom) := by
        congr 1; funext i; exact merge_split hc i
      rw [hf]
      have hno : ((t.take .EncoderSoftware).2.items.filterMap (vorbisKept custom)).any
          (fun i => decide (i.key = .EncoderSoftware)) = false := by
        rw [List.any_eq_false]
        intro j hj
        rw [List.mem_filterMap] at hj
        obtain ⟨i, hi, hij⟩ := hj
        rw [vorbisKept_key hij]
        intro hk
        have : i ∈ (t.take .EncoderSoftware).2.getItems .EncoderSoftware := List.mem_filter.mpr ⟨hi, hk⟩
        rw [h3] at this
        cases this
      unfold addVendor
      rw [hno]
      simp only [Bool.false_eq_true, if_false]
      congr 4
      rw [h1]
      unfold vendorOf
      cases (t.getItems .EncoderSoftware).head? with
      | none => rfl
      | some i => rfl
    · exact h2.filterMap _
    · intro h0
      have : (t.take .EncoderSoftware).2 = t := by
        apply (takeFilter_partial t .EncoderSoftware fun _ => true).2.2.1
        have := h1.trans h0
        exact this
      rw [this]

/-- The texts of a key without special treatment are all found again; in the same order if there is no encoder. -/
theorem vorbis_strings {custom : Rating.Provider} (hc : Rating.Lawful custom) {t : Tag} {v : Vorbis.Tag}
    (h : toVorbis custom t = .ok v) {k : ItemKey} (hs : supports .vorbisComments k = true) (h1 : k ≠ .FlagCompilation)
    (h2 : k ≠ .Popularimeter) (h3 : k ≠ .EncoderSoftware) :
    ((ofVorbis custom v).getStrings k).Perm (strings t k) ∧
      (t.getItems .EncoderSoftware = [] → (ofVorbis custom v).getStrings k = strings t k) := by
  obtain ⟨⟨l, hl, hp, hx⟩, _⟩ := vorbis_rt_partial hc h
  have hk : ∀ i : TagItem, (vorbisKept custom i).bind (fun j => if j.key = k then j.value.textOf else none) =
      if i.key = k then i.value.intoString else none := by
    intro i
    by_cases hi : i.key = k
    · rw [if_pos hi]
      unfold vorbisKept
      rcases hv : i.value with s | s | d
      · simp [hi, h1, h2, hs, TagItem.new, ItemValue.textOf, ItemValue.intoString]
      · simp [hi, h1, h2, hs, TagItem.new, ItemValue.textOf, ItemValue.intoString]
      · simp [ItemValue.intoString]
    · rw [if_neg hi]
      cases hj : vorbisKept custom i with
      | none => rfl
      | some j => rw [Option.bind_some, if_neg]; rw [vorbisKept_key hj]; exact hi
  have hg : (ofVorbis custom v).getStrings k = l.filterMap (fun j => if j.key = k then j.value.textOf else none) := by
    show (ofVorbis custom v).items.filterMap _ = _
    rw [hl, List.filterMap_append]
    have : ([TagItem.new .EncoderSoftware (.text (((t.getItems .EncoderSoftware).head?.bind fun i => i.value.textOf).getD []))].filterMap
        fun j => if j.key = k then j.value.textOf else none) = [] := by
      simp [TagItem.new, Ne.symm h3]
    rw [this, List.append_nil]
  have hst : ∀ m : List TagItem, (m.filterMap (vorbisKept custom)).filterMap (fun j => if j.key = k then j.value.textOf else none) =
      (m.filter fun i => i.key = k).filterMap fun i => i.value.intoString := by
    intro m
    rw [List.filterMap_filterMap, List.filterMap_filter]
    congr 1
    funext i
    rw [hk i]
    by_cases hi : i.key = k <;> simp [hi]
  rw [hg]
  constructor
  · refine (hp.filterMap _).trans ?_
    rw [hst, List.filter_filter]
    have : (t.items.filter fun i => decide (i.key = k) && decide (i.key ≠ .EncoderSoftware)) = t.getItems k := by
      unfold Tag.getItems
      congr 1
      funext i
      by_cases hi : i.key = k <;> simp [hi, h3]
    rw [this]
    exact .refl _
  · intro h0
    rw [hx h0, hst]
    rfl

/-- A tag with an encoder, several artists, a flag, a rating and a key that Vorbis comments do not have. -/
def vorbisSample : Tag := sample [(.TrackArtist, "a"), (.Popularimeter, "x@y|4|77"), (.TrackArtist, "b"), (.AppleXid, "z"),
  (.FlagCompilation, "true")]

example : ∃ v, toVorbis Rating.default vorbisSample = .ok v ∧ (ofVorbis Rating.default v).items =
    [TagItem.new .TrackArtist (.text (str "a")), TagItem.new .Popularimeter (.text (str "x@y|4|0")),
     TagItem.new .TrackArtist (.text (str "b")), TagItem.new .FlagCompilation (.text (str "1")),
     TagItem.new .EncoderSoftware (.text [])] := by
  refine ⟨_, rfl, ?_⟩
  decide +kernel

/-- The items of the conversion and back. -/
def vorbisTrip (t : Tag) : Option (List TagItem) :=
  (toVorbis Rating.default t).toOption.map fun v => (ofVorbis Rating.default v).items

/-- **The order of artists changes** if there is an encoder behind them, and with an encoder among several of them all
others are lost. -/
theorem vorbis_reorders :
    vorbisTrip (sample [(.TrackArtist, "a"), (.TrackArtist, "b"), (.EncoderSoftware, "e")]) =
      some [TagItem.new .TrackArtist (.text (str "b")), TagItem.new .TrackArtist (.text (str "a")),
        TagItem.new .EncoderSoftware (.text (str "e"))] ∧
    vorbisTrip (sample [(.EncoderSoftware, "e"), (.EncoderSoftware, "f")]) =
      some [TagItem.new .EncoderSoftware (.text (str "e"))] := by decide +kernel

/-- A rating without an email comes back as a number that is not a rating any more. -/
theorem vorbis_rating_lost :
    vorbisTrip (sample [(.Popularimeter, "|4|0")]) = some [TagItem.new .Popularimeter (.text (str "80")),
      TagItem.new .EncoderSoftware (.text [])] ∧
    Rating.fromStr Rating.default (str "|4|0") ≠ none ∧ Rating.fromStr Rating.default (str "80") = none := by decide +kernel

/-! ## Vorbis comments to generic tag and back -/

/-- What becomes of a comment that the generic tag knows. -/
def recode (custom : Rating.Provider) (i : Vorbis.Item) : Option Vorbis.Item :=
  (splitComment custom i).bind (mergeComment custom)

/-- A comment of a known key, other than flag, rating and encoder, gets the preferred key and keeps its text. -/
theorem recode_plain (custom : Rating.Provider) {i : Vorbis.Item} {k : ItemKey} (h : fromKey .vorbisComments i.1 = some k)
    (h1 : k ≠ .FlagCompilation) (h2 : k ≠ .Popularimeter) :
    recode custom i = (mapKey .vorbisComments k).map fun n => (n, i.2) := by
  unfold recode splitComment mergeComment
  rw [h]
  simp only [Option.bind_some, TagItem.new, ItemValue.intoString, if_neg h1, if_neg h2]
  cases mapKey .vorbisComments k <;> rfl

/-- A key that is read is written, and comments with a preferred key are not changed at all. -/
theorem recode_canonical (custom : Rating.Provider) {k : ItemKey} {n s : Str} (h : mapKey .vorbisComments k = some n)
    (h1 : k ≠ .FlagCompilation) (h2 : k ≠ .Popularimeter) : recode custom (n, s) = some (n, s) := by
  have hf : fromKey .vorbisComments (n, s).1 = some k := by
    show fromKey .vorbisComments n = some k
    rw [fromKey_mapKey h, readAs_plain (by simp)]
  rw [recode_plain custom hf h1 h2, h]
  rfl

/-- A rating with the email of a known player, written by that player, is not changed. -/
theorem recode_rating {custom : Rating.Provider} (hc : Rating.Lawful custom) {p : Rating.Pop} (hp : Rating.Proper custom p)
    {e : Str} (he : p.email = some e) (hv : Vorbis.validKey (utf8 e) = true) (hb : '|' ∉ e) :
    recode custom (str "RATING" ++ ':' :: e, toDec (p.mappedValue custom .vorbisComments)) =
      some (str "RATING" ++ ':' :: e, toDec (p.mappedValue custom .vorbisComments)) := by
  have hrat : mapKey .vorbisComments .Popularimeter = some (str "RATING") := by decide +kernel
  unfold recode
  rw [split_rating hc hp he, Option.bind_some]
  unfold mergeComment
  have hfs : Rating.fromStr custom ({ p with counter := 0 } : Rating.Pop).fmt = some { p with counter := 0 } := by
    apply Rating.fromStr_fmt_partial
    · exact hp
    · simp only [he, Option.getD_some]; exact hb
    · exact Nat.two_pow_pos 64
  generalize ({ p with counter := 0 } : Rating.Pop).fmt = s at hfs ⊢
  have hk : (TagItem.new ItemKey.Popularimeter (.text s)).key = .Popularimeter := rfl
  have hkn : ¬ (TagItem.new ItemKey.Popularimeter (.text s)).key = .FlagCompilation := by rw [hk]; decide
  have hval : (TagItem.new ItemKey.Popularimeter (.text s)).value.intoString = some s := rfl
  rw [hval, Option.bind_some, if_neg hkn, Option.bind_some, hk, hrat, Option.bind_some, if_pos rfl, hfs, Option.bind_some]
  simp only [he, hv, if_true]
  rfl

/-- **Vorbis comments split and merged again**: the comments the generic tag does not know stay first and in order; the
others follow, recoded, in some order; the vendor stays unless there is a comment of the encoder key, which replaces it. -/
theorem vorbis_split_merge_partial {custom : Rating.Provider} {v w : Vorbis.Tag}
    (h : mergeVorbis custom (splitVorbis custom v).1 (splitVorbis custom v).2 = .ok w) :
    (∃ l, w.items = (v.items.filter fun i => (splitComment custom i).isNone) ++ l ∧
      l.Perm ((v.items.filter fun i => fromKey .vorbisComments i.1 ≠ some .EncoderSoftware).filterMap (recode custom))) ∧
    w.vendor = ((v.items.find? fun i => fromKey .vorbisComments i.1 = some .EncoderSoftware).map fun i => i.2).getD v.vendor ∧
    w.pictures.map (fun p => p.1) = (v.pictures.map fun p => p.1).filter pictureKept := by
  have hkey : ∀ i j, splitComment custom i = some j → (j.key = .EncoderSoftware ↔ fromKey .vorbisComments i.1 = some .EncoderSoftware) ∧
      (fromKey .vorbisComments i.1 = some .EncoderSoftware → j.value.textOf = some i.2) := by
    intro i j hj
    unfold splitComment at hj
    cases hf : fromKey .vorbisComments i.1 with
    | some k =>
      rw [hf] at hj
      simp only [Option.some.injEq] at hj
      subst hj
      exact ⟨by simp [TagItem.new], fun _ => rfl⟩
    | none =>
      rw [hf] at hj
      simp only at hj
      split at hj
      · cases hn : parseUInt (2 ^ 8) i.2 with
        | none => rw [hn] at hj; cases hj
        | some n =>
          rw [hn, Option.bind_some] at hj
          cases hm : Rating.mapped custom (i.1.drop 7) .vorbisComments n 0 with
          | none => rw [hm] at hj; cases hj
          | some p =>
            rw [hm, Option.map_some, Option.some.injEq] at hj
            subst hj
            exact ⟨by simp [TagItem.new], by simp⟩
      · cases hj
  have henc : ∀ i : Vorbis.Item, fromKey .vorbisComments i.1 = some .EncoderSoftware →
      splitComment custom i = some (TagItem.new .EncoderSoftware (.text i.2)) := by
    intro i hi; unfold splitComment; rw [hi]
  obtain ⟨t1, t2, t3⟩ := take_partial (splitVorbis custom v).2 .EncoderSoftware
  have t4 : ((splitVorbis custom v).2.take .EncoderSoftware).2.pictures = v.pictures.map fun p => p.1 := rfl
  unfold mergeVorbis at h
  revert h
  simp only
  rw [t4]
  cases hp : mergePictures (v.pictures.map fun p => p.1) with
  | error e => intro h; cases h
  | ok pics =>
    intro h
    simp only [Except.map, Except.ok.injEq] at h
    subst h
    simp only
    refine ⟨⟨_, rfl, ?_⟩, ?_, ?_⟩
    · refine (t2.filterMap _).trans ?_
      have : ((splitVorbis custom v).2.removeKey .EncoderSoftware).items =
          (v.items.filterMap (splitComment custom)).filter fun i => i.key ≠ .EncoderSoftware := by
        show (addVendor v.vendor _).filter _ = _
        unfold addVendor
        split
        · rfl
        · rw [List.filter_append]; simp [TagItem.new]
      rw [this, List.filter_filterMap, List.filterMap_filterMap, List.filterMap_filter]
      apply List.Perm.of_eq
      apply filterMap_congr'
      intro i _
      unfold recode
      cases hj : splitComment custom i with
      | none => simp
      | some j =>
        by_cases hk : fromKey .vorbisComments i.1 = some .EncoderSoftware
        · have := ((hkey i j hj).1.mpr hk)
          simp [this, hk, Option.filter]
        · have : j.key ≠ .EncoderSoftware := fun h => hk ((hkey i j hj).1.mp h)
          simp [this, hk, Option.filter]
    · rw [t1]
      show vendorOf v.vendor ((addVendor v.vendor (v.items.filterMap (splitComment custom))).filter fun i => i.key = .EncoderSoftware) = _
      have hmain : ∀ l : List Vorbis.Item, ((l.filterMap (splitComment custom)).filter fun i => i.key = .EncoderSoftware) =
          (l.filter fun i => fromKey .vorbisComments i.1 = some .EncoderSoftware).map
            fun i => TagItem.new .EncoderSoftware (.text i.2) := by
        intro l
        induction l with
        | nil => rfl
        | cons i l ih =>
          by_cases hk : fromKey .vorbisComments i.1 = some .EncoderSoftware
          · have e1 : (i :: l).filterMap (splitComment custom) =
                TagItem.new .EncoderSoftware (.text i.2) :: l.filterMap (splitComment custom) := by
              rw [List.filterMap_cons, henc i hk]
            have e2 : ((i :: l).filter fun i => fromKey .vorbisComments i.1 = some .EncoderSoftware) =
                i :: l.filter fun i => fromKey .vorbisComments i.1 = some .EncoderSoftware :=
              List.filter_cons_of_pos (by simpa using hk)
            rw [e1, e2, List.map_cons, ← ih]
            exact List.filter_cons_of_pos rfl
          · rw [List.filter_cons_of_neg (by simpa using hk), ← ih, List.filterMap_cons]
            cases hj : splitComment custom i with
            | none => rfl
            | some j =>
              simp only
              rw [List.filter_cons_of_neg]
              simp only [decide_eq_true_eq]
              exact fun h => hk ((hkey i j hj).1.mp h)
      have hadd : ((addVendor v.vendor (v.items.filterMap (splitComment custom))).filter fun i => i.key = .EncoderSoftware) =
          if (v.items.filter fun i => fromKey .vorbisComments i.1 = some .EncoderSoftware) = [] then
            [TagItem.new .EncoderSoftware (.text v.vendor)]
          else (v.items.filter fun i => fromKey .vorbisComments i.1 = some .EncoderSoftware).map
            fun i => TagItem.new .EncoderSoftware (.text i.2) := by
        rw [← hmain]
        have hm := hmain v.items
        unfold addVendor
        split
        · rename_i hany
          rw [if_neg]
          intro h0
          rw [h0, List.map_nil] at hm
          rw [List.any_eq_true] at hany
          obtain ⟨x, hx, hxk⟩ := hany
          have : x ∈ ((v.items.filterMap (splitComment custom)).filter fun i => i.key = .EncoderSoftware) :=
            List.mem_filter.mpr ⟨hx, hxk⟩
          rw [hm] at this
          cases this
        · rename_i hany
          have hnil : ((v.items.filterMap (splitComment custom)).filter fun i => i.key = .EncoderSoftware) = [] := by
            rw [List.filter_eq_nil_iff]
            intro x hx hxk
            exact hany (List.any_eq_true.mpr ⟨x, hx, hxk⟩)
          rw [List.filter_append, hnil, if_pos]
          · simp [TagItem.new]
          · rw [hnil] at hm
            exact List.map_eq_nil_iff.mp hm.symm
      rw [hadd, ← List.head?_filter]
      cases hl : v.items.filter fun i => fromKey .vorbisComments i.1 = some .EncoderSoftware with
      | nil => rfl
      | cons a b => rfl
    · exact (mergePictures_ok hp).1

/-- The comments after splitting and merging. -/
def vorbisBack (v : Vorbis.Tag) : Option (Str × List (Str × Str)) :=
  (mergeVorbis Rating.default (splitVorbis Rating.default v).1 (splitVorbis Rating.default v).2).toOption.map
    fun w => (w.vendor, w.items)

example : vorbisBack ⟨str "v", [(str "TITLE", str "t"), (str "MYKEY", str "m"), (str "RATING:x@y", str "60")], []⟩ =
    some (str "v", [(str "MYKEY", str "m"), (str "RATING:x@y", str "60"), (str "TITLE", str "t")]) := by decide +kernel

/-- **Disagreements**: splitting and merging without any edit moves the first of three artists behind the others, and
drops a flag that is neither 0 nor 1, a rating without email or with a bar in it, and the encoder, which becomes the vendor. -/
theorem vorbis_split_merge_losses :
    vorbisBack ⟨str "v", [(str "ARTIST", str "a"), (str "ARTIST", str "b"), (str "ARTIST", str "c")], []⟩ =
      some (str "v", [(str "ARTIST", str "b"), (str "ARTIST", str "c"), (str "ARTIST", str "a")]) ∧
    vorbisBack ⟨str "v", [(str "COMPILATION", str "yes"), (str "RATING", str "80"), (str "ENCODER", str "c"),
      (str "RATING:a|b", str "80")], []⟩ = some (str "c", []) := by decide +kernel

end Lofty.Convert
