import Verif.Model.ItemKey
import Verif.Model.Ape
import Verif.Model.Vorbis
import Verif.Lemmas.Ascii
import Verif.Lemmas.ItemKey
/-!
# Generic keys and format keys (C33)
-/
namespace Lofty.Item

/-- The generic keys that share a format key with another one: the tag type, the key and the key that the format key is
read as. -/
def shared : List (TagType × ItemKey × ItemKey) :=
  [(.ape, .DiscNumber, .DiscTotal), (.ape, .TrackNumber, .TrackTotal), (.ape, .Year, .RecordingDate),
   (.id3v2, .Writer, .Lyricist), (.id3v2, .Label, .Publisher), (.id3v2, .DiscNumber, .DiscTotal),
   (.id3v2, .TrackNumber, .TrackTotal), (.id3v2, .MovementNumber, .MovementTotal),
   (.id3v2, .EncoderSoftware, .EncoderSettings),
   (.mp4Ilst, .DiscNumber, .DiscTotal), (.mp4Ilst, .TrackNumber, .TrackTotal), (.mp4Ilst, .UnsyncLyrics, .Lyrics)]

/-- What a generic key becomes by going through a tag type. -/
def readAs (t : TagType) (k : ItemKey) : ItemKey :=
  ((shared.find? fun e => e.1 = t ∧ e.2.1 = k).map fun e => e.2.2).getD k

theorem table_rt : ∀ t ∈ TagType.all, ∀ k ∈ ItemKey.all, ∀ c ∈ ((names t).lookup k).toList,
    ((codes t).find? fun e => e.1.beq c).map (fun e => e.2) = some (readAs t k) := by
  decide +kernel

/-- **There and back**: the format key of a generic key is read as that generic key, except for the twelve shared
ones. -/
theorem fromKey_mapKey {t : TagType} {k : ItemKey} {s : Str} (h : mapKey t k = some s) : fromKey t s = some (readAs t k) := by
  have hn := names_eq t k
  rw [h] at hn
  rw [fromKey_codes]
  exact table_rt t t.mem_all k k.mem_all (code s) (by rw [← hn]; simp)

/-- In Vorbis comments, RIFF INFO lists and AIFF text chunks no two generic keys share a format key. -/
theorem mapKey_inj {t : TagType} (ht : t = .vorbisComments ∨ t = .riffInfo ∨ t = .aiffText) {k k' : ItemKey} {s s' : Str}
    (h : mapKey t k = some s) (h' : mapKey t k' = some s') (he : eqIc s s' = true) : k = k' := by
  have hr : ∀ k, readAs t k = k := by
    intro k
    unfold readAs
    have : (shared.find? fun e => e.1 = t ∧ e.2.1 = k) = none := by
      rw [List.find?_eq_none]
      intro e he hx
      simp only [Bool.decide_and, Bool.and_eq_true, decide_eq_true_eq] at hx
      have hall : ∀ e ∈ shared, e.1 ≠ .vorbisComments ∧ e.1 ≠ .riffInfo ∧ e.1 ≠ .aiffText := by decide
      have := hall e he
      rcases ht with ht | ht | ht
      · exact this.1 (hx.1.trans ht)
      · exact this.2.1 (hx.1.trans ht)
      · exact this.2.2 (hx.1.trans ht)
    rw [this]; rfl
  have h1 := fromKey_mapKey h
  have h2 := fromKey_mapKey h'
  rw [hr] at h1 h2
  have hf : fromKey t s = fromKey t s' := by
    unfold fromKey lookup
    cases mapOf t with
    | none => rfl
    | some rows =>
      simp only [Option.bind_some]
      congr 1
      congr 1
      funext e
      rw [eqIc_comm _ s, eqIc_comm _ s', eqIc_congr he]
  rw [hf, h2] at h1
  exact (Option.some.inj h1).symm

/-- **ASCII case** of a format key does not matter. -/
theorem fromKey_case (t : TagType) {s s' : Str} (h : eqIc s s' = true) : fromKey t s = fromKey t s' := by
  unfold fromKey lookup
  cases mapOf t with
  | none => rfl
  | some rows =>
    simp only [Option.bind_some]
    congr 1
    congr 1
    funext e
    rw [eqIc_comm _ s, eqIc_comm _ s', eqIc_congr h]

theorem codes_distinct : ∀ t ∈ TagType.all, ((codes t).map (fun e => e.1)).Nodup := by
  decide +kernel

/-- The keys of the table of a tag type differ by more than case. -/
theorem entries_distinct (t : TagType) {rows : List Row} (h : mapOf t = some rows) :
    (entries rows).Pairwise fun a b => eqIc (str a.1) (str b.1) = false := by
  have hc := codes_eq t
  rw [h] at hc
  simp only [Option.map_some, Option.getD_some] at hc
  have hn : ((coded (entries rows)).map (fun e => e.1)).Nodup := by
    rw [hc, List.map_map]
    exact codes_distinct t t.mem_all
  unfold coded at hn
  rw [List.map_map, List.Nodup, List.pairwise_map] at hn
  refine hn.imp ?_
  intro a b hab
  rw [Bool.eq_false_iff, ne_eq, ← code_eq_iff]
  exact hab

theorem find_perm {α : Type} {p : α → Bool} {l l' : List α} (h : l.Perm l')
    (hu : l.Pairwise fun a b => p a = true → p b = true → False) : l.find? p = l'.find? p := by
  induction h with
  | nil => rfl
  | cons x h ih =>
    rw [List.pairwise_cons] at hu
    simp only [List.find?_cons]
    split
    · rfl
    · exact ih hu.2
  | swap x y l =>
    rw [List.pairwise_cons] at hu
    have := hu.1 x (by simp)
    simp only [List.find?_cons]
    cases hx : p x <;> cases hy : p y <;> simp
    exact (this hy hx).elim
  | trans h1 h2 ih1 ih2 =>
    rw [ih1 hu]
    apply ih2
    exact (h1.pairwise_iff (by intro a b hab h1 h2; exact hab h2 h1)).mp hu

/-- **The result is determined**: it does not depend on the order in which the library's hash map happens to be gone
through. -/
theorem order_irrelevant (t : TagType) {rows : List Row} (hr : mapOf t = some rows) {m : List (String × List ItemKey)}
    (hm : m.Perm (entries rows)) (s : Str) : lookup m s = fromKey t s := by
  unfold fromKey
  rw [hr, Option.bind_some]
  unfold lookup
  have hd := entries_distinct t hr
  rw [find_perm hm.symm]
  refine hd.imp ?_
  intro a b hab ha hb
  have := eqIc_trans ha (by rw [eqIc_comm]; exact hb)
  rw [hab] at this
  cases this

/-- What `lookup` finds is in the table. -/
theorem lookup_mem {m : List (String × List ItemKey)} {s : Str} {k : ItemKey} (h : lookup m s = some k) :
    ∃ e ∈ m, eqIc (str e.1) s = true ∧ e.2.head? = some k := by
  unfold lookup at h
  cases hf : m.find? (fun e => eqIc (str e.1) s) with
  | none => rw [hf] at h; cases h
  | some e =>
    rw [hf] at h
    exact ⟨e, List.mem_of_find?_eq_some hf, by have := List.find?_some hf; simpa using this, h⟩

theorem codes_named : ∀ t ∈ TagType.all, ∀ e ∈ codes t, readAs t e.2 = e.2 ∧ ((names t).lookup e.2).isSome = true := by
  decide +kernel

/-- **Back and there**: whatever text is recognised as a format key, the generic key has a format key of its own, and
this one is recognised as the same generic key.  So writing what was read does not change it any more. -/
theorem mapKey_fromKey {t : TagType} {s : Str} {k : ItemKey} (h : fromKey t s = some k) :
    ∃ s', mapKey t k = some s' ∧ fromKey t s' = some k := by
  rw [fromKey_codes] at h
  cases hf : (codes t).find? (fun e => e.1.beq (code s)) with
  | none => rw [hf] at h; cases h
  | some e =>
    rw [hf] at h
    cases h
    obtain ⟨h1, h2⟩ := codes_named t t.mem_all e (List.mem_of_find?_eq_some hf)
    rw [← names_eq] at h2
    cases hm : mapKey t e.2 with
    | none => rw [hm] at h2; cases h2
    | some s' => exact ⟨s', rfl, by rw [fromKey_mapKey hm, h1]⟩

theorem mapInsert_mem (m : List (String × List ItemKey)) (k : String) (v : List ItemKey) (e : String × List ItemKey)
    (h : e ∈ mapInsert m k v) : e ∈ m ∨ e = (k, v) := by
  unfold mapInsert at h
  split at h
  · obtain ⟨x, hx, he⟩ := List.mem_map.mp h
    split at he
    · exact .inr he.symm
    · exact .inl (he ▸ hx)
  · rcases List.mem_append.mp h with h | h
    · exact .inl h
    · exact .inr (by simpa using h)

theorem mapInsert_keys (m : List (String × List ItemKey)) (k : String) (v : List ItemKey) (x : String) :
    (∃ e ∈ mapInsert m k v, e.1 = x) ↔ (∃ e ∈ m, e.1 = x) ∨ x = k := by
  unfold mapInsert
  split
  · rename_i hany
    obtain ⟨e0, he0, hk0⟩ := List.any_eq_true.mp hany
    have hk0 : e0.1 = k := by simpa using hk0
    constructor
    · rintro ⟨e, he, rfl⟩
      obtain ⟨y, hy, hye⟩ := List.mem_map.mp he
      split at hye
      · right; rw [← hye]
      · left; exact ⟨y, hy, by rw [hye]⟩
    · rintro (⟨e, he, rfl⟩ | rfl)
      · by_cases hek : e.1 = k
        · exact ⟨(k, v), List.mem_map.mpr ⟨e, he, by rw [if_pos hek]⟩, hek.symm⟩
        · exact ⟨e, List.mem_map.mpr ⟨e, he, by rw [if_neg hek]⟩, rfl⟩
      · exact ⟨(x, v), List.mem_map.mpr ⟨e0, he0, by rw [if_pos hk0]⟩, rfl⟩
  · constructor
    · rintro ⟨e, he, rfl⟩
      rcases List.mem_append.mp he with he | he
      · left; exact ⟨e, he, rfl⟩
      · right; simp at he; rw [he]
    · rintro (⟨e, he, rfl⟩ | rfl)
      · exact ⟨e, List.mem_append_left _ he, rfl⟩
      · exact ⟨(x, v), by simp, rfl⟩

/-- The keys in one row. -/
theorem insertRow_keys (v : List ItemKey) (x : String) (ks : List String) : ∀ m : List (String × List ItemKey),
    (∃ e ∈ ks.foldl (fun m k => mapInsert m k v) m, e.1 = x) ↔ (∃ e ∈ m, e.1 = x) ∨ x ∈ ks := by
  induction ks with
  | nil => intro m; simp
  | cons k ks ih =>
    intro m
    rw [List.foldl_cons, ih, mapInsert_keys, List.mem_cons, or_assoc]

/-- The keys of the entries are the keys of the rows. -/
theorem entries_keys (rows : List Row) (x : String) : (∃ e ∈ entries rows, e.1 = x) ↔ ∃ row ∈ rows, x ∈ row.1 := by
  have : ∀ m : List (String × List ItemKey),
      (∃ e ∈ rows.foldl (fun m row => row.1.foldl (fun m k => mapInsert m k row.2) m) m, e.1 = x) ↔
      (∃ e ∈ m, e.1 = x) ∨ ∃ row ∈ rows, x ∈ row.1 := by
    induction rows with
    | nil => intro m; simp
    | cons row rows ih =>
      intro m
      rw [List.foldl_cons, ih, insertRow_keys, or_assoc]
      simp
  rw [entries, this]
  simp

theorem insertRow_mem (v : List ItemKey) (ks : List String) : ∀ (m : List (String × List ItemKey)) (e : String × List ItemKey),
    e ∈ ks.foldl (fun m k => mapInsert m k v) m → e ∈ m ∨ (e.1 ∈ ks ∧ e.2 = v) := by
  induction ks with
  | nil => intro m e h; exact .inl h
  | cons k ks ih =>
    intro m e h
    rw [List.foldl_cons] at h
    rcases ih _ _ h with h | ⟨h1, h2⟩
    · rcases mapInsert_mem _ _ _ _ h with h | h
      · exact .inl h
      · exact .inr (by rw [h]; simp)
    · exact .inr ⟨List.mem_cons_of_mem _ h1, h2⟩

/-- Every entry comes from a row. -/
theorem entries_rows (rows : List Row) (e : String × List ItemKey) (h : e ∈ entries rows) :
    ∃ row ∈ rows, e.1 ∈ row.1 ∧ e.2 = row.2 := by
  have : ∀ m : List (String × List ItemKey),
      e ∈ rows.foldl (fun m row => row.1.foldl (fun m k => mapInsert m k row.2) m) m →
      e ∈ m ∨ ∃ row ∈ rows, e.1 ∈ row.1 ∧ e.2 = row.2 := by
    clear h
    induction rows with
    | nil => intro m h; exact .inl h
    | cons row rows ih =>
      intro m h
      rw [List.foldl_cons] at h
      rcases ih _ h with h | ⟨r, hr, h⟩
      · rcases insertRow_mem _ _ _ _ h with h | h
        · exact .inl h
        · exact .inr ⟨row, List.mem_cons_self .., h⟩
      · exact .inr ⟨r, List.mem_cons_of_mem _ hr, h⟩
  rcases this [] h with h | h
  · cases h
  · exact h

/-- Which texts are recognised: those in the table of the source, up to case. -/
theorem fromKey_isSome (t : TagType) (s : Str) :
    (fromKey t s).isSome = true ↔ ∃ rows, mapOf t = some rows ∧ ∃ row ∈ rows, ∃ key ∈ row.1, eqIc (str key) s = true := by
  have hkeys : ∀ t ∈ TagType.all, ∀ rows ∈ (mapOf t).toList,
      (∀ e ∈ entries rows, e.2.head?.isSome = true ∧ ∃ row ∈ rows, e.1 ∈ row.1) ∧
      (∀ row ∈ rows, ∀ key ∈ row.1, ∃ e ∈ entries rows, e.1 = key) := by
    intro t _ rows hr
    refine ⟨fun e he => ?_, fun row hrow key hkey => (entries_keys rows key).mpr ⟨row, hrow, hkey⟩⟩
    obtain ⟨row, hrow, h1, h2⟩ := entries_rows rows e he
    have hne : ∀ t ∈ TagType.all, ∀ rows ∈ (mapOf t).toList, ∀ row ∈ rows, row.2.head?.isSome = true := by decide +kernel
    rw [h2]
    exact ⟨hne t t.mem_all rows hr row hrow, row, hrow, h1⟩
  constructor
  · intro h
    obtain ⟨k, hk⟩ := Option.isSome_iff_exists.mp h
    unfold fromKey at hk
    cases hr : mapOf t with
    | none => rw [hr] at hk; cases hk
    | some rows =>
      rw [hr, Option.bind_some] at hk
      obtain ⟨e, he, h1, _⟩ := lookup_mem hk
      obtain ⟨_, row, hrow, hm⟩ := (hkeys t t.mem_all rows (by rw [hr]; simp)).1 e he
      exact ⟨rows, rfl, row, hrow, e.1, hm, h1⟩
  · rintro ⟨rows, hr, row, hrow, key, hkey, h⟩
    obtain ⟨e, he, rfl⟩ := (hkeys t t.mem_all rows (by rw [hr]; simp)).2 row hrow key hkey
    unfold fromKey
    rw [hr, Option.bind_some]
    unfold lookup
    cases hf : (entries rows).find? (fun e => eqIc (str e.1) s) with
    | none => rw [List.find?_eq_none] at hf; exact absurd h (hf e he)
    | some e' =>
      rw [Option.bind_some]
      exact ((hkeys t t.mem_all rows (by rw [hr]; simp)).1 e' (List.mem_of_find?_eq_some hf)).1

/-! ## The format keys fit their formats -/

/-- Every APE key of the table is allowed in an APE tag. -/
theorem ape_keys_valid {k : ItemKey} {s : Str} (h : mapKey .ape k = some s) : Ape.validKey s = true := by
  have : ∀ k ∈ ItemKey.all, ∀ s ∈ (mapKey .ape k).toList, Ape.validKey s = true := by decide +kernel
  exact this k k.mem_all s (by rw [h]; simp)

/-- Every Vorbis comment key of the table is allowed in Vorbis comments. -/
theorem vorbis_keys_valid {k : ItemKey} {s : Str} (h : mapKey .vorbisComments k = some s) : Vorbis.validKey (utf8 s) = true := by
  have : ∀ k ∈ ItemKey.all, ∀ s ∈ (mapKey .vorbisComments k).toList, Vorbis.validKey (utf8 s) = true := by decide +kernel
  exact this k k.mem_all s (by rw [h]; simp)

/-- Every RIFF INFO and AIFF key has four ASCII characters. -/
theorem iff_keys_four {t : TagType} (ht : t = .riffInfo ∨ t = .aiffText) {k : ItemKey} {s : Str} (h : mapKey t k = some s) :
    s.length = 4 ∧ ∀ c ∈ s, c.toNat ≤ 127 := by
  have : ∀ t ∈ [TagType.riffInfo, .aiffText], ∀ k ∈ ItemKey.all, ∀ s ∈ (mapKey t k).toList,
      s.length = 4 ∧ ∀ c ∈ s, c.toNat ≤ 127 := by decide +kernel
  refine this t ?_ k k.mem_all s (by rw [h]; simp)
  rcases ht with rfl | rfl <;> simp

/-! ## Surprises -/

/-- A writer stored in an ID3v2 tag is read as a lyricist, although the table lists the writer first. -/
theorem writer_becomes_lyricist : mapKey .id3v2 .Writer = some (str "TEXT") ∧ fromKey .id3v2 (str "TEXT") = some .Lyricist := by
  decide +kernel

/-- The keys of track numbers stand for the track totals when read by `ItemKey::from_key`. -/
theorem track_is_total : fromKey .ape (str "Track") = some .TrackTotal ∧ fromKey .id3v2 (str "TRCK") = some .TrackTotal
    ∧ fromKey .mp4Ilst (str "trkn") = some .TrackTotal := by decide +kernel

example : mapKey .vorbisComments .AlbumArtist = some (str "ALBUMARTIST") ∧
    fromKey .vorbisComments (str "Album Artist") = some .AlbumArtist := by decide +kernel
example : fromKey .id3v1 (str "x") = none := rfl
example : mapKey .id3v2 .Label = some (str "TPUB") ∧ readAs .id3v2 .Label = .Publisher := by decide +kernel

end Lofty.Item
