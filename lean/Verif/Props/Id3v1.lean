import Verif.Lemmas.Id3v1
/-!
# C22: ID3v1 tags
-/
namespace Lofty.Id3v1
open Text

/-- Every character that goes into the field is Latin-1. -/
def Latin (n : Nat) (o : Option Str) : Prop := ∀ c ∈ (o.getD []).take n, c.toNat ≤ 255

/-- What is stored of a tag: each text cut to the width of its field and at the first NUL
(with `?` for characters outside Latin-1 if the writer replaces them), the year up to 9999,
no track number 0, only known genres. -/
def stored (t : Tag) : Tag where
  title := field 30 t.title
  artist := field 30 t.artist
  album := field 30 t.album
  year := t.year.map (min · 9999)
  comment := field 28 t.comment
  track := t.track.filter (· ≠ 0)
  genre := t.genre.filter (·.toNat < 192)

theorem resizeString_ok {lossy : Bool} {n : Nat} {o : Option Str} (h : lossy = true ∨ Latin n o) :
    resizeString lossy n o = .ok ((((o.getD []).take n).map fun c => UInt8.ofNat (latinChar c).toNat)
      ++ List.replicate (n - ((o.getD []).take n).length) 0) := by
  cases o with
  | none => simp [resizeString]
  | some s =>
    have := encodeFrom_ok (s.take n) 0 h
    unfold resizeString latin1Encode
    simp only
    rw [this]
    simp

theorem resizeString_error {lossy : Bool} {n : Nat} {o : Option Str} (h : ¬ (lossy = true ∨ Latin n o)) :
    resizeString lossy n o = .error .encode := by
  have h1 : lossy = false := by cases lossy <;> simp_all
  have h2 : ∃ c ∈ (o.getD []).take n, 255 < c.toNat := by
    apply Classical.byContradiction
    intro hne
    apply h
    right
    intro c hc
    exact Nat.le_of_not_lt (fun hl => hne ⟨c, hc, hl⟩)
  subst h1
  cases o with
  | none => obtain ⟨c, hc, _⟩ := h2; simp at hc
  | some s =>
    obtain ⟨e, he⟩ := encodeFrom_error 0 h2
    unfold resizeString latin1Encode
    simp only at he ⊢
    simp only [Option.getD_some] at he
    rw [he]

/-- The bytes of a text field of `n` bytes. -/
def fieldBytes (n : Nat) (o : Option Str) : Bytes :=
  (((o.getD []).take n).map fun c => UInt8.ofNat (latinChar c).toNat) ++ List.replicate (n - ((o.getD []).take n).length) 0

theorem fieldBytes_length (n : Nat) (o : Option Str) : (fieldBytes n o).length = n := by
  simp [fieldBytes]; omega

theorem decode_fieldBytes (n : Nat) (hn : 0 < n) (o : Option Str) (k : Nat) :
    decodeText (fieldBytes n o ++ List.replicate k 0) = field n o := by
  unfold fieldBytes
  rw [List.append_assoc, List.replicate_append_replicate]
  apply decodeText_field n _ ?_ rfl
  by_cases h : (o.getD []).take n = []
  · left; rw [h]; simp; omega
  · exact Or.inr h

theorem encode_eq {lossy : Bool} {t : Tag}
    (h : lossy = true ∨ (Latin 30 t.title ∧ Latin 30 t.artist ∧ Latin 30 t.album ∧ Latin 28 t.comment)) :
    encode lossy t = .ok (ascii "TAG" ++ fieldBytes 30 t.title ++ fieldBytes 30 t.artist ++ fieldBytes 30 t.album
      ++ yearDigits t.year ++ fieldBytes 28 t.comment ++ [0, t.track.getD 0, t.genre.getD 255]) := by
  unfold encode
  rw [resizeString_ok (h.imp id fun h => h.1), ok_bind, resizeString_ok (h.imp id fun h => h.2.1), ok_bind,
    resizeString_ok (h.imp id fun h => h.2.2.1), ok_bind, resizeString_ok (h.imp id fun h => h.2.2.2), ok_bind]
  rfl

/-- C22: a tag can be written exactly if the part of each text that fits its field is
Latin-1, or characters outside Latin-1 are to be replaced. -/
theorem encode_ok_iff (lossy : Bool) (t : Tag) : (∃ b, encode lossy t = .ok b) ↔
    lossy = true ∨ (Latin 30 t.title ∧ Latin 30 t.artist ∧ Latin 30 t.album ∧ Latin 28 t.comment) := by
  constructor
  · rintro ⟨b, hb⟩
    apply Classical.byContradiction
    intro hne
    rw [not_or] at hne
    have key : ∀ n o, resizeString lossy n o ≠ .error .encode → Latin n o := by
      intro n o hh
      apply Classical.byContradiction
      intro hl
      exact hh (resizeString_error (by rintro (h | h); exact hne.1 h; exact hl h))
    apply hne.2
    unfold encode at hb
    obtain ⟨a1, h1, hb⟩ := bind_ok hb
    obtain ⟨a2, h2, hb⟩ := bind_ok hb
    obtain ⟨a3, h3, hb⟩ := bind_ok hb
    obtain ⟨a4, h4, hb⟩ := bind_ok hb
    exact ⟨key _ _ (by rw [h1]; simp), key _ _ (by rw [h2]; simp), key _ _ (by rw [h3]; simp), key _ _ (by rw [h4]; simp)⟩
  · intro h
    exact ⟨_, encode_eq h⟩

theorem yearDigits_length (y : Option Nat) : (yearDigits y).length = 4 := by
  cases y <;> rfl

theorem digit_ok (d : Nat) : 48 ≤ (UInt8.ofNat (48 + d % 10)).toNat ∧ (UInt8.ofNat (48 + d % 10)).toNat ≤ 57 ∧
    (UInt8.ofNat (48 + d % 10)).toNat - 48 = d % 10 := by
  have : (UInt8.ofNat (48 + d % 10)).toNat = 48 + d % 10 := by simp; omega
  omega

theorem parseYear_digits (strict : Bool) (y : Option Nat) :
    parseYear strict (yearDigits y) = if strict = true ∧ y = none then .error .parse else .ok (y.map (min · 9999)) := by
  cases y with
  | none => cases strict <;> decide
  | some y =>
    rw [if_neg (by simp)]
    unfold yearDigits parseYear
    simp only
    generalize hm : min y 9999 = z
    have hz : z ≤ 9999 := by omega
    have a := digit_ok (z / 1000)
    have b := digit_ok (z / 100)
    have c := digit_ok (z / 10)
    have d := digit_ok z
    rw [List.takeWhile_cons_of_pos (by simpa using ⟨a.1, a.2.1⟩), List.takeWhile_cons_of_pos (by simpa using ⟨b.1, b.2.1⟩),
      List.takeWhile_cons_of_pos (by simpa using ⟨c.1, c.2.1⟩), List.takeWhile_cons_of_pos (by simpa using ⟨d.1, d.2.1⟩),
      List.takeWhile_nil]
    rw [if_neg (by simp)]
    simp only [List.foldl_cons, List.foldl_nil, a.2.2, b.2.2, c.2.2, d.2.2, Option.map_some, hm]
    congr 2
    omega

/-- Of four arbitrary bytes only four digits are a year; anything else is refused in strict mode and is no year otherwise. -/
theorem parseYear_iff (strict : Bool) (a b c d : UInt8) :
    parseYear strict [a, b, c, d] =
      if (∀ x ∈ [a, b, c, d], 48 ≤ x.toNat ∧ x.toNat ≤ 57) then
        .ok (some (1000 * (a.toNat - 48) + 100 * (b.toNat - 48) + 10 * (c.toNat - 48) + (d.toNat - 48)))
      else if strict then .error .parse else .ok none := by
  unfold parseYear
  simp only
  by_cases ha : 48 ≤ a.toNat ∧ a.toNat ≤ 57
  · by_cases hb : 48 ≤ b.toNat ∧ b.toNat ≤ 57
    · by_cases hc : 48 ≤ c.toNat ∧ c.toNat ≤ 57
      · by_cases hd : 48 ≤ d.toNat ∧ d.toNat ≤ 57
        · simp [List.takeWhile_cons, ha, hb, hc, hd]; omega
        · simp [List.takeWhile_cons, ha, hb, hc, hd]
      · simp [List.takeWhile_cons, ha, hb, hc]
    · simp [List.takeWhile_cons, ha, hb]
  · simp [List.takeWhile_cons, ha]

example : parseYear true [49, 57, 57, 57] = .ok (some 1999) := by rw [parseYear_iff]; decide
example : parseYear false [49, 57, 57, 0] = .ok none := by rw [parseYear_iff]; decide

/-- C22: every written tag has exactly 128 bytes, starts with `TAG`, and reading it returns
what is stored of the tag.  Only a missing year is a problem: strict parsing refuses it. -/
theorem parse_encode {lossy strict : Bool} {t : Tag} {b : Bytes} (h : encode lossy t = .ok b) :
    b.length = 128 ∧ b.take 3 = [0x54, 0x41, 0x47] ∧
    parse strict b = if strict = true ∧ t.year = none then .error .parse else .ok (stored t) := by
  have hL := (encode_ok_iff lossy t).mp ⟨b, h⟩
  rw [encode_eq hL] at h
  cases h
  have lt := fieldBytes_length 30 t.title
  have la := fieldBytes_length 30 t.artist
  have lb := fieldBytes_length 30 t.album
  have lc := fieldBytes_length 28 t.comment
  have ly := yearDigits_length t.year
  have h3 : (ascii "TAG").length = 3 := rfl
  have dt := decode_fieldBytes 30 (by omega) t.title 0
  have da := decode_fieldBytes 30 (by omega) t.artist 0
  have db := decode_fieldBytes 30 (by omega) t.album 0
  have dc1 := decode_fieldBytes 28 (by omega) t.comment 1
  have dc2 := decode_fieldBytes 28 (by omega) t.comment 2
  simp only [List.replicate_zero, List.append_nil] at dt da db
  generalize fieldBytes 30 t.title = T at *
  generalize fieldBytes 30 t.artist = A at *
  generalize fieldBytes 30 t.album = B at *
  generalize fieldBytes 28 t.comment = C at *
  generalize hY : yearDigits t.year = Y at *
  simp only [List.append_assoc]
  refine ⟨by simp only [List.length_append, List.length_cons, List.length_nil]; omega, by rw [List.take_left' h3]; decide, ?_⟩
  unfold parse
  rw [List.take_left' h3, if_neg (by simp)]
  simp only [List.drop_left' h3]
  have e1 : (T ++ (A ++ (B ++ (Y ++ (C ++ [0, t.track.getD 0, t.genre.getD 255]))))).drop 30
      = A ++ (B ++ (Y ++ (C ++ [0, t.track.getD 0, t.genre.getD 255]))) := List.drop_left' lt
  have e2 : (T ++ (A ++ (B ++ (Y ++ (C ++ [0, t.track.getD 0, t.genre.getD 255]))))).drop 60
      = B ++ (Y ++ (C ++ [0, t.track.getD 0, t.genre.getD 255])) := by
    rw [show (60 : Nat) = 30 + 30 from rfl, ← List.drop_drop, e1, List.drop_left' la]
  have e3 : (T ++ (A ++ (B ++ (Y ++ (C ++ [0, t.track.getD 0, t.genre.getD 255]))))).drop 90
      = Y ++ (C ++ [0, t.track.getD 0, t.genre.getD 255]) := by
    rw [show (90 : Nat) = 60 + 30 from rfl, ← List.drop_drop, e2, List.drop_left' lb]
  have e4 : (T ++ (A ++ (B ++ (Y ++ (C ++ [0, t.track.getD 0, t.genre.getD 255]))))).drop 94
      = C ++ [0, t.track.getD 0, t.genre.getD 255] := by
    rw [show (94 : Nat) = 90 + 4 from rfl, ← List.drop_drop, e3, List.drop_left' ly]
  have e5 : (T ++ (A ++ (B ++ (Y ++ (C ++ [0, t.track.getD 0, t.genre.getD 255]))))).drop 122
      = [0, t.track.getD 0, t.genre.getD 255] := by
    rw [show (122 : Nat) = 94 + 28 from rfl, ← List.drop_drop, e4, List.drop_left' lc]
  generalize hR : T ++ (A ++ (B ++ (Y ++ (C ++ [0, t.track.getD 0, t.genre.getD 255])))) = R at *
  have g0 : R.getD 122 0 = 0 := by
    have := congrArg (fun l => l.getD 0 0) e5
    simpa [List.getD_eq_getElem?_getD] using this
  have g1 : R.getD 123 0 = t.track.getD 0 := by
    have := congrArg (fun l => l.getD 1 0) e5
    simpa [List.getD_eq_getElem?_getD] using this
  have g2 : R.getD 124 0 = t.genre.getD 255 := by
    have := congrArg (fun l => l.getD 2 0) e5
    simpa [List.getD_eq_getElem?_getD] using this
  have t0 : R.take 30 = T := by rw [← hR, List.take_left' lt]
  rw [e3, List.take_left' ly, ← hY, parseYear_digits]
  by_cases hs : strict = true ∧ t.year = none
  · rw [if_pos hs, if_pos hs]; rfl
  · rw [if_neg hs, if_neg hs, ok_bind]
    have hg : genres.length = 192 := by decide +kernel
    have c1 : (if R.getD 122 0 = 0 ∧ R.getD 123 0 ≠ 0 then some (R.getD 123 0) else none) = t.track.filter (· ≠ 0) := by
      rw [g0, g1]
      cases t.track with
      | none => simp
      | some x => by_cases hx : x = 0 <;> simp [hx, Option.filter]
    have c2 : decodeText ((R.drop 94).take (if R.getD 122 0 = 0 ∧ R.getD 123 0 ≠ 0 then 29 else 30)) = field 28 t.comment := by
      rw [g0, g1, e4]
      by_cases hv : t.track.getD 0 = 0
      · rw [if_neg (by simp [hv]), hv]
        have : (C ++ [0, 0, t.genre.getD 255]).take 30 = C ++ List.replicate 2 0 := by
          rw [show C ++ [0, 0, t.genre.getD 255] = (C ++ List.replicate 2 0) ++ [t.genre.getD 255] by simp [List.replicate]]
          exact List.take_left' (by simp [lc])
        rw [this, dc2]
      · rw [if_pos ⟨rfl, hv⟩]
        have : (C ++ [0, t.track.getD 0, t.genre.getD 255]).take 29 = C ++ List.replicate 1 0 := by
          rw [show C ++ [0, t.track.getD 0, t.genre.getD 255] = (C ++ List.replicate 1 0) ++ [t.track.getD 0, t.genre.getD 255] by simp [List.replicate]]
          exact List.take_left' (by simp [lc])
        rw [this, dc1]
    have c3 : (if (R.getD 124 0).toNat < genres.length then some (R.getD 124 0) else none) = t.genre.filter (·.toNat < 192) := by
      rw [hg, g2]
      cases t.genre with
      | none => simp
      | some x => simp [Option.filter]
    rw [c1, c2, c3, t0, e1, e2, List.take_left' la, List.take_left' lb, dt, da, db]
    rfl

/-- Text that fits its field. -/
def Fits (n : Nat) (o : Option Str) : Prop := ∀ s, o = some s →
  s ≠ [] ∧ s.length ≤ n ∧ (∀ c ∈ s, c.toNat ≤ 255) ∧ '\x00' ∉ s

theorem field_fits {n : Nat} {o : Option Str} (h : Fits n o) : field n o = o := by
  cases o with
  | none => simp [field, shown]
  | some s =>
    obtain ⟨h1, h2, h3, h4⟩ := h s rfl
    have e : shown n s = s := by
      unfold shown
      rw [List.take_of_length_le h2]
      have : s.map latinChar = s := by
        rw [List.map_congr_left (g := id) (fun c hc => by simp [latinChar, h3 c hc]), List.map_id]
      rw [this]
      apply takeWhile_all
      intro c hc
      simp only [ne_eq, decide_not, Bool.not_eq_eq_eq_not, Bool.not_true, decide_eq_false_iff_not]
      rintro rfl
      exact h4 hc
    unfold field
    simp [e, h1]

/-- C22: a tag whose values fit (Latin-1 texts without NUL of at most 30 characters, 28 for
the comment; year up to 9999; track 1 to 255; a known genre) is stored unchanged. -/
theorem stored_exact (t : Tag) (h1 : Fits 30 t.title) (h2 : Fits 30 t.artist) (h3 : Fits 30 t.album) (h4 : Fits 28 t.comment)
    (h5 : ∀ y, t.year = some y → y ≤ 9999) (h6 : t.track ≠ some 0) (h7 : ∀ g, t.genre = some g → g.toNat < 192) :
    stored t = t := by
  obtain ⟨a, b, c, y, d, k, g⟩ := t
  simp only at *
  unfold stored
  simp only [field_fits h1, field_fits h2, field_fits h3, field_fits h4]
  congr 1
  · cases y with
    | none => rfl
    | some y => have := h5 y rfl; simp; omega
  · cases k with
    | none => rfl
    | some k => have : k ≠ 0 := fun e => h6 (by rw [e]); simp [Option.filter, this]
  · cases g with
    | none => rfl
    | some g => have := h7 g rfl; simp [Option.filter, this]

/-- C22: what was read from a file and is written again is read again (the comment of an
ID3v1.0 tag may lose its last two characters, as the library always writes ID3v1.1). -/
theorem stored_idem (t : Tag) : stored (stored t) = stored t := by
  have hf : ∀ n o, field n (field n o) = field n o := by
    intro n o
    by_cases h : shown n (o.getD []) = []
    · have e : field n o = none := by unfold field; rw [if_pos h]
      rw [e]
      simp [field, shown]
    · have e : field n o = some (shown n (o.getD [])) := by simp [field, h]
      apply field_fits
      rw [e]
      rintro s ⟨⟩
      refine ⟨h, ?_, ?_, ?_⟩
      · unfold shown
        refine Nat.le_trans (List.takeWhile_sublist _).length_le ?_
        simp; omega
      · intro c hc
        obtain ⟨d, _, rfl⟩ := List.mem_map.mp (mem_takeWhile hc).1
        exact latinChar_le d
      · intro hc
        have := (mem_takeWhile hc).2
        simp at this
  unfold stored
  simp only [hf]
  congr 1
  · cases t.year with
    | none => rfl
    | some y => simp
  · cases t.track with
    | none => rfl
    | some k => by_cases hk : k = 0 <;> simp [Option.filter, hk]
  · cases t.genre with
    | none => rfl
    | some g => by_cases hg : g.toNat < 192 <;> simp [Option.filter, hg]

/-! ### Files -/

/-- The file ends in an ID3v1 tag. -/
def Tagged (f : Bytes) : Prop := 128 ≤ f.length ∧ (f.drop (f.length - 128)).take 3 = [0x54, 0x41, 0x47]

theorem find_untagged {strict read : Bool} {f : Bytes} (h : ¬ Tagged f) : find strict read f = .ok (false, none, f.length) := by
  have ht : ascii "TAG" = [0x54, 0x41, 0x47] := by decide
  unfold find
  by_cases hl : f.length < 128
  · rw [if_pos hl]
  · rw [if_neg hl]
    unfold readAt
    rw [if_pos (by omega), ok_bind, if_pos]
    intro e
    exact h ⟨by omega, by rw [e, ht]⟩

theorem find_tagged {strict : Bool} {audio old : Bytes} (hl : old.length = 128) (ht : old.take 3 = [0x54, 0x41, 0x47]) :
    find strict false (audio ++ old) = .ok (true, none, audio.length) ∧
    find strict true (audio ++ old) = (parse strict old).map fun t => (true, some t, audio.length) := by
  have ht' : ascii "TAG" = [0x54, 0x41, 0x47] := by decide
  have e : (audio ++ old).length - 128 = audio.length := by simp [hl]
  have r1 : readAt (audio ++ old) audio.length 3 = .ok (ascii "TAG") := by
    have := readAt_append audio (old.take 3) (old.drop 3) 3 (by simp [hl])
    rw [List.take_append_drop] at this
    rw [this, ht, ht']
  have r2 : readAt (audio ++ old) audio.length 128 = .ok old := by
    have := readAt_append audio old [] 128 hl
    rwa [List.append_nil] at this
  constructor
  · unfold find
    rw [if_neg (by simp; omega), e, r1, ok_bind, if_neg (by simp), if_neg (by simp)]
  · unfold find
    rw [if_neg (by simp; omega), e, r1, ok_bind, if_neg (by simp), if_pos rfl, r2, ok_bind]
    cases parse strict old <;> rfl

/-- C22/C29: writing to a file without ID3v1 tag appends the 128 bytes of the tag. -/
theorem write_untagged {lossy : Bool} {f b : Bytes} {t : Tag} (hf : ¬ Tagged f) (he : encode lossy t = .ok b) :
    write lossy f t = .ok (f ++ b) := by
  unfold write
  rw [find_untagged hf, ok_bind]
  simp only [Bool.and_false]
  rw [if_neg (by simp), he, ok_bind, writeAt_end]

/-- C22/C29: writing to a file with an ID3v1 tag replaces its last 128 bytes, or removes them
if the new tag is empty. -/
theorem write_tagged {lossy : Bool} {audio old b : Bytes} {t : Tag} (hl : old.length = 128)
    (ht : old.take 3 = [0x54, 0x41, 0x47]) (he : encode lossy t = .ok b) :
    write lossy (audio ++ old) t = .ok (audio ++ if t = Tag.empty then [] else b) := by
  have hem : t.isEmpty = true ↔ t = Tag.empty := by
    obtain ⟨a, b, c, d, e, g, k⟩ := t
    simp [Tag.isEmpty, Tag.empty, and_assoc]
  unfold write
  rw [(find_tagged hl ht).1, ok_bind]
  simp only [Bool.and_true]
  by_cases h : t = Tag.empty
  · rw [if_pos (hem.mpr h), if_pos h]
    unfold truncate
    rw [show (audio ++ old).length - 128 = audio.length by simp [hl], List.take_left, List.append_nil]
  · have hb := (parse_encode (strict := false) he).1
    rw [if_neg (fun h' => h (hem.mp h')), if_neg h, he, ok_bind, writeAt_eq (by simp), List.take_left, List.drop_eq_nil_of_le (by simp [hl, hb]),
      List.append_nil]

/-- C22: a written tag is found again at the end of the file. -/
theorem find_written {lossy strict : Bool} {audio b : Bytes} {t : Tag} (he : encode lossy t = .ok b)
    (hy : strict = true → t.year ≠ none) :
    find strict true (audio ++ b) = .ok (true, some (stored t), audio.length) := by
  obtain ⟨h1, h2, h3⟩ := parse_encode (strict := strict) he
  rw [(find_tagged h1 h2).2, h3, if_neg (fun h => hy h.1 h.2)]
  rfl

/-- Disagreement: writing an empty tag to a file without ID3v1 tag appends an empty tag of
128 bytes instead of leaving the file alone. -/
theorem empty_tag_appended : (write false [1, 2, 3] Tag.empty).toOption.map List.length = some 131 := by
  decide +kernel

/-- Disagreement: a tag without year, as this library writes it, is refused by strict
parsing. -/
theorem yearless_tag_refused : (encode false { Tag.empty with title := some (str "a") }).toOption.map
    (fun b => (b.length, (parse true b).toOption)) = some (128, none) := by
  decide +kernel

/-! ### Editing -/

theorem genre_table : ∀ i : Fin 192, genres.findIdx? (fun g => eqIc g (genres.getD i.val [])) = some i.val := by
  decide +kernel

/-- C22: every genre name of the table can be set (in any case) and is reported as in the
table. -/
theorem setGenre_known (t : Tag) (name g : Str) (hg : g ∈ genres) (h : name.map lowerChar = g.map lowerChar) :
    (t.setGenre name).genreName = some g := by
  obtain ⟨i, hi, rfl⟩ := List.mem_iff_getElem.mp hg
  have hl : genres.length = 192 := by decide +kernel
  have e : (fun g' => eqIc g' name) = fun g' => eqIc g' (genres.getD i []) := by
    funext g'
    unfold eqIc
    rw [h, List.getD_eq_getElem?_getD, List.getElem?_eq_getElem hi, Option.getD_some]
  have := genre_table ⟨i, by omega⟩
  unfold Tag.setGenre
  rw [e, this]
  simp only [Tag.genreName, Option.bind_some]
  rw [show (UInt8.ofNat i).toNat = i by simp; omega, List.getElem?_eq_getElem hi]

/-- C22: an unknown genre name changes nothing. -/
theorem setGenre_unknown (t : Tag) (name : Str) (h : ∀ g ∈ genres, g.map lowerChar ≠ name.map lowerChar) :
    t.setGenre name = t := by
  unfold Tag.setGenre
  rw [List.findIdx?_eq_none_iff.mpr (fun g hg => by simpa [eqIc] using h g hg)]

/-- C22: a track number from 0 to 255 is reported as set; larger numbers wrap around. -/
theorem setTrack_spec (t : Tag) (n : Nat) : (t.setTrack n).trackNumber = some (n % 256) := by
  simp [Tag.setTrack, Tag.trackNumber]

theorem cutComment_prefix (s : Str) : ∀ len, len ≤ 28 → cutComment len s <+: s ∧ len + (utf8 (cutComment len s)).length ≤ 28 ∧
    (∀ c, cutComment len s ++ [c] <+: s → 28 < len + (utf8 (cutComment len s ++ [c])).length) := by
  induction s with
  | nil => intro len hl; exact ⟨by simp [cutComment], by simpa [cutComment, utf8] using hl, by simp⟩
  | cons c s ih =>
    intro len hl
    rw [cutComment]
    split
    · rename_i h
      refine ⟨by simp, by simpa [utf8] using hl, ?_⟩
      intro d hd
      simp only [List.nil_append, List.cons_prefix_cons] at hd
      rw [hd.1, List.nil_append]
      exact h
    · rename_i h
      obtain ⟨h1, h2, h3⟩ := ih (len + (utf8 [c]).length) (by omega)
      have e : ∀ l : Str, (utf8 (c :: l)).length = (utf8 [c]).length + (utf8 l).length := by
        intro l
        rw [show c :: l = [c] ++ l from rfl, utf8_append, List.length_append]
      refine ⟨List.cons_prefix_cons.mpr ⟨rfl, h1⟩, by rw [e]; omega, ?_⟩
      intro d hd
      rw [List.cons_append, List.cons_prefix_cons] at hd
      have := h3 d hd.2
      rw [List.cons_append, e]
      omega

/-- C22: setting a comment keeps its longest beginning of at most 28 bytes. -/
theorem setComment_spec (t : Tag) (s : Str) : ∃ c, (t.setComment s).comment = some c ∧ c <+: s ∧ (utf8 c).length ≤ 28 ∧
    ∀ x, c ++ [x] <+: s → 28 < (utf8 (c ++ [x])).length := by
  obtain ⟨h1, h2, h3⟩ := cutComment_prefix s 0 (by omega)
  exact ⟨_, rfl, h1, by omega, fun x hx => by have := h3 x hx; omega⟩

/-- A tag using all fields, the title as long as its field. -/
def sample : Tag :=
  ⟨some (str "123456789012345678901234567890"), some (str "é"), none, some 1999, some (str "1234567890123456789012345678"),
    some 7, some 191⟩

example : Fits 30 sample.title ∧ Fits 28 sample.comment := by
  constructor <;> · rintro s ⟨⟩; decide +kernel
example : (encode false sample).toOption.map (parse true) = some (.ok sample) := by decide +kernel
example : Tagged (ascii "TAG" ++ List.replicate 125 0) := by unfold Tagged; decide +kernel
example : (Tag.empty.setGenre (str "bLUES")).genreName = some (str "Blues") := by decide +kernel

end Lofty.Id3v1
