import Verif.Props.EndToEnd
/-!
# C69: generic tags whose ID3v2 frames can be written and read

The theorems of `EndToEnd` ask of the frames of a generic tag that each can be written and read by itself.  Here that is derived from
conditions on the items and pictures of the generic tag.
-/
namespace Lofty.Opened
open Item Lofty.Save Lofty.Convert FileType FileType.Spec Id3v2

/-- The keys whose texts are put in frames that are read as dates, or that cannot be written at all (`WORK` and `PCST`). -/
def misread : List ItemKey := [.ReleaseDate, .TaggingTime, .EncodingTime, .Work, .FlagPodcast]

theorem dec_noNul (n : Nat) : '\x00' ∉ toDec n := fun h => absurd (toDec_digits n _ h) (by decide)

theorem digits_lt (max : Nat) : ∀ (s : Str) (a : Nat), a < max → ∀ n, parseDigits max a s = some n → n < max := by
  intro s
  induction s with
  | nil => intro a ha n h; cases h; exact ha
  | cons c s ih =>
    intro a ha n h
    unfold parseDigits at h
    repeat' split at h
    all_goals first | cases h | (rename_i hlt; exact ih _ hlt n h) | skip

theorem uint_lt {max : Nat} (hm : 0 < max) {s : Str} {n : Nat} (h : parseUInt max s = some n) : n < max := by
  unfold parseUInt at h
  split at h
  · cases h
  · split at h
    · cases h
    · exact digits_lt max _ 0 hm n h
  · exact digits_lt max _ 0 hm n h

theorem pop_counter {custom : Rating.Provider} {s : Str} {p : Rating.Pop} (h : Rating.fromStr custom s = some p) : p.counter < 2 ^ 64 := by
  unfold Rating.fromStr at h
  split at h
  · split at h
    · split at h
      · rename_i hc _ _
        cases h
        exact uint_lt (by decide) hc
      · cases h
    · cases h
  · cases h

/-- A tag that an ID3v2.4 tag can hold: texts that are not empty and have no NUL, links in Latin-1, dates in the form of dates,
no texts in frames that hold no texts, languages of three letters, raters in Latin-1, pictures of known kinds that are all different. -/
structure Id3Ready (custom : Rating.Provider) (t : Tag) : Prop where
  texts : ∀ i ∈ t.items, ∀ s, i.value = .text s → s ≠ [] ∧ '\x00' ∉ s
  links : ∀ i ∈ t.items, ∀ s, i.value = .text s → i.key ∈ urlKeys → ∀ c ∈ s, c.toNat ≤ 255
  dates : ∀ i ∈ t.items, ∀ s, i.value = .text s → i.key ∈ dateKeys → ∃ d, Timestamp.InRange d ∧ Timestamp.fromStr s = .ok d
  known : ∀ i ∈ t.items, i.key ∉ misread
  langs : ∀ i ∈ t.items, i.key ∈ [ItemKey.Comment, .UnsyncLyrics] → Alphabetic (langOf i.lang) ∧ '\x00' ∉ i.description
  raters : ∀ i ∈ t.items, ∀ s p, i.value = .text s → i.key = .Popularimeter → Rating.fromStr custom s = some p →
    ∀ c ∈ p.email.getD [], c.toNat ≤ 255 ∧ c ≠ '\x00'
  pictures : ∀ p ∈ t.pictures, p.desc ≠ some [] ∧ '\x00' ∉ p.desc.getD [] ∧ (∀ b, p.ty = .undefined b → 20 < b.toNat) ∧
    ∀ m, p.mime = some m → (∀ c ∈ m.asStr, c.toNat ≤ 127) ∧ '\x00' ∉ m.asStr ∧ m.asStr ≠ [] ∧ Picture.Mime.fromStr m.asStr = m
  distinct : t.pictures.Nodup

theorem upsert_vals {κ α : Type} [DecidableEq κ] (P : Str → Prop) (g : α → Str → Str) (key : α → κ) (val : α → Str) (ops : List α)
    (h1 : ∀ o ∈ ops, P (val o)) (h2 : ∀ o ∈ ops, ∀ c, P c → P (g o c)) :
    ∀ l : List (κ × Str), (∀ x ∈ l, P x.2) → ∀ e ∈ ops.foldl (fun l e => upsert (g e) (key e) (val e) l) l, P e.2 := by
  induction ops with
  | nil => intro l h e he; exact h e he
  | cons o ops ih =>
    intro l h
    rw [List.foldl_cons]
    refine ih (fun x hx => h1 x (List.mem_cons_of_mem _ hx)) (fun x hx => h2 x (List.mem_cons_of_mem _ hx)) _ ?_
    clear ih
    induction l with
    | nil =>
      intro x hx
      simp only [upsert, List.mem_singleton] at hx
      subst hx
      exact h1 o (by simp)
    | cons e l ih =>
      intro x hx
      unfold upsert at hx
      split at hx
      · rcases List.mem_cons.mp hx with rfl | hx
        · exact h2 o (by simp) _ (h e (by simp))
        · exact h x (List.mem_cons_of_mem _ hx)
      · rcases List.mem_cons.mp hx with rfl | hx
        · exact h x (by simp)
        · exact ih (fun x hx => h x (List.mem_cons_of_mem _ hx)) x hx

/-- A text that does not end in NUL. -/
def NoEnd (s : Str) : Prop := s.getLast? ≠ some '\x00'

theorem noEnd_of {s : Str} (h : '\x00' ∉ s) : NoEnd s := fun hl => h (List.mem_of_getLast? hl)

theorem noEnd_extend {v : Str} (hv : v ≠ []) (hn : '\x00' ∉ v) (c : Str) : NoEnd (extendText v c) := by
  unfold NoEnd extendText
  rw [List.getLast?_append, List.getLast?_cons_of_ne_nil hv]
  cases hl : v.getLast? with
  | none => exact absurd (List.getLast?_eq_none_iff.mp hl) hv
  | some x =>
    intro h
    have h : some x = some '\x00' := h
    cases h
    exact hn (List.mem_of_getLast? hl)

theorem enc_utf8 {w : WriteOpts} (hw : w.v23 = false) : w.enc .utf8 = .utf8 := by unfold WriteOpts.enc; rw [hw]; rfl

/-- The names of the frames. -/
theorem text_names : ∀ j ∈ textKeys, j ∉ dateKeys → j ∉ misread → IdOk (nameOf j) ∧ TextId (nameOf j) := by
  have : ∀ j ∈ textKeys, j ∉ dateKeys → j ∉ misread → IdOk (nameOf j) ∧
      (((nameOf j).head? = some 'T' ∧ nameOf j ∉ takenIds) ∨ nameOf j = str "GRP1" ∨ nameOf j = str "MVNM" ∨ nameOf j = str "MVIN") := by
    decide +kernel
  exact this

theorem url_names : ∀ j ∈ urlKeys, IdOk (nameOf j) ∧ (nameOf j).head? = some 'W' ∧ nameOf j ∉ takenIds := by decide +kernel
theorem date_names : ∀ j ∈ dateKeys, IdOk (nameOf j) ∧ nameOf j ∈ [str "TDEN", str "TDOR", str "TDRC", str "TDRL", str "TDTG"] := by decide +kernel
theorem user_names : ∀ j ∈ userKeys, '\x00' ∉ nameOf j := by decide +kernel

theorem ufid_owner (w : WriteOpts) (po : ParseOpts) (d : Bytes) : ContentOk w po (.ufid ⟨musicbrainz, d⟩) := by
  show Inside .latin1 musicbrainz ∧ (musicbrainz ≠ [] ∨ po.mode = .bestAttempt)
  exact ⟨⟨by show ∀ c ∈ musicbrainz, c.toNat ≤ 255; decide, by decide⟩, .inl (by decide)⟩

theorem pair_noNul {a b : Option Nat} {v : Str} (h : formatPair (a.map toDec) (b.map toDec) = some v) : '\x00' ∉ v := by
  cases a <;> cases b <;> simp only [Option.map_none, Option.map_some, formatPair] at h <;> cases h
  · intro h
    rcases List.mem_append.mp h with h | h
    · exact dec_noNul _ h
    · rcases List.mem_cons.mp h with h | h
      · exact absurd h (by decide)
      · exact dec_noNul _ h
  · exact dec_noNul _
  · intro h
    rcases List.mem_append.mp h with h | h
    · exact dec_noNul _ h
    · rcases List.mem_cons.mp h with h | h
      · exact absurd h (by decide)
      · exact dec_noNul _ h

theorem once_text : ∀ j ∈ textKeys ++ urlKeys, nameOf j ∉ onceIds.map String.toList := by decide +kernel

theorem set_pairwise (l : List Frame) : (l.foldl insertSet []).Pairwise fun a b => ¬ Same a b := by
  have key : ∀ (l acc : List Frame), acc.Pairwise (fun a b => ¬ Same a b) → (l.foldl insertSet acc).Pairwise fun a b => ¬ Same a b := by
    intro l
    induction l with
    | nil => intro acc h; exact h
    | cons f l ih =>
      intro acc h
      rw [List.foldl_cons]
      apply ih
      unfold insertSet
      split
      · exact h
      · rename_i hn
        rw [List.pairwise_append]
        refine ⟨h, List.pairwise_singleton _ _, ?_⟩
        intro a ha b hb hs
        rw [List.mem_singleton] at hb
        subst hb
        exact hn (List.any_eq_true.mpr ⟨a, ha, (sameFrame_iff _ _).mpr hs⟩)
  exact key l [] List.Pairwise.nil

section
variable {w : WriteOpts} {po : ParseOpts} (hw : w.v23 = false)
include hw

theorem text_ok {j : ItemKey} (h1 : j ∈ textKeys) (h2 : j ∉ dateKeys) (h3 : j ∉ misread) {v : Str} (hv : NoEnd v) :
    FrameOk w po (newText (nameOf j) v) := by
  obtain ⟨n1, n2⟩ := text_names j h1 h2 h3
  refine .leaf _ _ (nameOf j) (by decide) rfl n1 (by rw [hw]; nofun) ⟨n2, ?_⟩
  show Final (w.enc .utf8) v
  rw [enc_utf8 hw]
  exact ⟨trivial, hv⟩

theorem user_ok {j : ItemKey} (h1 : j ∈ userKeys) {v : Str} (hv : NoEnd v) : FrameOk w po (newUserText (nameOf j) v) := by
  refine .leaf _ _ (str "TXXX") (by decide) rfl (by decide) (by rw [hw]; nofun) ?_
  show Inside (w.enc .utf8) (nameOf j) ∧ Final (w.enc .utf8) v
  rw [enc_utf8 hw]
  exact ⟨⟨trivial, user_names j h1⟩, trivial, hv⟩

theorem url_ok {j : ItemKey} (h1 : j ∈ urlKeys) {v : Str} (h2 : v ≠ []) (h3 : '\x00' ∉ v) (h4 : ∀ c ∈ v, c.toNat ≤ 255) :
    FrameOk w po (newUrl (nameOf j) v) := by
  obtain ⟨n1, n2, n3⟩ := url_names j h1
  exact .leaf _ _ (nameOf j) (by decide) rfl n1 (by rw [hw]; nofun) ⟨n2, n3, ⟨h4, h3⟩, h2⟩

theorem time_ok {j : ItemKey} (h1 : j ∈ dateKeys) {d : Timestamp} (hd : Timestamp.InRange d) : FrameOk w po (newTime (nameOf j) d) := by
  obtain ⟨n1, n2⟩ := date_names j h1
  exact .leaf _ _ (nameOf j) (by decide) rfl n1 (by rw [hw]; nofun) ⟨n2, hd⟩

theorem comment_ok {e : (Bytes × Str) × Str} (h1 : Alphabetic (langOf e.1.1)) (h2 : '\x00' ∉ e.1.2) (h3 : NoEnd e.2) :
    FrameOk w po (newComment e) ∧ FrameOk w po (newLyrics e) := by
  constructor
  · refine .leaf _ _ (str "COMM") (by decide) rfl (by decide) (by rw [hw]; nofun) ?_
    show Alphabetic (langOf e.1.1) ∧ Inside (w.enc .utf8) e.1.2 ∧ Final (w.enc .utf8) e.2 ∧ (w.enc .utf8 = .utf16 → '\x00' ∉ e.2)
    rw [enc_utf8 hw]
    exact ⟨h1, ⟨trivial, h2⟩, ⟨trivial, h3⟩, nofun⟩
  · refine .leaf _ _ (str "USLT") (by decide) rfl (by decide) (by rw [hw]; nofun) ?_
    show Alphabetic (langOf e.1.1) ∧ Inside (w.enc .utf8) e.1.2 ∧ Final (w.enc .utf8) e.2 ∧ (w.enc .utf8 = .utf16 → '\x00' ∉ e.2)
    rw [enc_utf8 hw]
    exact ⟨h1, ⟨trivial, h2⟩, ⟨trivial, h3⟩, nofun⟩

theorem own_ok {custom : Rating.Provider} {t : Tag} (ht : Id3Ready custom t) {i : TagItem} (hi : i ∈ t.items) {f : Frame} (hc : collected i.key = false)
    (h : ownFrame custom false i = some f) : FrameOk w po f := by
  have htext : ∀ s, itemText false i = some s → i.value = .text s := by
    intro s hs
    have hs : i.value.textOf = some s := hs
    cases hv : i.value <;> rw [hv] at hs <;> simp_all [ItemValue.textOf]
  by_cases hs : specialFrame.contains i.key = true
  · have hm : i.key ∈ specialFrame := by simpa using hs
    unfold ownFrame at h
    have hcase : i.key = .FlagCompilation ∨ i.key = .FlagPodcast ∨ i.key = .RecordingDate ∨ i.key = .OriginalReleaseDate ∨
        i.key = .ParentalAdvisory ∨ i.key = .MusicBrainzRecordingId ∨ i.key = .Popularimeter := by
      simpa [specialFrame, flagKeys, dateKeys] using hm
    have flag : ∀ k, i.key = k → k ∈ flagKeys → ((i.value.textOf.bind flagItem).bind fun f => (mapKey .id3v2 i.key).map
        fun id => newText id (flagText f)) = some f → FrameOk w po f := by
      intro k hk hkm h
      rw [hk, mapKey_nameOf (j := k) (by simp [textKeys, hkm])] at h
      cases hx : i.value.textOf.bind flagItem with
      | none => rw [hx] at h; cases h
      | some b =>
        rw [hx] at h
        obtain rfl := Option.some.inj h
        have hn : ∀ k ∈ flagKeys, k ∉ dateKeys := by decide
        exact text_ok hw (by simp [textKeys, hkm]) (hn k hkm) (by rw [← hk]; exact ht.known i hi) (noEnd_of (by cases b <;> decide))
    have date : ∀ k, i.key = k → k ∈ dateKeys → ((itemText false i).bind fun s => (mapKey .id3v2 i.key).map
        fun id => dateFrame id s) = some f → FrameOk w po f := by
      intro k hk hkm h
      rw [hk, mapKey_nameOf (j := k) (by simp [textKeys, hkm])] at h
      cases hx : itemText false i with
      | none => rw [hx] at h; cases h
      | some s =>
        rw [hx] at h
        obtain rfl := Option.some.inj h
        obtain ⟨d, hd, he⟩ := ht.dates i hi s (htext s hx) (by rw [hk]; exact hkm)
        unfold dateFrame
        rw [he]
        exact time_ok hw hkm hd
    rcases hcase with hk | hk | hk | hk | hk | hk | hk
    · rw [hk] at h
      exact flag _ hk (by simp [flagKeys]) (by rw [hk]; exact h)
    · rw [hk] at h
      exact flag _ hk (by simp [flagKeys]) (by rw [hk]; exact h)
    · rw [hk] at h
      exact date _ hk (by simp [dateKeys]) (by rw [hk]; exact h)
    · rw [hk] at h
      exact date _ hk (by simp [dateKeys]) (by rw [hk]; exact h)
    · rw [hk] at h
      simp only at h
      obtain ⟨r, _, rfl⟩ := mem_optMap h
      have : str "ITUNESADVISORY" = nameOf .ParentalAdvisory := by decide +kernel
      rw [this]
      exact user_ok hw (by simp [userKeys]) (noEnd_of (dec_noNul r))
    · rw [hk] at h
      simp only at h
      cases hx : itemText false i with
      | none => rw [hx] at h; cases h
      | some s =>
        rw [hx, Option.bind_some] at h
        split at h
        · obtain rfl := Option.some.inj h
          exact .leaf _ _ (str "UFID") (by decide) rfl (by decide) (by rw [hw]; nofun) (ufid_owner _ _ _)
        · cases h
    · rw [hk] at h
      simp only at h
      cases hx : itemText false i with
      | none => rw [hx] at h; cases h
      | some s =>
        rw [hx, Option.bind_some] at h
        obtain ⟨r, hr, rfl⟩ := mem_optMap h
        have := ht.raters i hi s r (htext s hx) hk hr
        exact .leaf _ _ (str "POPM") (by decide) rfl (by decide) (by rw [hw]; nofun)
          ⟨⟨fun c hc => (this c hc).1, fun hc => (this _ hc).2 rfl⟩, pop_counter hr⟩
  · have ho : ownFrame custom false i = otherFrame false i := by
      unfold ownFrame
      split
      all_goals first | rfl | (rename_i hk; rw [hk] at hs; exact absurd (by decide) hs)
    rw [ho, otherFrame_eq hc (by simpa using hs)] at h
    split at h
    · rename_i hx
      obtain ⟨v, hv, rfl⟩ := mem_optMap h
      have hk : i.key ∈ otherText := by simpa using hx
      have : i.key ∉ dateKeys := by revert hk; generalize i.key = k; revert k; decide
      exact text_ok hw (by simp [textKeys, hk]) this (ht.known i hi) (noEnd_of (ht.texts i hi v (htext v hv)).2)
    · split at h
      · rename_i hx
        obtain ⟨v, hv, rfl⟩ := mem_optMap h
        have hk : i.key ∈ urlKeys := by simpa using hx
        have := ht.texts i hi v (htext v hv)
        exact url_ok hw hk this.1 this.2 (ht.links i hi v (htext v hv) hk)
      · cases h

theorem all_ok {custom : Rating.Provider} {t : Tag} (ht : Id3Ready custom t) {f : Frame} (h : f ∈ allFrames custom false t.items) :
    FrameOk w po f := by
  have htext : ∀ i ∈ t.items, ∀ s, itemText false i = some s → s ≠ [] ∧ '\x00' ∉ s := by
    intro i hi s hs
    have hs : i.value.textOf = some s := hs
    refine ht.texts i hi s ?_
    cases hv : i.value <;> rw [hv] at hs <;> simp_all [ItemValue.textOf]
  have hlang : ∀ k ∈ [ItemKey.Comment, .UnsyncLyrics], ∀ e ∈ (t.items.filterMap (langOp k false)).foldl
      (fun l e => upsert (extendText e.2) e.1 e.2 l) [], Alphabetic (langOf e.1.1) ∧ '\x00' ∉ e.1.2 ∧ NoEnd e.2 := by
    intro k hk e he
    have hop : ∀ o ∈ t.items.filterMap (langOp k false), ∃ i ∈ t.items, i.key = k ∧ itemText false i = some o.2 ∧ o.1 = (i.lang, i.description) := by
      intro o ho
      obtain ⟨i, hi, hio⟩ := List.mem_filterMap.mp ho
      unfold langOp at hio
      split at hio
      · rename_i hki
        obtain ⟨v, hv, rfl⟩ := mem_optMap hio
        exact ⟨i, hi, hki, hv, rfl⟩
      · cases hio
    have hv : NoEnd e.2 := by
      refine upsert_vals NoEnd (fun e : (Bytes × Str) × Str => extendText e.2) (fun e => e.1) (fun e => e.2) _ ?_ ?_ [] nofun e he
      · intro o ho
        obtain ⟨i, hi, -, hx, -⟩ := hop o ho
        exact noEnd_of (htext i hi _ hx).2
      · intro o ho c _
        obtain ⟨i, hi, -, hx, -⟩ := hop o ho
        exact noEnd_extend (htext i hi _ hx).1 (htext i hi _ hx).2 c
    rcases upsert_mem (fun e : (Bytes × Str) × Str => extendText e.2) (fun e => e.1) (fun e => e.2) _ _ _ he with ⟨o, ho, hoe⟩ | ⟨x, hx, _⟩
    · obtain ⟨i, hi, hki, -, h1⟩ := hop o ho
      have := ht.langs i hi (by rw [hki]; exact hk)
      rw [← hoe, h1]
      exact ⟨this.1, this.2, hv⟩
    · cases hx
  rw [allFrames_eq] at h
  simp only [List.mem_append] at h
  rcases h with ((((((h | h) | h) | h) | h) | h) | h) | h
  · obtain ⟨i, hi, hio⟩ := List.mem_filterMap.mp h
    unfold ownOf at hio
    split at hio
    · cases hio
    · rename_i hc
      exact own_ok hw ht hi (by simpa using hc) hio
  · split at h
    · cases h
    · rename_i hne
      rw [List.mem_singleton] at h
      subst h
      refine .leaf _ _ (str "TIPL") (by decide) rfl (by decide) (by rw [hw]; nofun) ?_
      show (str "TIPL" = str "TIPL" ∨ _) ∧ (ctxOf false t.items).tipl ≠ [] ∧ ∀ p ∈ (ctxOf false t.items).tipl, Inside (w.enc .utf8) p.1 ∧ Inside (w.enc .utf8) p.2
      refine ⟨.inl rfl, fun h0 => hne (by rw [h0]; rfl), ?_⟩
      rw [enc_utf8 hw]
      show ∀ p ∈ (ctxOf false t.items).tipl, _
      rw [ctx_tipl]
      intro e he
      obtain ⟨i, hi, hio⟩ := List.mem_filterMap.mp he
      unfold tiplOp at hio
      cases hf : tiplMap.find? (fun e => e.1 = i.key) with
      | none => rw [hf] at hio; cases hio
      | some x =>
        rw [hf, Option.bind_some] at hio
        obtain ⟨v, hv, rfl⟩ := mem_optMap hio
        have : ∀ x ∈ tiplMap, '\x00' ∉ x.2 := by decide
        exact ⟨⟨trivial, this x (List.mem_of_find?_eq_some hf)⟩, trivial, (htext i hi v hv).2⟩
  · obtain ⟨e, he, rfl⟩ := List.mem_map.mp h
    rw [ctx_texts] at he
    have hop : ∀ o ∈ t.items.filterMap (textOp false), ∃ i ∈ t.items, i.key ∈ multiText ∧ itemText false i = some o.2 ∧ o.1 = nameOf i.key := by
      intro o ho
      obtain ⟨i, hi, hio⟩ := List.mem_filterMap.mp ho
      unfold textOp at hio
      split at hio
      · rename_i hm
        have hm' : i.key ∈ multiText := by simpa using hm
        rw [mapKey_nameOf (j := i.key) (by simp [textKeys, hm'])] at hio
        cases hx : itemText false i with
        | none => rw [hx] at hio; cases hio
        | some v =>
          rw [hx] at hio
          obtain rfl := Option.some.inj hio
          exact ⟨i, hi, hm', hx, rfl⟩
      · cases hio
    have hv : NoEnd e.2 := by
      refine upsert_vals NoEnd (fun e : Str × Str => extendText e.2) (fun e => e.1) (fun e => e.2) _ ?_ ?_ [] nofun e he
      · intro o ho
        obtain ⟨i, hi, -, hx, -⟩ := hop o ho
        exact noEnd_of (htext i hi _ hx).2
      · intro o ho c _
        obtain ⟨i, hi, -, hx, -⟩ := hop o ho
        exact noEnd_extend (htext i hi _ hx).1 (htext i hi _ hx).2 c
    rcases upsert_mem (fun e : Str × Str => extendText e.2) (fun e => e.1) (fun e => e.2) _ _ _ he with ⟨o, ho, hoe⟩ | ⟨x, hx, _⟩
    · obtain ⟨i, hi, hm, -, h1⟩ := hop o ho
      rw [← hoe, h1]
      have : ∀ k ∈ multiText, k ∉ dateKeys := by decide
      exact text_ok hw (by simp [textKeys, hm]) (this _ hm) (ht.known i hi) hv
    · cases hx
  · obtain ⟨e, he, rfl⟩ := List.mem_map.mp h
    rw [ctx_users] at he
    have hop : ∀ o ∈ t.items.filterMap (userOp false), ∃ i ∈ t.items, i.key ∈ userKeys ∧ itemText false i = some o.2.2 ∧ o.2.1 = nameOf i.key := by
      intro o ho
      obtain ⟨i, hi, hio⟩ := List.mem_filterMap.mp ho
      unfold userOp at hio
      have key : ∀ b : Bool, i.key ∈ userKeys → ((itemText false i).bind fun v => (mapKey .id3v2 i.key).map fun id => (b, id, v)) = some o →
          ∃ i ∈ t.items, i.key ∈ userKeys ∧ itemText false i = some o.2.2 ∧ o.2.1 = nameOf i.key := by
        intro b hm hio
        rw [mapKey_nameOf (j := i.key) (by simp [hm])] at hio
        cases hx : itemText false i with
        | none => rw [hx] at hio; cases hio
        | some v =>
          rw [hx] at hio
          obtain rfl := Option.some.inj hio
          exact ⟨i, hi, hm, hx, rfl⟩
      split at hio
      · rename_i hm
        have hm' : i.key ∈ multiUser := by simpa using hm
        exact key true (by simp [userKeys, hm']) hio
      · split at hio
        · rename_i hm
          have hm' : i.key ∈ singleUser := by simpa using hm
          exact key false (by simp [userKeys, hm']) hio
        · cases hio
    have hv : NoEnd e.2 := by
      refine upsert_vals NoEnd (fun e : Bool × Str × Str => if e.1 then extendText e.2.2 else fun _ => e.2.2) (fun e => e.2.1) (fun e => e.2.2) _
        ?_ ?_ [] nofun e he
      · intro o ho
        obtain ⟨i, hi, -, hx, -⟩ := hop o ho
        exact noEnd_of (htext i hi _ hx).2
      · intro o ho c _
        obtain ⟨i, hi, -, hx, -⟩ := hop o ho
        cases o.1
        · exact noEnd_of (htext i hi _ hx).2
        · exact noEnd_extend (htext i hi _ hx).1 (htext i hi _ hx).2 c
    rcases upsert_mem (fun e : Bool × Str × Str => if e.1 then extendText e.2.2 else fun _ => e.2.2) (fun e => e.2.1) (fun e => e.2.2) _ _ _ he with
      ⟨o, ho, hoe⟩ | ⟨x, hx, _⟩
    · obtain ⟨i, hi, hm, -, h1⟩ := hop o ho
      rw [← hoe, h1]
      exact user_ok hw hm hv
    · cases hx
  · obtain ⟨e, he, rfl⟩ := List.mem_map.mp h
    rw [ctx_comments] at he
    obtain ⟨h1, h2, h3⟩ := hlang .Comment (by decide) e he
    exact (comment_ok hw h1 h2 h3).1
  · obtain ⟨e, he, rfl⟩ := List.mem_map.mp h
    rw [ctx_lyrics] at he
    obtain ⟨h1, h2, h3⟩ := hlang .UnsyncLyrics (by decide) e he
    exact (comment_ok hw h1 h2 h3).2
  all_goals
    rw [Option.mem_toList] at h
    obtain ⟨v, hv, rfl⟩ := mem_optMap h
    have hv : '\x00' ∉ v := pair_noNul hv
  · have : str "TRCK" = nameOf .TrackNumber := by decide +kernel
    rw [this]
    exact text_ok hw (by decide) (by decide) (by decide) (noEnd_of hv)
  · have : str "TPOS" = nameOf .DiscNumber := by decide +kernel
    rw [this]
    exact text_ok hw (by decide) (by decide) (by decide) (noEnd_of hv)

/-- **The frames of such a tag can be written and read.** -/
theorem ready_frames {o : Options} {t : Tag} (ht : Id3Ready o.custom t) (hord : ∀ l, (o.order l).Perm l) (hcov : po.readCover = true) :
    (∀ f ∈ frames o t, FrameOk w po f) ∧ TagList w (frames o t) := by
  have hmade : ∀ f ∈ o.order (fromTag o.custom false t.items), f ∈ allFrames o.custom false t.items :=
    fun f hf => mem_set ((hord _).mem_iff.mp hf)
  have hre : (frames o t).map (·.reencode w) = frames o t := by
    rw [List.map_congr_left (fun f _ => reencode_v4 hw f), List.map_id']
  have heq : frames o t = o.order (fromTag o.custom false t.items) ++ t.pictures.map newPicture := by
    unfold frames tagFrames
    rw [List.append_nil]
  refine ⟨fun f hf => ?_, ?_, ?_, ?_⟩
  · rw [heq] at hf
    rcases List.mem_append.mp hf with hf | hf
    · exact all_ok hw ht (hmade f hf)
    · obtain ⟨p, hp, rfl⟩ := List.mem_map.mp hf
      obtain ⟨h1, h2, h3, h4⟩ := ht.pictures p hp
      refine .leaf _ _ (str "APIC") (by decide) rfl (by decide) (by rw [hw]; nofun) ?_
      show po.readCover = true ∧ Inside (w.enc .utf8) (p.desc.getD []) ∧ p.desc ≠ some [] ∧ _ ∧ _
      rw [enc_utf8 hw]
      exact ⟨hcov, ⟨trivial, h2⟩, h1, h4, h3⟩
  · have : (frames o t).filter Frame.isRoot = [] := by
      rw [List.filter_eq_nil_iff]
      intro f hf
      rw [heq] at hf
      rcases List.mem_append.mp hf with hf | hf
      · have := made_all (hmade f hf)
        cases this <;> nofun
      · obtain ⟨p, hp, rfl⟩ := List.mem_map.mp hf
        nofun
    rw [this]
    exact Nat.zero_le _
  · rw [hre, heq, List.pairwise_append]
    refine ⟨?_, ?_, ?_⟩
    · refine ((hord _).pairwise_iff (fun {a b} h h' => h (same_symm h'))).mpr ?_
      exact set_pairwise _
    · rw [List.pairwise_map]
      refine ht.distinct.imp fun {a b} hab h => ?_
      have := (sameFrame_iff _ _).mpr h
      rw [same_picture] at this
      exact hab (by simpa using this)
    · intro a ha b hb h
      obtain ⟨p, hp, rfl⟩ := List.mem_map.mp hb
      have := made_all (hmade a ha)
      cases this <;> exact h
  · rw [hre]
    intro id hid
    have : (frames o t).filter (fun f => f.id = id) = [] := by
      rw [List.filter_eq_nil_iff]
      intro f hf h
      have h : f.id = id := by simpa using h
      rw [heq] at hf
      have hn : f.id.asStr ∉ onceIds.map String.toList := by
        rcases List.mem_append.mp hf with hf | hf
        · cases made_all (hmade f hf) with
          | text j v hj => exact once_text j (by simp [hj])
          | url j v hj => exact once_text j (by simp [hj])
          | time j v hj => exact once_text j (by simp [textKeys, hj])
          | _ => show str _ ∉ _; decide
        · obtain ⟨p, hp, rfl⟩ := List.mem_map.mp hf
          show str "APIC" ∉ _
          decide
      rw [h] at hn
      exact hn hid
    rw [this]
    exact Nat.zero_le _

end

/-! ## APE -/

/-- The names of the items of a generic tag in an APE tag, but for numbers. -/
def apeNames (t : Tag) : List Str := (t.items.filter fun i => !numberKeys.contains i.key).filterMap fun i => mapKey .ape i.key

/-- A tag that an APE tag can hold: no two items under one name, and no text that ends in NUL. -/
structure ApeReady (t : Tag) : Prop where
  names : (apeNames t).Nodup
  texts : ∀ i ∈ t.items, ∀ s, i.value = .text s ∨ i.value = .locator s → NoEnd s

/-- The names that generic keys have in APE tags. -/
theorem ape_valid : ∀ k ∈ ItemKey.all, numberKeys.contains k = false → ∀ n ∈ (mapKey .ape k).toList, Ape.validKey n = true ∧
    eqIc n (str "Track") = false ∧ eqIc n (str "Disc") = false := by decide +kernel

theorem ape_case : ∀ m ∈ ItemKey.all.filterMap (mapKey .ape), ∀ n ∈ ItemKey.all.filterMap (mapKey .ape), eqIc m n = true → m = n := by
  decide +kernel

theorem pair_noEnd {a b : Option Str} {v : Str} (ha : ∀ s, a = some s → NoEnd s) (hb : ∀ s, b = some s → NoEnd s)
    (h : formatPair a b = some v) : NoEnd v := by
  have key : ∀ (x t : Str), NoEnd t → NoEnd (x ++ '/' :: t) := by
    intro x t ht
    unfold NoEnd
    rw [List.getLast?_append, List.getLast?_cons]
    cases hl : t.getLast? with
    | none => exact (by decide : some '/' ≠ some '\x00')
    | some c => exact fun h => ht (by rw [hl]; exact h)
  cases a <;> cases b <;> simp only [formatPair] at h <;> cases h
  · exact key _ _ (hb _ rfl)
  · exact ha _ rfl
  · exact key _ _ (hb _ rfl)

/-- **The items of such a tag can be written and read.** -/
theorem ready_items {t : Tag} (ht : ApeReady t) (hne : apeRef t ≠ []) : Ape.Good ⟨false, apeRef t⟩ := by
  have hstr : ∀ k s, t.getString k = some s → NoEnd s := by
    intro k s h
    obtain ⟨i, hi, hs⟩ := Option.bind_eq_some_iff.mp h
    refine ht.texts i (List.mem_of_find?_eq_some hi) s (.inl ?_)
    cases hv : i.value <;> rw [hv] at hs <;> cases hs
    rfl
  have hmem : ∀ i ∈ (t.items.filter fun i => !numberKeys.contains i.key).filterMap (fun i =>
      (mapKey .ape i.key).map fun k => (⟨false, k, apeValue i.value⟩ : Ape.Item)),
      ∃ x ∈ t.items, numberKeys.contains x.key = false ∧ mapKey .ape x.key = some i.key ∧ i.value = apeValue x.value := by
    intro i hi
    obtain ⟨x, hx, he⟩ := List.mem_filterMap.mp hi
    rw [List.mem_filter] at hx
    obtain ⟨k, hk, rfl⟩ := mem_optMap he
    exact ⟨x, hx.1, by simpa using hx.2, hk, rfl⟩
  refine ⟨hne, ?_, ?_⟩
  · intro i hi
    simp only [apeRef, List.mem_append, Option.mem_toList, Option.mem_def] at hi
    rcases hi with (hi | hi) | hi
    · obtain ⟨x, hx, hn, hk, hv⟩ := hmem i hi
      refine ⟨(ape_valid x.key x.key.mem_all hn i.key (by rw [hk]; simp)).1, ?_⟩
      rw [hv]
      cases hxv : x.value with
      | text s => exact ht.texts x hx s (.inl hxv)
      | locator s => exact ht.texts x hx s (.inr hxv)
      | binary d => trivial
    · obtain ⟨v, hv, rfl⟩ := mem_optMap hi
      exact ⟨by show Ape.validKey (str "Track") = true; decide, pair_noEnd (hstr _) (hstr _) hv⟩
    · obtain ⟨v, hv, rfl⟩ := mem_optMap hi
      exact ⟨by show Ape.validKey (str "Disc") = true; decide, pair_noEnd (hstr _) (hstr _) hv⟩
  · show Ape.Distinct (apeRef t)
    unfold Ape.Distinct apeRef
    have hother : ∀ i ∈ (t.items.filter fun i => !numberKeys.contains i.key).filterMap (fun i =>
      (mapKey .ape i.key).map fun k => (⟨false, k, apeValue i.value⟩ : Ape.Item)),
        eqIc i.key (str "Track") = false ∧ eqIc i.key (str "Disc") = false := by
      intro i hi
      obtain ⟨x, hx, hn, hk, hv⟩ := hmem i hi
      exact (ape_valid x.key x.key.mem_all hn i.key (by rw [hk]; simp)).2
    rw [List.pairwise_append, List.pairwise_append]
    refine ⟨⟨?_, ?_, ?_⟩, ?_, ?_⟩
    · have hn : ((t.items.filter fun i => !numberKeys.contains i.key).filterMap (fun i =>
          (mapKey .ape i.key).map fun k => (⟨false, k, apeValue i.value⟩ : Ape.Item))).map (·.key) = apeNames t := by
        unfold apeNames
        rw [List.map_filterMap]
        congr 1
        funext i
        cases mapKey .ape i.key <;> rfl
      have := ht.names
      rw [← hn] at this
      have := List.pairwise_map.mp this
      refine List.Pairwise.imp_of_mem ?_ this
      intro a b ha hb hab
      obtain ⟨x, -, -, hx, -⟩ := hmem a ha
      obtain ⟨y, -, -, hy, -⟩ := hmem b hb
      cases h : eqIc a.key b.key with
      | false => rfl
      | true => exact absurd (ape_case _ (List.mem_filterMap.mpr ⟨x.key, x.key.mem_all, hx⟩) _ (List.mem_filterMap.mpr ⟨y.key, y.key.mem_all, hy⟩) h) hab
    · cases formatPair (t.getString .TrackNumber) (t.getString .TrackTotal) <;> simp
    · intro a ha b hb
      rw [Option.mem_toList] at hb
      obtain ⟨v, -, rfl⟩ := mem_optMap hb
      exact (hother a ha).1
    · cases formatPair (t.getString .DiscNumber) (t.getString .DiscTotal) <;> simp
    · intro a ha b hb
      rw [Option.mem_toList] at hb
      obtain ⟨v, -, rfl⟩ := mem_optMap hb
      rcases List.mem_append.mp ha with ha | ha
      · exact (hother a ha).2
      · rw [Option.mem_toList] at ha
        obtain ⟨v, -, rfl⟩ := mem_optMap ha
        show eqIc (str "Track") (str "Disc") = false
        decide

/-! ## The theorem again, with conditions on generic tags only -/

/-- A tag that can be saved around the given audio. -/
structure Ready (o : Options) (r : ReadOptions) (audio : Bytes) (t : Tag) : Prop where
  id3v2 : t.type = .id3v2 → Id3Ready o.custom t ∧ ∀ b, createItems o.frames (frames o t) = .ok b → b.length + o.padding.getD 0 < 2 ^ 32
  ape : t.type = .ape → ApeReady t ∧ ∀ b, Ape.createTag ⟨false, apeRef t⟩ = .ok b → b.length < 2 ^ 32 ∧ ¬ Id3v1.Tagged (audio ++ b)
  id3v1 : t.type = .id3v1 → r.mode = .strict → (id3v1Ref t).year ≠ none

theorem ready_save {o : Options} {r : ReadOptions} {audio : Bytes} {t : Tag} (hv : o.v23 = false) (hord : ∀ l, (o.order l).Perm l)
    (hc : r.cover = true) (hty : t.type ∈ [TagType.id3v2, .id3v1, .ape]) (ht : Ready o r audio t) : (toSave o t).Ok r.files audio := by
  simp only [List.mem_cons, List.not_mem_nil, or_false] at hty
  unfold toSave
  rcases hty with h | h | h
  · rw [h]
    obtain ⟨h1, h2⟩ := ht.id3v2 h
    obtain ⟨h3, h4⟩ := ready_frames (w := o.frames) (po := r.files.id3) hv h1 hord hc
    exact .inr ⟨hv, rfl, rfl, rfl, h3, h4, h2⟩
  · rw [h]
    exact ht.id3v1 h
  · rw [h]
    obtain ⟨h1, h2⟩ := ht.ape h
    by_cases hne : apeRef t = []
    · exact .inl hne
    · exact .inr ⟨ready_items h1 hne, h2⟩

/-- **C69, MPEG, AAC, Monkey's Audio, Musepack and WavPack, in terms of generic tags.** As `around_end_to_end_partial`, with all
conditions on the tags themselves: what is asked of them is in `Id3Ready` and `ApeReady`. -/
theorem around_ready_end_to_end_partial {o : Options} {r : ReadOptions} {ft : FileType} {audio g : Bytes} {ts : List Tag} (hft : ft ∈ around)
    (ha : FileTags.Audio r.files audio) (hv : verified audio = .ok ft) (hpl : Playable ft audio)
    (hd : ∀ t ∈ ts, (t.type, false) ∈ documented ft) (hok : ∀ t ∈ ts, Ready o r audio t) (h4 : o.v23 = false) (hj : r.junk = o.junk)
    (hc : r.cover = true) (hcu : r.custom = o.custom) (hord : ∀ l, (o.order l).Perm l) (hg : saveAll o ft ts audio = .ok g) :
    ∃ d0, ∀ d, d0 ≤ d → ∃ xs, openFile { r with depth := d } g = .ok xs ∧
      (∀ ty ∈ [TagType.id3v2, .id3v1, .ape], (ft, ty) ≠ (.aac, .ape) → lastOf ty ts = none → tagIn ty xs = none) ∧
      (∀ t, lastOf .id3v2 ts = some t → Through o.custom false t (seen .id3v2 xs)) ∧
      (∀ t, lastOf .id3v1 ts = some t →
        (∀ k n, (k, n) ∈ [(ItemKey.TrackTitle, 30), (.TrackArtist, 30), (.AlbumTitle, 30), (.Comment, 28)] →
          (seen .id3v1 xs).getStrings k = (Id3v1.field n (t.getString k)).toList) ∧
        (∀ n, 0 < n → n < 256 → t.getString .TrackNumber = some (toDec n) → (seen .id3v1 xs).getStrings .TrackNumber = [toDec n]) ∧
        (∀ y ≤ 9999, t.getString .Year = some (toDec y) → (seen .id3v1 xs).getStrings .Year = [toDec y]) ∧
        (∀ g ∈ Id3v1.genres, t.getString .Genre = some g → (seen .id3v1 xs).getStrings .Genre = [g])) ∧
      (∀ t, lastOf .ape ts = some t →
        (∀ k, Plain k → supports .ape k = true → (seen .ape xs).getStrings k =
          (t.items.filter fun i => readAs .ape i.key = k).flatMap fun i => apeSplit i.value) ∧
        (∀ number total n, (number, total, n) ∈ pairNames → (∀ s, t.getString number = some s → '/' ∉ s) →
          (seen .ape xs).getStrings number = ((t.getString number).or ((t.getString total).map fun _ => str "0")).toList ∧
          (seen .ape xs).getStrings total = (t.getString total).toList)) :=
  around_end_to_end_partial hft ha hv hpl hd
    (fun t ht => ready_save h4 hord hc (documented_around hft (hd t ht)).1 (hok t ht)) hj hc hcu hord hg

/-! ## Examples -/

/-- A tag with a text, a link, a date, a comment, a number and a picture. -/
def rich (ty : TagType) : Tag :=
  ⟨ty, [⟨.coverFront, some .png, some (str "d"), [1, 2]⟩],
    [TagItem.new .TrackTitle (.text (str "x")), TagItem.new .TrackArtistUrl (.text (str "http://a.b")),
      TagItem.new .RecordingDate (.text (str "2001-02-03")), ⟨ascii "eng", str "d", .Comment, .text (str "c")⟩,
      TagItem.new .TrackNumber (.text (str "3"))], false⟩

theorem rich_id3 : Id3Ready Rating.default (rich .id3v2) where
  texts := by
    have : ∀ i ∈ (rich .id3v2).items, ∀ s ∈ i.value.textOf.toList, s ≠ [] ∧ '\x00' ∉ s := by decide +kernel
    exact fun i hi s h => this i hi s (by rw [h]; simp [ItemValue.textOf])
  links := by
    have : ∀ i ∈ (rich .id3v2).items, ∀ s ∈ i.value.textOf.toList, i.key ∈ urlKeys → ∀ c ∈ s, c.toNat ≤ 255 := by decide +kernel
    exact fun i hi s h => this i hi s (by rw [h]; simp [ItemValue.textOf])
  dates := by
    have : ∀ i ∈ (rich .id3v2).items, ∀ s ∈ i.value.textOf.toList, i.key ∈ dateKeys → s = str "2001-02-03" := by decide +kernel
    intro i hi s h hk
    rw [this i hi s (by rw [h]; simp [ItemValue.textOf]) hk]
    exact ⟨⟨2001, some 2, some 3, none, none, none⟩, (Timestamp.verify_iff _).mp (by decide), by decide +kernel⟩
  known := by decide +kernel
  langs := by decide +kernel
  raters := by
    have : ∀ i ∈ (rich .id3v2).items, i.key ≠ .Popularimeter := by decide +kernel
    exact fun i hi _ _ _ h => absurd h (this i hi)
  pictures := by
    intro p hp
    obtain rfl := List.mem_singleton.mp hp
    refine ⟨by decide, by decide, fun b h => (by cases h), ?_⟩
    intro m h
    cases h
    decide +kernel
  distinct := by decide +kernel

theorem rich_ape : ApeReady (rich .ape) where
  names := by decide +kernel
  texts := by
    have : ∀ i ∈ (rich .ape).items, ∀ s ∈ i.value.textOf.toList, s.getLast? ≠ some '\x00' := by decide +kernel
    have h2 : ∀ i ∈ (rich .ape).items, i.value.locatorOf = none := by decide +kernel
    intro i hi s h
    rcases h with h | h
    · exact this i hi s (by rw [h]; simp [ItemValue.textOf])
    · have := h2 i hi
      rw [h] at this
      cases this

example : (∀ f ∈ frames exWrite (rich .id3v2), FrameOk exWrite.frames exRead.files.id3 f) ∧ TagList exWrite.frames (frames exWrite (rich .id3v2)) ∧
    6 = (frames exWrite (rich .id3v2)).length ∧ Ape.Good ⟨false, apeRef (rich .ape)⟩ ∧ 4 = (apeRef (rich .ape)).length :=
  have h := ready_frames (w := exWrite.frames) (po := exRead.files.id3) (o := exWrite) rfl rich_id3 (fun l => .refl l) rfl
  ⟨h.1, h.2, by decide +kernel, ready_items rich_ape (by decide +kernel), by decide +kernel⟩

/-! ## What is lost -/

/-- Disagreement: a tag with the name of a work or the flag of a podcast, keys that ID3v2 is said to support, cannot be saved as ID3v2 at
all, whatever else it has; and a date of release that is no date is lost. -/
theorem unsavable :
    let t (k : ItemKey) (s : Str) : Tag := ⟨.id3v2, [], [TagItem.new k (.text s), TagItem.new .TrackTitle (.text (str "x"))], false⟩
    (∀ k ∈ [ItemKey.Work, .FlagPodcast, .ReleaseDate], supports .id3v2 k = true) ∧
    saveTo exWrite (t .Work (str "Work")) mp3 = .error .encode ∧ saveTo exWrite (t .FlagPodcast (str "1")) mp3 = .error .encode ∧
    shown exWrite (t .ReleaseDate (str "May")) mp3 .ReleaseDate = .ok [[]] ∧
    shown exWrite (t .ReleaseDate (str "2001-05")) mp3 .ReleaseDate = .ok [[str "2001-05"]] := by decide +kernel

end Lofty.Opened
