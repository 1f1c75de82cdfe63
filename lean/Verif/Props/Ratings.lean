import Verif.Model.Ratings
import Verif.Props.EndToEnd
/-!
# C98: the ratings of a tag
-/
namespace Lofty.Opened
open Item Lofty.Save Lofty.Convert FileType FileType.Spec

theorem fromStr_nil (custom : Rating.Provider) : Rating.fromStr custom [] = none := rfl

theorem fromStr_number (custom : Rating.Provider) (n : Nat) : Rating.fromStr custom (toDec n) = none := by
  unfold Rating.fromStr
  rw [split2_noSep _ _ (not_mem_toDec n '|' (by decide))]

/-- Empty texts are no ratings. -/
theorem texts_ratings {custom : Rating.Provider} {t x : Tag} (hloc : ∀ i ∈ t.getItems .Popularimeter, ∀ s, i.value ≠ .locator s)
    (h : x.getStrings .Popularimeter = texts t .Popularimeter) : x.ratings custom = t.ratings custom := by
  have : strings t .Popularimeter = t.getStrings .Popularimeter := by
    unfold strings Tag.getStrings
    unfold Tag.getItems at hloc ⊢
    rw [List.filterMap_filter]
    refine List.filterMap_congr fun i hm => ?_
    by_cases hi : i.key = .Popularimeter
    · have h1 := hloc i (List.mem_filter.mpr ⟨hm, by simpa using hi⟩)
      simp only [hi, decide_true, if_true]
      cases hv : i.value with
      | locator s => exact absurd hv (h1 s)
      | _ => rfl
    · simp only [hi, decide_false, Bool.false_eq_true, if_false]
  unfold Tag.ratings
  rw [h, ← this]
  unfold texts
  rw [List.filterMap_filter]
  refine List.filterMap_congr fun s _ => ?_
  cases s <;> rfl

/-! ## The claims -/

/-- C98: a rating that is inserted as its text is the only rating; one that is pushed comes behind the others. -/
theorem rating_inserted {custom : Rating.Provider} {t : Tag} {p : Rating.Pop} (hs : supports t.type .Popularimeter = true)
    (h : Rating.Proper custom p) (hb : '|' ∉ p.email.getD []) (hc : p.counter < 2 ^ 64) :
    (t.insertText .Popularimeter p.fmt).1 = true ∧ (t.insertText .Popularimeter p.fmt).2.ratings custom = [p] ∧
    (t.push (TagItem.new .Popularimeter (.text p.fmt))).2.ratings custom = t.ratings custom ++ [p] := by
  have hp := Rating.fromStr_fmt_partial h hb hc
  have h1 : ([TagItem.new .Popularimeter (.text p.fmt)].filterMap fun i : TagItem => if i.key = .Popularimeter then i.value.textOf else none) = [p.fmt] := rfl
  have h2 : (t.items.filter fun j => decide (j.key ≠ .Popularimeter)).filterMap
      (fun i : TagItem => if i.key = .Popularimeter then i.value.textOf else none) = [] := by
    rw [List.filterMap_eq_nil_iff]
    intro i hi
    rw [if_neg (by simpa using (List.mem_filter.mp hi).2)]
  refine ⟨?_, ?_, ?_⟩
  · unfold Tag.insertText Tag.insert
    rw [if_pos (by exact hs)]
  · unfold Tag.insertText Tag.insert
    rw [if_pos (by exact hs)]
    unfold Tag.ratings Tag.getStrings Tag.insertUnchecked
    show List.filterMap _ (List.filterMap _ (t.items.filter (fun j => decide (j.key ≠ .Popularimeter)) ++ _)) = _
    rw [List.filterMap_append, h1, h2, List.nil_append, List.filterMap_cons_some hp]
    rfl
  · unfold Tag.push
    rw [if_pos (by exact hs)]
    unfold Tag.ratings Tag.getStrings Tag.pushUnchecked
    show List.filterMap _ (List.filterMap _ (t.items ++ _)) = _
    rw [List.filterMap_append, h1, List.filterMap_append, List.filterMap_cons_some hp]
    rfl

/-- C98, **OGG files**: the ratings of a tag that was saved are read when the file is opened, all of them, in order. -/
theorem ogg_ratings {fmt : OggWrite.Format} {o : Options} {r : ReadOptions} {t : Tag} {f g ident comment c rest : Bytes}
    {others : List Bytes} {vendor : Str}
    (ht : t.type = .vorbisComments) (hf : verified f = .ok (oggType fmt)) (hs : saveTo o t f = .ok g)
    (hh : OggWrite.Headed fmt f (ident :: comment :: others) rest) (hhead : ∃ x, ident = fmt.head ++ x) (h8 : 8 ≤ ident.length)
    (h255 : ident.length < 255) (ho : ∀ p ∈ others, p ≠ []) (hc : comment = fmt.sig ++ c) (hv : OggWrite.VendorIs c vendor)
    (hvendor : vendor.getLast? ≠ some '\x00')
    (hnul : ∀ k, ∀ s ∈ texts t k, s.getLast? ≠ some '\x00')
    (hnum : r.implicit = true → NumberOk t .TrackNumber ∧ NumberOk t .DiscNumber)
    (hcover : t.pictures ≠ [] → r.cover = true) (hpics : ∀ p ∈ t.pictures, Picture.Stable p)
    (hlen : ∀ pics new, refPictures t.pictures = .ok pics →
      Vorbis.createPacket ⟨vendor, (vorbisRef t).2, pics⟩ fmt.sig fmt.framing = .ok new → new.length < 2 ^ 32)
    (hloc : ∀ i ∈ t.getItems .Popularimeter, ∀ s, i.value ≠ .locator s) :
    ∃ x, openFile r g = .ok [x] ∧ ∀ custom, x.ratings custom = t.ratings custom := by
  obtain ⟨x, h1, -, -, h2⟩ := ogg_end_to_end ht hf hs hh hhead h8 h255 ho hc hv hvendor hnul hnum hcover hpics hlen
  exact ⟨x, h1, fun custom => texts_ratings hloc (h2 _ (by decide +kernel) (.inl (by decide)))⟩

/-- C98, **FLAC files**: the same. -/
theorem flac_ratings {o : Options} {r : ReadOptions} {t : Tag} {si audio : Bytes} {bs : List Flac.Spec.MBlock} {vendor : Str}
    {pics : List (Picture.Pic × Picture.Info)} {new : List Flac.Spec.MBlock}
    (ht : t.type = .vorbisComments) (hsi : si.length < 2 ^ 24) (hsi14 : 14 ≤ si.length) (hv : ∀ b ∈ bs, b.Valid)
    (hvendor : Flac.scanVendor ((t.getString .EncoderSoftware).getD []) bs = .ok vendor) (hvn : vendor.getLast? ≠ some '\x00')
    (hp : refPictures t.pictures = .ok pics) (hnew : Flac.tagBlocks vendor ⟨vendor, (vorbisRef t).2, pics⟩ = .ok new)
    (hnul : ∀ k, ∀ s ∈ texts t k, s.getLast? ≠ some '\x00')
    (hnum : r.implicit = true → NumberOk t .TrackNumber ∧ NumberOk t .DiscNumber)
    (hcover : t.pictures ≠ [] → r.cover = true) (hpics : ∀ p ∈ t.pictures, Picture.Stable p)
    (hne : t.pictures ≠ [] ∨ ∃ k, supports .vorbisComments k = true ∧ strings t k ≠ [])
    (hloc : ∀ i ∈ t.getItems .Popularimeter, ∀ s, i.value ≠ .locator s) :
    ∃ g x, saveTo o t (Flac.stream [] ((0, si) :: bs) audio) = .ok g ∧ openFile r g = .ok [x] ∧ ∀ custom, x.ratings custom = t.ratings custom := by
  obtain ⟨g, x, h0, h1, -, -, h2⟩ := flac_end_to_end (o := o) ht hsi hsi14 hv hvendor hvn hp hnew hnul hnum hcover hpics hne
  exact ⟨g, x, h0, h1, fun custom => texts_ratings hloc (h2 _ (by decide +kernel) (.inl (by decide)))⟩

theorem firsts_nodup {α κ : Type} [DecidableEq κ] (key : α → κ) (l : List α) (h : (l.map key).Nodup) : Convert.Spec.firsts key l = l := by
  induction l with
  | nil => rfl
  | cons a l ih =>
    rw [List.map_cons, List.nodup_cons] at h
    unfold Convert.Spec.firsts
    rw [ih h.2, List.filter_eq_self.mpr]
    intro b hb
    have : key b ≠ key a := fun e => h.1 (e ▸ List.mem_map_of_mem hb)
    simpa using this

/-- C98, **ID3v2**: of a tag that was saved the first rating of each email address is read, in some order; all of them if the addresses differ. -/
theorem id3v2_ratings_read {custom : Rating.Provider} (hc : Rating.Lawful custom) {t u : Tag} (h : Through custom false t u) :
    (u.ratings custom).Perm (Convert.Spec.firsts (fun p => p.email.getD []) (t.ratings custom)) ∧
    (((t.ratings custom).map fun p => p.email.getD []).Nodup → (u.ratings custom).Perm (t.ratings custom)) := by
  have hg : Convert.Spec.given false t .Popularimeter = t.getStrings .Popularimeter := by
    unfold Convert.Spec.given Tag.getStrings Tag.getItems
    rw [List.filterMap_filter]
    refine List.filterMap_congr fun i _ => ?_
    by_cases hi : i.key = .Popularimeter
    · simp only [hi, decide_true, if_true]
      cases i.value <;> rfl
    · simp only [hi, decide_false, Bool.false_eq_true, if_false]
  have hperm := Convert.id3v2_ratings hc h
  rw [hg] at hperm
  have h1 : (u.ratings custom).Perm (Convert.Spec.firsts (fun p => p.email.getD []) (t.ratings custom)) := by
    have hu : u.ratings custom = (u.getItems .Popularimeter).filterMap fun i => i.value.textOf.bind (Rating.fromStr custom) := by
      unfold Tag.ratings Tag.getStrings Tag.getItems
      rw [List.filterMap_filterMap, List.filterMap_filter]
      refine List.filterMap_congr fun i _ => ?_
      by_cases hi : i.key = .Popularimeter
      · simp [hi]
      · simp [hi]
    rw [hu]
    refine (hperm.filterMap _).trans (List.Perm.of_eq ?_)
    have hok : ∀ p ∈ Convert.Spec.firsts (fun p : Rating.Pop => p.email.getD []) (t.ratings custom), Rating.fromStr custom p.fmt = some p := by
      intro p hp
      rw [firsts_eq] at hp
      obtain ⟨s, _, hs⟩ := List.mem_filterMap.mp (firstBy_sub _ _ p hp)
      obtain ⟨a, b, c, -⟩ := Rating.fromStr_ok hs
      exact Rating.fromStr_fmt_partial a c b
    unfold Tag.ratings at hok ⊢
    generalize Convert.Spec.firsts (fun p : Rating.Pop => p.email.getD []) ((t.getStrings .Popularimeter).filterMap (Rating.fromStr custom)) = l at hok ⊢
    unfold Convert.Spec.items
    rw [List.filterMap_map, List.filterMap_map]
    induction l with
    | nil => rfl
    | cons p l ih =>
      rw [List.filterMap_cons_some (b := p) (by exact hok p (by simp)), ih fun q hq => hok q (by simp [hq])]
  exact ⟨h1, fun hn => by rw [firsts_nodup _ _ hn] at h1; exact h1⟩

/-- C98, **MPEG, AAC, Monkey's Audio and Musepack files**: the ratings of the last ID3v2 tag that was saved are read, if no two have the same address. -/
theorem around_ratings {o : Options} {r : ReadOptions} {ft : FileType} {audio g : Bytes} {ts : List Tag} (hft : ft ∈ around)
    (ha : FileTags.Audio r.files audio) (hv : verified audio = .ok ft) (hpl : Playable ft audio)
    (hd : ∀ t ∈ ts, (t.type, false) ∈ documented ft) (hok : ∀ t ∈ ts, (toSave o t).Ok r.files audio) (hj : r.junk = o.junk)
    (hc : r.cover = true) (hcu : r.custom = o.custom) (hord : ∀ l, (o.order l).Perm l) (hg : saveAll o ft ts audio = .ok g)
    (hlaw : Rating.Lawful o.custom) {t : Tag} (ht : lastOf .id3v2 ts = some t) (hn : ((t.ratings o.custom).map fun p => p.email.getD []).Nodup) :
    ∃ d0, ∀ d, d0 ≤ d → ∃ xs, openFile { r with depth := d } g = .ok xs ∧ ((seen .id3v2 xs).ratings o.custom).Perm (t.ratings o.custom) := by
  obtain ⟨d0, h0⟩ := around_end_to_end_partial hft ha hv hpl hd hok hj hc hcu hord hg
  refine ⟨d0, fun d hd0 => ?_⟩
  obtain ⟨xs, hx, -, h2, -⟩ := h0 d hd0
  exact ⟨xs, hx, (id3v2_ratings_read hlaw (h2 t ht)).2 hn⟩

/-- Only ratings are read as ratings. -/
theorem mp4_rating_key : ∀ k, readAs .mp4Ilst k = .Popularimeter → k = .Popularimeter := by
  have : ∀ k ∈ ItemKey.all, readAs .mp4Ilst k = .Popularimeter → k = .Popularimeter := by decide +kernel
  exact fun k => this k (ItemKey.mem_all k)

theorem number_strings (k : ItemKey) (hk : k ≠ .Popularimeter) (n : Option Nat) : (numberItem k n).filterMap
    (fun i : TagItem => if i.key = .Popularimeter then i.value.textOf else none) = [] := by
  cases n with
  | none => rfl
  | some n =>
    cases n with
    | zero => rfl
    | succ n =>
      unfold numberItem
      rw [List.filterMap_cons_none (by exact if_neg hk)]
      rfl

/-- The texts that an MP4 tag shows as ratings. -/
theorem mp4_strings {t y : Tag} (h : y.items = t.items.filterMap ilstKept ++ numberItem .TrackNumber (lastNumber t.items .TrackNumber) ++
        numberItem .TrackTotal (lastNumber t.items .TrackTotal) ++ numberItem .DiscNumber (lastNumber t.items .DiscNumber) ++
        numberItem .DiscTotal (lastNumber t.items .DiscTotal) ++ optItem .ParentalAdvisory ((Convert.ratings t.items).head?.map toDec)) :
    y.getStrings .Popularimeter = t.getStrings .Popularimeter := by
  have h0 : ∀ s : Option Str, (optItem .ParentalAdvisory s).filterMap (fun i : TagItem => if i.key = .Popularimeter then i.value.textOf else none) = [] := by
    intro s; cases s <;> rfl
  unfold Tag.getStrings
  rw [h]
  simp only [List.filterMap_append]
  rw [h0, number_strings _ (by decide), number_strings _ (by decide), number_strings _ (by decide), number_strings _ (by decide)]
  simp only [List.append_nil]
  rw [List.filterMap_filterMap]
  refine List.filterMap_congr fun i _ => ?_
  unfold ilstKept
  by_cases hi : i.key = .Popularimeter
  · rw [if_pos ⟨by rw [hi]; decide +kernel, by rw [hi]; decide, by rw [hi]; decide⟩, if_pos hi]
    cases hv : i.value.textOf with
    | none => rfl
    | some s =>
      simp only [Option.bind_some]
      rw [if_neg (by rw [hi]; decide)]
      simp only [Option.bind_some]
      rw [if_pos (by rw [hi]; show readAs .mp4Ilst .Popularimeter = _; decide +kernel)]
      rfl
  · rw [if_neg hi]
    split
    · cases hv : i.value.textOf with
      | none => rfl
      | some s =>
        simp only [Option.bind_some]
        split
        · cases flagItem s with
          | none => rfl
          | some b => exact if_neg hi
        · exact if_neg fun e => hi (mp4_rating_key _ e)
    · rfl

/-- C98, **MP4 files**: the ratings of a tag that was saved to a file with a tag are read, all of them, in order. -/
theorem mp4_ratings {o : Options} {r : ReadOptions} (x : Mp4Write.File) (hx : x.Ok) (hc : Mp4Read.Clear x) {t : Tag} (hty : t.type = .mp4Ilst)
    (hbrand : ∀ c rest, x.before = .leaf (ascii "ftyp") c rest → c.length + 8 < 2 ^ 24)
    (hne : mergeIlst [] t ≠ []) (ht : Mp4Ready t) (hcov : r.cover = true) (hlim : ((mergeIlst [] t).flatMap Ilst.atomBox).length ≤ r.limit)
    (hpad : ∀ k, o.padding = some k → 8 ≤ k)
    (hsz : 3 * x.bytes.length + 2 * ((mergeIlst [] t).flatMap Ilst.atomBox).length + o.padding.getD 0 < 2 ^ 30) :
    ∃ g y, saveTo o t x.bytes = .ok g ∧ openFile r g = .ok [y] ∧ ∀ custom, y.ratings custom = t.ratings custom := by
  obtain ⟨g, y, h1, h2, h3, -⟩ := mp4_end_to_end_partial (o := o) (r := r) x hx hc hty hbrand hne ht hcov hlim hpad hsz
  exact ⟨g, y, h1, h2, fun custom => by unfold Tag.ratings; rw [mp4_strings h3]⟩

/-- C98, **disagreement in general**: a tag saved as a RIFF INFO list has no rating when it is read, whatever ratings it had: the list has a number
in their place that is not read as a rating. -/
theorem riff_ratings_lost (custom : Rating.Provider) (t : Tag) :
    (ofRiff ((riffRef custom t).filter fun i => !i.2.isEmpty)).ratings custom = [] := by
  have hkey : ∀ k ∈ ItemKey.all, ∀ n ∈ (mapKey .riffInfo k).toList, fromKey .riffInfo n = some .Popularimeter → k = .Popularimeter := by decide +kernel
  unfold Tag.ratings Tag.getStrings
  rw [List.filterMap_filterMap, List.filterMap_eq_nil_iff]
  intro i hi
  obtain ⟨j, hj, hij⟩ := List.mem_filterMap.mp (show i ∈ ((riffRef custom t).filter _).filterMap ofRiffItem from hi)
  have hj := (List.mem_filter.mp hj).1
  unfold riffRef at hj
  obtain ⟨x, -, hx⟩ := List.mem_filterMap.mp hj
  obtain ⟨v, -, hx⟩ := Option.bind_eq_some_iff.mp hx
  obtain ⟨n, hn, hx⟩ := Option.bind_eq_some_iff.mp hx
  unfold ofRiffItem at hij
  obtain ⟨k, hk, rfl⟩ := Option.map_eq_some_iff.mp hij
  by_cases hp : k = .Popularimeter
  · subst hp
    have hx0 : x.key = .Popularimeter := by
      have hj1 : j.1 = n := by
        split at hx
        · obtain ⟨p, -, rfl⟩ := Option.map_eq_some_iff.mp hx; rfl
        · cases hx; rfl
      exact hkey _ (ItemKey.mem_all _) n (by rw [hn]; simp) (by rw [← hj1]; exact hk)
    rw [if_pos hx0] at hx
    obtain ⟨p, -, rfl⟩ := Option.map_eq_some_iff.mp hx
    show Rating.fromStr custom (trimNul (toDec _)) = none
    have : ∀ s : Str, '|' ∉ s → Rating.fromStr custom (trimNul s) = none := by
      intro s hs
      have hs' : '|' ∉ trimNul s := by
        intro h
        unfold trimNul Text.trimEndNulls at h
        rw [List.mem_reverse] at h
        have := List.mem_reverse.mp ((List.dropWhile_sublist _).subset h)
        exact hs ((List.dropWhile_sublist _).subset this)
      unfold Rating.fromStr
      rw [split2_noSep _ _ hs']
    exact this _ (not_mem_toDec _ '|' (by decide))
  · show (if k = .Popularimeter then _ else none).bind _ = none
    rw [if_neg hp]
    rfl

/-- C98, **WAV files**: of the last ID3v2 tag that was saved the ratings are read; of the last INFO list none. -/
theorem wav_ratings {o : Options} {r : ReadOptions} {cs : List Iff.Chunk} {wt : IffFiles.WavTags}
    {g : Bytes} {ts : List Tag} (h : IffFiles.WavHas r.files cs wt) (hsz : (Iff.wav cs).length < 2 ^ 32)
    (hd : ∀ t ∈ ts, (t.type, false) ∈ documented .wav) (hok : IffFiles.WavOk r.files (ts.map (toWav o)) (Iff.wav cs))
    (hcu : r.custom = o.custom) (hord : ∀ l, (o.order l).Perm l) (hg : saveAll o .wav ts (Iff.wav cs) = .ok g) (hlaw : Rating.Lawful o.custom) :
    ∃ d0 xs, (∀ d, d0 ≤ d → openFile { r with depth := d } g = .ok xs) ∧
      (∀ t, lastOf .id3v2 ts = some t → ((t.ratings o.custom).map fun p => p.email.getD []).Nodup →
        ((seen .id3v2 xs).ratings o.custom).Perm (t.ratings o.custom)) ∧
      (∀ t, lastOf .riffInfo ts = some t → (seen .riffInfo xs).ratings o.custom = []) := by
  have hty : ∀ t ∈ ts, t.type ∈ [TagType.riffInfo, .id3v2] := by
    intro t ht
    have := hd t ht
    revert this
    cases t.type <;> simp [documented]
  obtain ⟨m0, hm⟩ : ∃ m0, ∃ n, ∀ k, n ≤ k → IffFiles.readWav { r.files with depth := k } (Iff.wav cs) = .ok m0 := by
    obtain ⟨n, hn⟩ := IffFiles.readWav_has (o := r.files) rfl h hsz
    rw [foldlM_pure (f := IffFiles.wavAudio r.files.readProps) fun _ _ => rfl] at hn
    exact ⟨_, n, hn⟩
  rw [saveAll_wav (r := r.files) ts cs wt h hsz hd hok] at hg
  obtain ⟨cs', rfl, -, m, n, hread, hi, hid, -⟩ := IffFiles.wav_saves_partial (o := r.files) rfl h hsz hm hok hg
  obtain ⟨e1, e2⟩ := fold_wav_last o wt ts hty
  rw [← hi] at e1
  rw [← hid] at e2
  obtain ⟨s1, s2⟩ := seen_wav r.custom m
  refine ⟨n, wavTagsOf r.custom m, fun d hd' => ?_, fun t ht hn => (id3v2_ratings_read hlaw (seen_id3v2 hord ?_)).2 hn, fun t ht => ?_⟩
  · unfold openFile
    rw [wav_verified]
    show (IffFiles.readWav { r.files with depth := d } _).map (wavTagsOf r.custom) = _
    rw [hread d hd']
    rfl
  · rw [s2, e2, ht, hcu]
  · rw [s1, e1, ht]
    exact riff_ratings_lost o.custom t

/-- C98, **AIFF files**: of the last ID3v2 tag that was saved the ratings are read. -/
theorem aiff_ratings {o : Options} {r : ReadOptions} {form : Bytes} (hform : form = ascii "AIFF" ∨ form = ascii "AIFC")
    {cs : List Iff.Chunk} {wt : IffFiles.AiffTags} {g : Bytes} {ts : List Tag} (h : IffFiles.AiffHas r.files cs wt)
    (hd : ∀ t ∈ ts, (t.type, false) ∈ documented .aiff) (hok : IffFiles.AiffOk r.files (ts.map (toAiffSave o)) (Iff.aiff form cs))
    (hcu : r.custom = o.custom) (hord : ∀ l, (o.order l).Perm l) (hg : saveAll o .aiff ts (Iff.aiff form cs) = .ok g) (hlaw : Rating.Lawful o.custom) :
    ∃ d0 xs, (∀ d, d0 ≤ d → openFile { r with depth := d } g = .ok xs) ∧
      ∀ t, lastOf .id3v2 ts = some t → ((t.ratings o.custom).map fun p => p.email.getD []).Nodup →
        ((seen .id3v2 xs).ratings o.custom).Perm (t.ratings o.custom) := by
  obtain ⟨d0, xs, h1, -, -, h2, -⟩ := aiff_end_to_end_partial hform h hd hok hcu hord hg
  exact ⟨d0, xs, h1, fun t ht hn => (id3v2_ratings_read hlaw (h2 t ht)).2 hn⟩

/-- C98, **MP4 files without a tag**: the same as for those with one. -/
theorem mp4_create_ratings {o : Options} {r : ReadOptions} {before kids after : Mp4Write.Forest}
    (h : Mp4Write.Plain before kids after) (hsil : Mp4Read.Silent kids) (hu : ascii "udta" ∉ kids.top) {t : Tag} (hty : t.type = .mp4Ilst)
    (hbrand : ∀ c rest, before = .leaf (ascii "ftyp") c rest → c.length + 8 < 2 ^ 24)
    (hne : mergeIlst [] t ≠ []) (ht : Mp4Ready t) (hcov : r.cover = true) (hlim : ((mergeIlst [] t).flatMap Ilst.atomBox).length ≤ r.limit)
    (hsz : (Mp4Read.whole before kids after).bytes.length + ((mergeIlst [] t).flatMap Ilst.atomBox).length + 72 < 2 ^ 32) :
    ∃ g y, saveTo o t (Mp4Read.whole before kids after).bytes = .ok g ∧ openFile r g = .ok [y] ∧ ∀ custom, y.ratings custom = t.ratings custom := by
  obtain ⟨g, y, h1, h2, h3, -⟩ := mp4_create_end_to_end_partial (o := o) (r := r) h hsil hu hty hbrand hne ht hcov hlim hsz
  exact ⟨g, y, h1, h2, fun custom => by unfold Tag.ratings; rw [mp4_strings h3]⟩

/-- What is left of a rating in a comment: the address and the stars, if there is an address that a comment can have. -/
def commentRating (p : Rating.Pop) : Option Rating.Pop :=
  match p.email with
  | some e => if Vorbis.validKey (utf8 e) then some { p with counter := 0 } else none
  | none => none

/-- C98, **converted to Vorbis comments** (instead of saved directly): of each rating with an address that can be written the stars are kept, the number of
plays becomes 0; the other ratings are lost. -/
theorem comments_ratings {custom : Rating.Provider} (hc : Rating.Lawful custom) {t : Tag} {v : Vorbis.Tag} (h : toVorbis custom t = .ok v)
    (hloc : ∀ i ∈ t.getItems .Popularimeter, ∀ s, i.value ≠ .locator s) :
    ((ofVorbis custom v).ratings custom).Perm ((t.ratings custom).filterMap commentRating) := by
  obtain ⟨⟨l, hl, hp, -⟩, -⟩ := vorbis_rt_partial hc h
  have hk : ∀ i ∈ t.items, i.key ≠ .EncoderSoftware → (vorbisKept custom i).bind (fun j => (if j.key = .Popularimeter then j.value.textOf else none).bind (Rating.fromStr custom)) =
      ((if i.key = .Popularimeter then i.value.textOf else none).bind (Rating.fromStr custom)).bind commentRating := by
    intro i hm _
    by_cases hi : i.key = .Popularimeter
    · rw [if_pos hi]
      have h1 := hloc i (List.mem_filter.mpr ⟨hm, by simpa using hi⟩)
      unfold vorbisKept
      rcases hv : i.value with s | s | d
      · simp only [hi, show ItemKey.Popularimeter ≠ .FlagCompilation by decide, if_false, if_true, ItemValue.textOf, Option.bind_some]
        cases hs : Rating.fromStr custom s with
        | none => rfl
        | some p =>
          obtain ⟨a, b, c, -⟩ := Rating.fromStr_ok hs
          simp only [Option.bind_some]
          unfold commentRating
          cases he : p.email with
          | none =>
            simp only [Option.bind_some]
            exact fromStr_number custom _
          | some e =>
            simp only
            split
            · have hf := Rating.fromStr_fmt_partial (custom := custom) (p := { p with counter := 0 }) a c (by show 0 < 2 ^ 64; decide)
              rw [he] at hf
              exact hf
            · rfl
      · exact absurd hv (h1 s)
      · rfl
    · rw [if_neg hi]
      cases hj : vorbisKept custom i with
      | none => rfl
      | some j => rw [Option.bind_some, if_neg (by rw [vorbisKept_key hj]; exact hi)]; rfl
  have hg : (ofVorbis custom v).ratings custom = l.filterMap (fun j => (if j.key = .Popularimeter then j.value.textOf else none).bind (Rating.fromStr custom)) := by
    unfold Tag.ratings Tag.getStrings
    rw [List.filterMap_filterMap, hl, List.filterMap_append]
    exact List.append_nil _
  rw [hg]
  refine (hp.filterMap _).trans (List.Perm.of_eq ?_)
  unfold Tag.ratings Tag.getStrings
  rw [List.filterMap_filterMap, List.filterMap_filterMap, List.filterMap_filterMap, List.filterMap_filter]
  refine List.filterMap_congr fun i hm => ?_
  by_cases hE : i.key = .EncoderSoftware
  · simp [hE]
  · simp only [hE, ne_eq, not_false_eq_true, decide_true, if_true]
    rw [hk i hm hE, Option.bind_assoc]

/-- C98: of APE, ID3v1 and AIFF text tags the rating is refused when it is inserted. -/
theorem rating_refused {t : Tag} (ht : t.type ∈ [TagType.ape, .id3v1, .aiffText]) (s : Str) : t.insertText .Popularimeter s = (false, t) := by
  unfold Tag.insertText Tag.insert
  have : supports t.type .Popularimeter = false := by
    simp only [List.mem_cons, List.not_mem_nil, or_false] at ht
    rcases ht with h | h | h <;> rw [h] <;> decide +kernel
  rw [if_neg (by show ¬ supports t.type .Popularimeter = true; rw [this]; decide)]

/-- C98, **disagreement**: the rating of a tag saved to a WAV file as a list is shown as the text `80` that is not a rating. -/
theorem wav_rating_shown :
    let t : Tag := ⟨.riffInfo, [], [TagItem.new .Popularimeter (.text (str "x@y|4|77"))], false⟩
    t.ratings Rating.default = [⟨some (str "x@y"), .custom, .four, 77⟩] ∧
    shown exWrite t (Iff.wav IffFiles.exWav) .Popularimeter = .ok [[str "80"]] ∧ Rating.fromStr Rating.default (str "80") = none := by decide +kernel

/-! ## Cases that meet the hypotheses -/

/-- Ratings of two players and a text that is none. -/
def rated (ty : TagType) : Tag :=
  ⟨ty, [], [TagItem.new .Popularimeter (.text (str "x@y|4|77")), TagItem.new .Popularimeter (.text (str "?")),
    TagItem.new .Popularimeter (.text (str "MusicBee|2|3"))], false⟩

theorem rated_ratings (ty : TagType) : (rated ty).ratings Rating.default = [⟨some (str "x@y"), .custom, .four, 77⟩, .musicbee .two 3] := by
  cases ty <;> decide +kernel

theorem rated_texts : ∀ k, ∀ s ∈ texts (rated .vorbisComments) k, s.getLast? ≠ some '\x00' := by
  have : ∀ k ∈ ItemKey.all, ∀ s ∈ texts (rated .vorbisComments) k, s.getLast? ≠ some '\x00' := by decide +kernel
  exact fun k => this k (ItemKey.mem_all k)

theorem rated_loc (ty : TagType) : ∀ i ∈ (rated ty).getItems .Popularimeter, ∀ s, i.value ≠ .locator s := by
  intro i hi s
  have hi := (List.mem_filter.mp hi).1
  simp only [rated, List.mem_cons, List.not_mem_nil, or_false] at hi
  rcases hi with rfl | rfl | rfl <;> exact nofun

example : ∃ g x, saveTo exOptions (rated .vorbisComments) OggWrite.opus = .ok g ∧ openFile exRead g = .ok [x] ∧
    x.ratings Rating.default = [⟨some (str "x@y"), .custom, .four, 77⟩, .musicbee .two 3] := by
  have hs : (saveTo exOptions (rated .vorbisComments) OggWrite.opus).toOption.isSome = true := by decide +kernel
  rcases hg : saveTo exOptions (rated .vorbisComments) OggWrite.opus with e | g
  · rw [hg] at hs; cases hs
  · obtain ⟨x, h1, h2⟩ := ogg_ratings (fmt := .opus) (r := exRead) (vendor := str "libopus") rfl opus_verified hg
      OggWrite.opus_headed ⟨OggWrite.ident.drop 8, by decide⟩ (by decide) (by decide) (by simp) rfl
      ⟨ascii "libopus", _, by decide, rfl, .inl (by decide +kernel)⟩ (by decide) rated_texts
      (fun _ => ⟨.inl (by decide +kernel), .inl (by decide +kernel)⟩) nofun nofun (fun pics new hp hn => by
        have hp : Except.ok [] = Except.ok pics := hp
        cases hp
        have : ((Vorbis.createPacket ⟨str "libopus", (vorbisRef (rated .vorbisComments)).2, []⟩ OggWrite.Format.opus.sig OggWrite.Format.opus.framing).toOption.map List.length).getD 0 < 1000 := by decide +kernel
        rw [hn] at this
        have : new.length < 1000 := this
        omega) (rated_loc _)
    exact ⟨g, x, rfl, h1, by rw [h2, rated_ratings]⟩

example : ∃ g x, saveTo exOptions (rated .vorbisComments) flacFile = .ok g ∧ openFile exRead g = .ok [x] ∧
    x.ratings Rating.default = [⟨some (str "x@y"), .custom, .four, 77⟩, .musicbee .two 3] := by
  have hb : (Flac.tagBlocks (str "v") ⟨str "v", (vorbisRef (rated .vorbisComments)).2, []⟩).toOption.isSome = true := by decide +kernel
  rcases hn : Flac.tagBlocks (str "v") ⟨str "v", (vorbisRef (rated .vorbisComments)).2, []⟩ with e | new
  · rw [hn] at hb; cases hb
  · obtain ⟨g, x, h0, h1, h2⟩ := flac_ratings (o := exOptions) (r := exRead) (t := rated .vorbisComments) (si := List.replicate 34 7)
      (audio := [0xFF, 0xF8]) (bs := [(4, [1, 0, 0, 0, 0x76, 1, 0, 0, 0, 3, 0, 0, 0, 65, 61, 98])]) (vendor := str "v") rfl (by decide) (by decide)
      (by intro b hb; simp only [List.mem_cons, List.not_mem_nil, or_false] at hb; subst hb; exact ⟨by decide, by decide⟩) (by decide +kernel)
      (by decide) rfl hn rated_texts (fun _ => ⟨.inl (by decide +kernel), .inl (by decide +kernel)⟩) nofun nofun (.inr ⟨.Popularimeter, by decide +kernel⟩) (rated_loc _)
    exact ⟨g, x, h0, h1, by rw [h2, rated_ratings]⟩

theorem rated_ready : Mp4Ready (rated .mp4Ilst) := by
  constructor
  · intro i hi s hs _
    simp only [rated, List.mem_cons, List.not_mem_nil, or_false] at hi
    rcases hi with rfl | rfl | rfl <;> (cases hs; decide)
  · exact nofun

example : (∃ g y, saveTo exOptions (rated .mp4Ilst) (Mp4Write.file []).bytes = .ok g ∧ openFile exRead g = .ok [y] ∧
      y.ratings Rating.default = [⟨some (str "x@y"), .custom, .four, 77⟩, .musicbee .two 3]) ∧
    ∃ g y, saveTo exOptions (rated .mp4Ilst) Mp4Write.bare.bytes = .ok g ∧ openFile exRead g = .ok [y] ∧
      y.ratings Rating.default = [⟨some (str "x@y"), .custom, .four, 77⟩, .musicbee .two 3] := by
  constructor
  · obtain ⟨g, y, h1, h2, h3⟩ := mp4_ratings (o := exOptions) (r := exRead) (Mp4Write.file []) (Mp4Write.file_ok _ (.inl rfl)) (Mp4Read.file_clear _)
      (t := rated .mp4Ilst) rfl (fun c rest h => by cases h; decide) (by decide +kernel) rated_ready rfl (by decide +kernel) (fun k h => by cases h; decide)
      (by decide +kernel)
    exact ⟨g, y, h1, h2, by rw [h3, rated_ratings]⟩
  · obtain ⟨g, y, h1, h2, h3⟩ := mp4_create_ratings (o := exOptions) (r := exRead) Mp4Write.bare_plain (Mp4Read.stbl_silent _) (by decide)
      (t := rated .mp4Ilst) rfl (fun c rest h => by cases h; decide) (by decide +kernel) rated_ready rfl (by decide +kernel) (by decide +kernel)
    exact ⟨g, y, h1, h2, by rw [h3, rated_ratings]⟩

/-- The tag becomes frames and comes back. -/
example : Through Rating.default false (rated .id3v2) (splitId3v2 Rating.default (frames exWrite (rated .id3v2))).2 ∧
    ((splitId3v2 Rating.default (frames exWrite (rated .id3v2))).2.ratings Rating.default).Perm [⟨some (str "x@y"), .custom, .four, 77⟩, .musicbee .two 3] := by
  have h : Through Rating.default false (rated .id3v2) (splitId3v2 Rating.default (frames exWrite (rated .id3v2))).2 :=
    ⟨exWrite.order (fromTag Rating.default false (rated .id3v2).items), frames exWrite (rated .id3v2), List.Perm.refl _, rfl, rfl⟩
  refine ⟨h, ?_⟩
  rw [← rated_ratings .id3v2]
  exact (id3v2_ratings_read Rating.default_lawful h).2 (by rw [rated_ratings]; decide +kernel)

example : ∃ v, toVorbis Rating.default (rated .vorbisComments) = .ok v ∧
    ((ofVorbis Rating.default v).ratings Rating.default).Perm [⟨some (str "x@y"), .custom, .four, 0⟩, .musicbee .two 0] := by
  have hs : (toVorbis Rating.default (rated .vorbisComments)).toOption.isSome = true := by decide +kernel
  rcases hv : toVorbis Rating.default (rated .vorbisComments) with e | v
  · rw [hv] at hs; cases hs
  · refine ⟨v, rfl, (comments_ratings Rating.default_lawful hv (rated_loc _)).trans (List.Perm.of_eq ?_)⟩
    rw [rated_ratings]
    decide +kernel

example : ((Tag.new .id3v2).insertText .Popularimeter (Rating.Pop.musicbee .three 5).fmt).2.ratings Rating.default = [.musicbee .three 5] :=
  (rating_inserted (by decide +kernel) (Rating.constructors_proper _ _ _).2.1 (by decide +kernel) (by decide)).2.1

/-- The frames of the ratings. -/
def ratedFrames : List Id3v2.Frame := [.leaf {} (.pop ⟨str "x@y", 196, 77⟩), .leaf {} (.pop ⟨str "MusicBee", 64, 3⟩)]

theorem rated_frames : frames exWrite (rated .id3v2) = ratedFrames := by decide +kernel

theorem rated_saves : ∀ t ∈ [rated .id3v2], (toSave exWrite t).Ok exRead.files mp3 := by
  intro t ht
  rw [List.mem_singleton] at ht
  subst ht
  show FileTags.Save.Ok _ _ (.id3v2 noFlags exWrite.frames exWrite.padding (frames exWrite (rated .id3v2)))
  rw [rated_frames]
  refine .inr ⟨rfl, rfl, rfl, rfl, fun f hf => ?_, ⟨by decide, by decide, fun id hid => ?_⟩, fun b hb => ?_⟩
  · simp only [ratedFrames, List.mem_cons, List.not_mem_nil, or_false] at hf
    rcases hf with rfl | rfl <;>
      exact .leaf _ _ (str "POPM") (by decide) rfl (by decide) (by show _ → _ ∉ Id3v2.idsV23 true; decide) ⟨⟨by show ∀ c ∈ _, _; decide, by decide⟩, by decide⟩
  · rw [List.filter_eq_nil_iff.mpr]
    · simp
    · intro f hf h
      have hP : f.id = .valid (str "POPM") := by
        have : ∀ f ∈ ratedFrames.map (·.reencode exWrite.frames), f.id = .valid (str "POPM") := by decide
        exact this f hf
      rw [← of_decide_eq_true h, hP] at hid
      exact absurd hid (by decide)
  · have : ((Id3v2.createItems exWrite.frames ratedFrames).toOption.map List.length).getD 0 < 1000 := by decide +kernel
    rw [hb] at this
    have : b.length < 1000 := this
    show b.length + 8 < _
    omega

example : ∃ g, saveAll exWrite .mpeg [rated .id3v2] mp3 = .ok g ∧ ∃ d0, ∀ d, d0 ≤ d → ∃ xs, openFile { exRead with depth := d } g = .ok xs ∧
    ((seen .id3v2 xs).ratings Rating.default).Perm [⟨some (str "x@y"), .custom, .four, 77⟩, .musicbee .two 3] := by
  have hs : (saveAll exWrite .mpeg [rated .id3v2] mp3).toOption.isSome = true := by decide +kernel
  rcases hg : saveAll exWrite .mpeg [rated .id3v2] mp3 with e | g
  · rw [hg] at hs; cases hs
  · have := around_ratings (o := exWrite) (r := exRead) (ft := .mpeg) (by decide) (FileTags.threeFrames_audio true false) mp3_verified
      ⟨_, _, FileTags.threeFrames_first⟩ (by decide +kernel) rated_saves rfl rfl rfl (fun l => List.Perm.refl l) hg Rating.default_lawful
      (t := rated .id3v2) (by decide +kernel) (by show (List.map _ ((rated .id3v2).ratings Rating.default)).Nodup; rw [rated_ratings]; decide +kernel)
    rw [← rated_ratings .id3v2]
    exact ⟨g, rfl, this⟩

theorem rated_save (strict upper : Bool) :
    IffFiles.Id3Save.Ok exRead.files ⟨strict, upper, noFlags, exWrite.frames, exWrite.padding, frames exWrite (rated .id3v2)⟩ :=
  rated_saves _ (List.mem_singleton.mpr rfl)

theorem rated_encoded {b : Bytes} : ((toWav exWrite (rated .id3v2)).encoded = .ok b → b.length < 1000) ∧
    ((toAiffSave exWrite (rated .id3v2)).encoded = .ok b → b.length < 1000) := by
  constructor <;> intro h
  · have : ((toWav exWrite (rated .id3v2)).encoded.toOption.getD []).length < 1000 := by decide +kernel
    rw [h] at this; exact this
  · have : ((toAiffSave exWrite (rated .id3v2)).encoded.toOption.getD []).length < 1000 := by decide +kernel
    rw [h] at this; exact this

theorem rated_nodup : (((rated .id3v2).ratings exWrite.custom).map fun p => p.email.getD []).Nodup := by
  show (List.map _ ((rated .id3v2).ratings Rating.default)).Nodup
  rw [rated_ratings]
  decide +kernel

example : ∃ g, saveAll exWrite .wav [rated .id3v2] (Iff.wav IffFiles.exWav) = .ok g ∧ ∃ d0 xs,
    (∀ d, d0 ≤ d → openFile { exRead with depth := d } g = .ok xs) ∧
    ((seen .id3v2 xs).ratings Rating.default).Perm [⟨some (str "x@y"), .custom, .four, 77⟩, .musicbee .two 3] := by
  have o0 : ∀ d ∈ IffFiles.exWav, d.Ok := by
    intro d hd
    simp only [IffFiles.exWav, List.mem_cons, List.not_mem_nil, or_false] at hd
    rcases hd with rfl | rfl <;> exact IffFiles.ok_fourcc (by simp) (by decide)
  have h0 : IffFiles.WavHas exRead.files IffFiles.exWav ⟨[], none⟩ := by
    refine ⟨fun d hd => ⟨o0 d hd, ?_⟩, .inl ⟨by decide, rfl⟩, .inl ⟨by decide, rfl⟩⟩
    revert d; decide
  have hok : IffFiles.WavOk exRead.files ([rated .id3v2].map (toWav exWrite)) (Iff.wav IffFiles.exWav) := by
    have l0 : (Iff.wav IffFiles.exWav).length < 1000 := by decide +kernel
    refine ⟨fun cs h hc => ⟨fun b h' => ?_, rated_save _ _, ?_⟩, fun _ _ => trivial⟩
    · have := rated_encoded.1 h'; rw [← h]; omega
    · rw [← IffFiles.wav_inj o0 hc h]
      exact IffFiles.safe_none (by decide)
  have hs : (saveAll exWrite .wav [rated .id3v2] (Iff.wav IffFiles.exWav)).toOption.isSome = true := by decide +kernel
  rcases hg : saveAll exWrite .wav [rated .id3v2] (Iff.wav IffFiles.exWav) with e | g
  · rw [hg] at hs; cases hs
  · obtain ⟨d0, xs, h1, h2, -⟩ := wav_ratings (o := exWrite) (r := exRead) h0 (by decide) (by decide +kernel) hok rfl (fun l => List.Perm.refl l) hg
      Rating.default_lawful
    rw [← rated_ratings .id3v2]
    exact ⟨g, rfl, d0, xs, h1, h2 _ (by decide +kernel) rated_nodup⟩

example : ∃ g, saveAll exWrite .aiff [rated .id3v2] (Iff.aiff (ascii "AIFF") IffFiles.exAiff) = .ok g ∧ ∃ d0 xs,
    (∀ d, d0 ≤ d → openFile { exRead with depth := d } g = .ok xs) ∧
    ((seen .id3v2 xs).ratings Rating.default).Perm [⟨some (str "x@y"), .custom, .four, 77⟩, .musicbee .two 3] := by
  have o0 : ∀ d ∈ IffFiles.exAiff, d.Ok := by
    intro d hd
    simp only [IffFiles.exAiff, List.mem_cons, List.not_mem_nil, or_false] at hd
    rcases hd with rfl | rfl <;> exact IffFiles.ok_fourcc (by simp) (by decide)
  have h0 : IffFiles.AiffHas exRead.files IffFiles.exAiff ⟨⟨none, none, none, none, none⟩, none⟩ := by
    refine ⟨o0, ⟨IffFiles.exComm, by decide, rfl⟩, ⟨⟨none, none, none, none, none⟩, by decide, ?_, ?_, by decide⟩, .inl ⟨by decide, rfl⟩⟩
    · unfold Iff.Aiff.Fits; decide +kernel
    · unfold Iff.Aiff.Clean Iff.Comment.Ok Iff.EvenInit; decide +kernel
  have hok : IffFiles.AiffOk exRead.files ([rated .id3v2].map (toAiffSave exWrite)) (Iff.aiff (ascii "AIFF") IffFiles.exAiff) := by
    have l0 : (Iff.aiff (ascii "AIFF") IffFiles.exAiff).length < 1000 := by decide +kernel
    refine ⟨fun form cs h hf hc => ⟨fun b h' => ?_, rated_save _ _, ?_⟩, fun _ _ => trivial⟩
    · have := rated_encoded.2 h'; rw [← h]; omega
    · rw [← (IffFiles.aiff_inj rfl hf o0 hc h).2]
      exact IffFiles.safe_none (by decide)
  have hs : (saveAll exWrite .aiff [rated .id3v2] (Iff.aiff (ascii "AIFF") IffFiles.exAiff)).toOption.isSome = true := by decide +kernel
  rcases hg : saveAll exWrite .aiff [rated .id3v2] (Iff.aiff (ascii "AIFF") IffFiles.exAiff) with e | g
  · rw [hg] at hs; cases hs
  · obtain ⟨d0, xs, h1, h2⟩ := aiff_ratings (o := exWrite) (r := exRead) (.inl rfl) h0 (by decide +kernel) hok rfl (fun l => List.Perm.refl l) hg
      Rating.default_lawful
    rw [← rated_ratings .id3v2]
    exact ⟨g, rfl, d0, xs, h1, h2 _ (by decide +kernel) rated_nodup⟩

end Lofty.Opened
