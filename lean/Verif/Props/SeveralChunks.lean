import Verif.Spec.Chained
import Verif.Props.IffFiles
/-!
# C97: several tags of one kind in a WAV file
-/
namespace Lofty.IffFiles
open Lofty.Iff Lofty.FileTags

/-- The chunks of a WAV file with any number of tags: `its` are the items of its INFO lists (with less than eight bytes behind them), `tags` the
ID3v2 tags, made by saving them. -/
structure Several (o : Opts) (its : Chunk → List Item) (tags : Chunk → Id3Tag) (cs : List Chunk) : Prop where
  ok : ∀ d ∈ cs, d.Ok ∧ (d.1 = ascii "LIST" → 4 ≤ d.2.length)
  info : ∀ d ∈ cs, IsInfo d → ∃ junk, d = infoListWith (its d) junk ∧ junk.length < 8 ∧ ∀ i ∈ its d, ItemOk i
  id3v2 : ∀ d ∈ cs, d.IsId3 → ∃ s : Id3Save, s.Ok o ∧ s.encoded = .ok d.2 ∧ s.tag = some (tags d)

theorem several_tags {o : Opts} {tags : Chunk → Id3Tag} (cs : List Chunk)
    (h : ∀ d ∈ cs, d.IsId3 → ∃ s : Id3Save, s.Ok o ∧ s.encoded = .ok d.2 ∧ s.tag = some (tags d)) :
    ∃ n, ∀ k, n ≤ k → ∀ d ∈ cs, d.IsId3 → id3Chunk { o with depth := k } d.2 = .ok (some (tags d)) := by
  induction cs with
  | nil => exact ⟨0, fun k _ d hd => by cases hd⟩
  | cons d cs ih =>
    obtain ⟨n, ih⟩ := ih fun e he => h e (by simp [he])
    by_cases hd : d.IsId3
    · obtain ⟨s, hs, hb, ht⟩ := h d (by simp) hd
      have hl := encoded_lead hs hb
      rw [ht] at hl
      obtain ⟨n', h'⟩ := id3Chunk_lead hl
      refine ⟨max n n', fun k hk e he hI => ?_⟩
      rcases List.mem_cons.mp he with rfl | he
      · exact h' k (by omega)
      · exact ih k (by omega) e he hI
    · refine ⟨n, fun k hk e he hI => ?_⟩
      rcases List.mem_cons.mp he with rfl | he
      · exact absurd hI hd
      · exact ih k hk e he hI

theorem addTag_fold (tags : Chunk → Id3Tag) (cs : List Chunk) (old : Id3Tag) :
    cs.foldl (fun t d => addTag t (some (tags d))) (some old) =
      some { old with frames := (cs.map fun d => (tags d).frames).flatten.foldl (fun fs f => (Id3v2.insert fs f).2) old.frames } := by
  induction cs generalizing old with
  | nil => rfl
  | cons d cs ih =>
    rw [List.foldl_cons]
    show cs.foldl _ (some (addFrames old (tags d).frames)) = _
    rw [ih]
    simp only [addFrames, List.map_cons, List.flatten_cons, List.foldl_append]

theorem addTag_merged (tags : Chunk → Id3Tag) (cs : List Chunk) :
    cs.foldl (fun t d => addTag t (some (tags d))) none = merged (cs.map fun d => (d.2, tags d)) := by
  cases cs with
  | nil => rfl
  | cons d cs =>
    rw [List.foldl_cons]
    show cs.foldl _ (some (tags d)) = _
    rw [addTag_fold]
    simp only [merged, List.map_cons, List.map_map, Function.comp_def]

theorem read_several {o : Opts} (ho : o.readTags = true) {its : Chunk → List Item} {tags : Chunk → Id3Tag} {cs : List Chunk}
    (h : Several o its tags cs) (hsz : (wav cs).length < 2 ^ 32) :
    ∃ n, ∀ k, n ≤ k → readWav { o with depth := k } (wav cs) = (do
      let p ← (wavRest cs).foldlM (wavAudio o.readProps) ⟨0, 0, []⟩
      wavDone o ⟨p, (cs.filter fun d => IsInfo d).flatMap its, merged ((cs.filter fun d => d.IsId3).map fun d => (d.2, tags d))⟩ (wav cs).length) := by
  obtain ⟨n, hn⟩ := several_tags cs h.id3v2
  refine ⟨n, fun k hk => ?_⟩
  rw [readWav_chunks (o := { o with depth := k }) ho its cs (fun d hd => ⟨(h.ok d hd).1, (h.ok d hd).2, h.info d hd⟩) hsz,
    fold_wav (tags := fun d => some (tags d)) cs _ (hn k hk)]
  simp only [List.nil_append]
  rw [addTag_merged]
  cases (wavRest cs).foldlM (wavAudio o.readProps) ⟨0, 0, []⟩ with
  | error e => rfl
  | ok p => rfl

/-- The items of an INFO list are determined by its bytes. -/
theorem info_unique {a b : List Item} {j j' : Bytes} (hsz : (infoListWith a j).2.length + 21 < 2 ^ 32) (hj : j.length < 8) (hj' : j'.length < 8)
    (ha : ∀ i ∈ a, ItemOk i) (hb : ∀ i ∈ b, ItemOk i) (h : infoListWith a j = infoListWith b j') : a = b := by
  have key : ∀ (x : List Item) (y : Bytes), y.length < 8 → (∀ i ∈ x, ItemOk i) → (infoListWith x y).2.length + 21 < 2 ^ 32 →
      Iff.readWav false (fun _ => .ok ()) (wav [infoListWith x y]) = .ok x := by
    intro x y hy hx hl
    have := Iff.readWav_wav false (fun _ => .ok ()) [.inr (x, y)] (by
      intro p hp
      rw [List.mem_singleton] at hp
      subst hp
      exact ⟨hx, hy, by omega⟩) (by
      show 4 + (encAll false [infoListWith x y]).length < _
      rw [encAll_cons, encAll_nil, List.append_nil, enc_length]
      have : (infoListWith x y).1.length = 4 := rfl
      omega)
    simpa [chunksOf, itemsOf] using this
  have h1 := key a j hj ha hsz
  have h2 := key b j' hj' hb (by rw [← h]; exact hsz)
  rw [h, h2] at h1
  exact ((Except.ok.injEq _ _).mp h1).symm

/-! ## The claims -/

/-- C97: **several tags of one kind are read as one.**  Reading a WAV file shows the items of all its INFO lists in order, and the first of its ID3v2
tags with the frames of the others inserted in order; a file that is read with its properties shows the same.  Missing: ID3v2 tags that the library did
not write. -/
theorem wav_merged_partial {o : Opts} (ho : o.readTags = true) {its : Chunk → List Item} {tags : Chunk → Id3Tag} {cs : List Chunk}
    (h : Several o its tags cs) (hsz : (wav cs).length < 2 ^ 32) :
    ∃ n, ∀ k, n ≤ k →
      (o.readProps = false → ∃ m, readWav { o with depth := k } (wav cs) = .ok m) ∧
      ∀ m, readWav { o with depth := k } (wav cs) = .ok m →
        m.info = (cs.filter fun d => IsInfo d).flatMap its ∧ m.id3v2 = merged ((cs.filter fun d => d.IsId3).map fun d => (d.2, tags d)) := by
  obtain ⟨n, hn⟩ := read_several ho h hsz
  refine ⟨n, fun k hk => ⟨fun hp => ?_, fun m hm => ?_⟩⟩
  · have : ∀ (l : List Chunk) a, l.foldlM (wavAudio o.readProps) a = .ok a := by
      intro l
      induction l with
      | nil => intro a; rfl
      | cons d l ih =>
        intro a
        rw [List.foldlM_cons]
        unfold wavAudio at ih ⊢
        rw [hp, if_neg (by simp), ok_bind]
        rw [hp] at ih
        exact ih a
    rw [hn k hk, this, ok_bind]
    unfold wavDone
    rw [if_neg (by simp [hp])]
    exact ⟨_, rfl⟩
  · rw [hn k hk] at hm
    obtain ⟨p, -, hm⟩ := bind_ok hm
    unfold wavDone at hm
    split at hm
    · obtain ⟨q, -, hm⟩ := bind_ok hm
      obtain rfl := (Except.ok.injEq _ _).mp hm
      exact ⟨rfl, rfl⟩
    · obtain rfl := (Except.ok.injEq _ _).mp hm
      exact ⟨rfl, rfl⟩

/-- C97: **the first list that has a key decides what is read for it**, while of ID3v2 tags it is the last (`FileTags.last_text_read`). -/
theorem first_list_read {o : Opts} (ho : o.readTags = true) (hp : o.readProps = false) {its : Chunk → List Item} {tags : Chunk → Id3Tag}
    {pre post : List Chunk} {d : Chunk} (h : Several o its tags (pre ++ d :: post)) (hsz : (wav (pre ++ d :: post)).length < 2 ^ 32) (hd : IsInfo d)
    {key v : Str} (hkey : Iff.get (its d) key = some v) (hpre : ∀ e ∈ pre, IsInfo e → ∀ i ∈ its e, i.1 ≠ key) :
    ∃ n, ∀ k, n ≤ k → ∃ m, readWav { o with depth := k } (wav (pre ++ d :: post)) = .ok m ∧ Iff.get m.info key = some v := by
  obtain ⟨n, hn⟩ := wav_merged_partial ho h hsz
  refine ⟨n, fun k hk => ?_⟩
  obtain ⟨m, hm⟩ := (hn k hk).1 hp
  refine ⟨m, hm, ?_⟩
  rw [((hn k hk).2 m hm).1, List.filter_append, List.filter_cons_of_pos (by simpa using hd), List.flatMap_append, List.flatMap_cons]
  unfold Iff.get at hkey ⊢
  have h0 : ((pre.filter fun e => decide (IsInfo e)).flatMap its).find? (fun i => decide (i.1 = key)) = none := by
    rw [List.find?_eq_none]
    intro i hi
    obtain ⟨e, he, hi⟩ := List.mem_flatMap.mp hi
    have := List.mem_filter.mp he
    simpa using hpre e this.1 (by simpa using this.2) i hi
  rw [List.find?_append, h0, Option.none_or, List.find?_append]
  obtain ⟨i, hi, rfl⟩ := Option.map_eq_some_iff.mp hkey
  rw [hi]
  rfl

/-- C97: **after a save the further INFO lists are still read**: to a file with an INFO list of even size other items are saved.  What is read then is
these items, and behind them those of all lists but the first; the ID3v2 tags are as before.  With no further list it is the items saved.
Missing: lists of odd size (C19), and as in `wav_merged_partial`. -/
theorem wav_save_then_read_partial {o : Opts} (ho : o.readTags = true) (hp : o.readProps = false) {its : Chunk → List Item} {tags : Chunk → Id3Tag}
    {pre post : List Chunk} {d : Chunk} (h : Several o its tags (pre ++ d :: post)) (hpre : ∀ e ∈ pre, ¬ IsInfo e) (hd : IsInfo d)
    (hev : d.2.length % 2 = 0) (strict : Bool) (items : List Item) (hit : ∀ i ∈ items, ItemOk i)
    {b : Bytes} (hb : createInfo items = .ok b) (hsz : (wav (pre ++ d :: post)).length + b.length + 9 < 2 ^ 32) :
    ∃ g, writeInfo strict (wav (pre ++ d :: post)) items = .ok g ∧ ∃ n, ∀ k, n ≤ k → ∃ m, readWav { o with depth := k } g = .ok m ∧
      m.info = (items.filter fun i => !i.2.isEmpty) ++ (post.filter fun e => IsInfo e).flatMap its ∧
      m.id3v2 = merged (((pre ++ d :: post).filter fun e => e.IsId3).map fun e => (e.2, tags e)) := by
  have hk : ∀ i ∈ items, FourCC (utf8 i.1) := fun i hi => (hit i hi).1
  have hbl := createInfo_length hk hb
  rw [wav_length] at hsz
  have hdt : ¬ d.IsId3 := fun h => IsInfo.not_id3 h hd
  -- the save
  have hplain : ∀ e ∈ pre, e.Plain := by
    intro e he
    obtain ⟨h1, h2⟩ := h.ok e (by simp [he])
    exact ⟨h1, fun hL => ⟨h2 hL, fun hI => hpre e he ⟨hL, hI⟩⟩⟩
  have hde : d = (ascii "LIST", ascii "INFO" ++ d.2.drop 4) := by
    obtain ⟨d1, d2⟩ := d
    obtain ⟨h1, h2⟩ := hd
    simp only at h1 h2
    rw [h1, ← h2, List.take_append_drop]
  have hd4 : 4 ≤ d.2.length := (h.ok d (by simp)).2 hd.1
  have hsp : (encAll false (pre ++ d :: post)).length = (encAll false pre).length + ((enc false d).length + (encAll false post).length) := by
    rw [encAll_append, encAll_cons]; simp
  have hrun := writeInfo_replace_partial strict pre post (d.2.drop 4) [] items hplain (by rw [List.length_drop]; omega) hk
    (by rw [← hde, wav_length]; omega) (by rw [encAll_append, encAll_append, List.length_append, List.length_append]; omega)
  rw [← hde, List.append_nil, List.append_nil] at hrun
  refine ⟨_, hrun, ?_⟩
  -- the new list
  generalize hX : (items.filter fun i => !i.2.isEmpty) = X at *
  have hXok : ∀ i ∈ X, ItemOk i := by rw [← hX]; exact fun i hi => hit i (List.mem_filter.mp hi).1
  have hw : (written items = [] ∧ X = []) ∨ written items = [infoListWith X []] := by
    unfold written
    by_cases hi : items = []
    · subst hi; exact .inl ⟨rfl, by rw [← hX]; rfl⟩
    · right; rw [if_neg hi, infoListWith_nil, hX]
  have hel : ∀ e ∈ written items, e = infoListWith X [] := by
    intro e he
    rcases hw with ⟨hw, -⟩ | hw <;> rw [hw] at he
    · cases he
    · exact List.mem_singleton.mp he
  have hlen : ∀ e ∈ written items, 8 + e.2.length ≤ (encAll false (written items)).length := by
    intro e he
    rcases hw with ⟨hw, -⟩ | hw
    · rw [hw] at he; cases he
    · rw [hel e he, hw, encAll_cons, encAll_nil, List.append_nil, enc_length]
      have : (infoListWith X []).1.length = 4 := rfl
      omega
  have hXi := infoList_isInfo X []
  have hXt : ¬ (infoListWith X []).IsId3 := fun h => IsInfo.not_id3 h hXi
  have hbe : 12 ≤ (encAll false (pre ++ d :: post)).length := by
    rw [hsp, enc_length, hd.1]
    have : (ascii "LIST").length = 4 := rfl
    omega
  -- the items of each list
  have hsame : ∀ e ∈ post, IsInfo e → (if e ∈ written items then X else its e) = its e := by
    intro e he hI
    split
    · rename_i hm
      obtain ⟨junk, h1, h2, h3⟩ := h.info e (by simp [he]) hI
      have h4 := hel e hm
      have h5 := hlen e hm
      exact info_unique (j := []) (j' := junk) (by rw [← h4]; omega) (by simp) h2 hXok h3 (by rw [← h4]; exact h1)
    · rfl
  have hsev : Several o (fun e => if e ∈ written items then X else its e) tags (pre ++ written items ++ post) := by
    refine ⟨fun e he => ?_, fun e he hI => ?_, fun e he hT => ?_⟩
    · simp only [List.mem_append] at he
      rcases he with (he | he) | he
      · exact h.ok e (by simp [he])
      · have h5 := hlen e he
        have h4 := hel e he
        refine ⟨⟨by rw [h4]; exact fourcc_list, by omega⟩, fun _ => ?_⟩
        rw [h4]
        simp [infoListWith, ascii_info_length]
      · exact h.ok e (by simp [he])
    · simp only [List.mem_append] at he
      rcases he with (he | he) | he
      · exact absurd hI (hpre e he)
      · simp only [if_pos he]
        exact ⟨[], hel e he, by simp, hXok⟩
      · simp only [hsame e he hI]
        exact h.info e (by simp [he]) hI
    · simp only [List.mem_append] at he
      rcases he with (he | he) | he
      · exact h.id3v2 e (by simp [he]) hT
      · exact absurd (hel e he ▸ hT) hXt
      · exact h.id3v2 e (by simp [he]) hT
  have hsz' : (wav (pre ++ written items ++ post)).length < 2 ^ 32 := by
    rw [wav_length, encAll_append, encAll_append, List.length_append, List.length_append]
    omega
  obtain ⟨n, hn⟩ := wav_merged_partial ho hsev hsz'
  refine ⟨n, fun k hk => ?_⟩
  obtain ⟨m, hm⟩ := (hn k hk).1 hp
  obtain ⟨h1, h2⟩ := (hn k hk).2 m hm
  refine ⟨m, hm, ?_, ?_⟩
  · rw [h1, List.filter_append, List.filter_append, List.filter_eq_nil_iff.mpr (fun e he => by simp [hpre e he]), List.nil_append, List.flatMap_append]
    congr 1
    · rcases hw with ⟨hw, hx⟩ | hw
      · rw [hw, hx]; rfl
      · rw [hw, List.filter_cons_of_pos (by simpa using hXi)]
        simp
    · rw [List.flatMap_def, List.flatMap_def]
      refine congrArg List.flatten (List.map_congr_left fun e he => ?_)
      have := List.mem_filter.mp he
      exact hsame e this.1 (by simpa using this.2)
  · rw [h2, List.filter_append, List.filter_append, List.filter_append, List.filter_cons_of_neg (by simpa using hdt)]
    have : (written items).filter (fun e => decide e.IsId3) = [] := by
      rw [List.filter_eq_nil_iff]
      intro e he
      rw [hel e he]
      simpa using hXt
    rw [this, List.append_nil]

/-- C97, **disagreement in general**: whatever is saved, the items of the further lists are still read. -/
theorem old_items_stay {o : Opts} (ho : o.readTags = true) (hp : o.readProps = false) {its : Chunk → List Item} {tags : Chunk → Id3Tag}
    {pre post : List Chunk} {d e : Chunk} (h : Several o its tags (pre ++ d :: post)) (hpre : ∀ e ∈ pre, ¬ IsInfo e) (hd : IsInfo d)
    (hev : d.2.length % 2 = 0) (he : e ∈ post) (hI : IsInfo e) (strict : Bool) (items : List Item) (hit : ∀ i ∈ items, ItemOk i)
    {b : Bytes} (hb : createInfo items = .ok b) (hsz : (wav (pre ++ d :: post)).length + b.length + 9 < 2 ^ 32) :
    ∃ g, writeInfo strict (wav (pre ++ d :: post)) items = .ok g ∧ ∃ n, ∀ k, n ≤ k → ∃ m, readWav { o with depth := k } g = .ok m ∧
      ∀ i ∈ its e, i ∈ m.info := by
  obtain ⟨g, hg, n, hn⟩ := wav_save_then_read_partial ho hp h hpre hd hev strict items hit hb hsz
  refine ⟨g, hg, n, fun k hk => ?_⟩
  obtain ⟨m, h1, h2, -⟩ := hn k hk
  refine ⟨m, h1, fun i hi => ?_⟩
  rw [h2]
  exact List.mem_append.mpr (.inr (List.mem_flatMap.mpr ⟨e, List.mem_filter.mpr ⟨he, by simpa using hI⟩, hi⟩))

/-! ## A case that meets the hypotheses -/

/-- A file with two INFO lists. -/
def twoLists : List Chunk := exWav ++ [infoList [(str "INAM", str "a")], infoList [(str "IART", str "bc")]]

/-- After the title `x` is saved, the artist of the second list is still read. -/
example : ∃ g, writeInfo true (wav twoLists) [(str "INAM", str "x")] = .ok g ∧ ∃ n, ∀ k, n ≤ k → ∃ m, readWav { exOpts true false with depth := k } g = .ok m ∧
    m.info = [(str "INAM", str "x"), (str "IART", str "bc")] ∧ m.id3v2 = none := by
  have hs : Several (exOpts true false) (fun e => if e = infoList [(str "INAM", str "a")] then [(str "INAM", str "a")] else [(str "IART", str "bc")])
      (fun _ => ⟨.v4, ⟨false, false, false, false, none⟩, []⟩) (exWav ++ infoList [(str "INAM", str "a")] :: [infoList [(str "IART", str "bc")]]) := by
    have hi : ∀ i ∈ [(str "INAM", str "a"), (str "IART", str "bc")], ItemOk i := by
      intro i hi
      simp only [List.mem_cons, List.not_mem_nil, or_false] at hi
      rcases hi with rfl | rfl <;> exact ⟨(validFourcc_iff (by decide)).mp (by decide), by decide, by decide⟩
    refine ⟨fun d hd => ?_, fun d hd hI => ?_, fun d hd hT => ?_⟩
    · simp only [exWav, List.cons_append, List.nil_append, List.mem_cons, List.not_mem_nil, or_false] at hd
      rcases hd with rfl | rfl | rfl | rfl
      · exact ⟨⟨(validFourcc_iff (by decide)).mp (by decide), by decide⟩, by decide⟩
      · exact ⟨⟨(validFourcc_iff (by decide)).mp (by decide), by decide⟩, by decide⟩
      · exact ⟨⟨(validFourcc_iff (by decide)).mp (by decide), by decide⟩, by decide⟩
      · exact ⟨⟨(validFourcc_iff (by decide)).mp (by decide), by decide⟩, by decide⟩
    · simp only [exWav, List.cons_append, List.nil_append, List.mem_cons, List.not_mem_nil, or_false] at hd
      rcases hd with rfl | rfl | rfl | rfl
      · exact absurd hI (by decide)
      · exact absurd hI (by decide)
      · exact ⟨[], by decide, by decide, fun i h => hi i (by simp at h; simp [h])⟩
      · exact ⟨[], by decide, by decide, fun i h => hi i (by simp [show infoList [(str "IART", str "bc")] ≠ infoList [(str "INAM", str "a")] by decide] at h; simp [h])⟩
    · simp only [exWav, List.cons_append, List.nil_append, List.mem_cons, List.not_mem_nil, or_false] at hd
      rcases hd with rfl | rfl | rfl | rfl <;> exact absurd hT (by decide)
  obtain ⟨g, hg, n, hn⟩ := wav_save_then_read_partial (o := exOpts true false) rfl rfl hs (by decide) (by decide) (by decide) true [(str "INAM", str "x")]
    (by
      intro i hi
      rw [List.mem_singleton.mp hi]
      exact ⟨(validFourcc_iff (by decide)).mp (by decide), by decide, by decide⟩)
    (b := (createInfo [(str "INAM", str "x")]).toOption.getD []) (by decide +kernel) (by decide +kernel)
  refine ⟨g, hg, n, fun k hk => ?_⟩
  obtain ⟨m, h1, h2, h3⟩ := hn k hk
  exact ⟨m, h1, by rw [h2]; decide +kernel, by rw [h3]; decide +kernel⟩

end Lofty.IffFiles
