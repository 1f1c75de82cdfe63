import Verif.Props.ConvertId3v2
import Verif.Lemmas.ConvertId3v2Merge
/-!
# C57: the frames of an ID3v2 tag that a generic tag cannot hold

A tag is split into a generic tag and the frames that are held back; the generic tag is changed in any way, and both are put
together again, by merging or by saving the generic tag with its companion.
-/
namespace Lofty.Convert
open Lofty.Item
open Lofty.Id3v2 (Frame Content FrameId sameFrame)

theorem held_eq (custom : Rating.Provider) (l : List Frame) : (splitId3v2 custom l).1 = heldOf custom l := rfl

theorem rest_stable {custom : Rating.Provider} {l : List Frame} : ∀ f ∈ heldOf custom l, splitFrame custom f = { kept := some f } := by
  intro f hf
  obtain ⟨g, _, hg⟩ := List.mem_filterMap.mp hf
  exact kept_stable hg

/-- **Splitting keeps frames without a generic view as they are**, flags and all, in order. -/
theorem split_keeps (custom : Rating.Provider) (l : List Frame) :
    (splitId3v2 custom l).1.filter (fun f => !Spec.isPeople f) =
      l.filter fun f => !Spec.viewed custom f && !Spec.isPeople f := by
  rw [held_eq]
  induction l with
  | nil => rfl
  | cons f l ih =>
    unfold heldOf at ih ⊢
    rw [List.filterMap_cons]
    cases hp : Spec.isPeople f with
    | true =>
      rw [List.filter_cons_of_neg (a := f) (by simp [hp])]
      cases f with
      | chapter => cases hp
      | toc => cases hp
      | leaf fl c =>
        cases c with
        | keyValue kv =>
          have hk : kv.id.asStr = str "TIPL" := of_decide_eq_true hp
          rw [split_people custom fl kv hk]
          simp only
          split
          · exact ih
          · rename_i g hg
            split at hg
            · cases hg
            · obtain rfl := (Option.some.injEq _ _).mp hg
              rw [List.filter_cons_of_neg]
              · exact ih
              · simp only [Bool.not_eq_true', Bool.not_eq_false]
                exact decide_eq_true hk
        | _ => cases hp
    | false =>
      cases hv : Spec.viewed custom f with
      | true =>
        rw [split_viewed hv, List.filter_cons_of_neg (a := f) (by simp [hv])]
        exact ih
      | false =>
        rw [split_unviewed hv hp, List.filter_cons_of_pos (p := fun f => !Spec.viewed custom f && !Spec.isPeople f) (by simp [hv, hp])]
        simp only
        rw [List.filter_cons_of_pos (a := f) (by simp [hp]), ih]

/-- Nothing of a frame without a generic view shows in the generic tag. -/
theorem split_hidden (custom : Rating.Provider) (l : List Frame) (h : ∀ f ∈ l, Spec.viewed custom f = false ∧ Spec.isPeople f = false) :
    splitId3v2 custom l = (l, Tag.new .id3v2) := by
  have hs : ∀ f ∈ l, splitFrame custom f = { kept := some f } := fun f hf => split_unviewed (h f hf).1 (h f hf).2
  refine Prod.ext (heldOf_stable hs) ?_
  show ({ Tag.new .id3v2 with items := itemsOf custom l, pictures := _ } : Tag) = _
  rw [itemsOf_stable hs, List.flatMap_eq_nil_iff.mpr fun f hf => held_pictures (hs f hf)]
  rfl

/-- **A list of people is split up**: those in a role with a key become items, the others stay in the frame, both in order; a
frame that nobody stays in disappears. -/
theorem split_list (custom : Rating.Provider) (fl : Id3v2.FrameFlags) (kv : Id3v2.KvF) (h : kv.id.asStr = str "TIPL") :
    let s := splitId3v2 custom [.leaf fl (.keyValue kv)]
    (∀ k role, (k, role) ∈ [(ItemKey.Producer, "producer"), (.Arranger, "arranger"), (.Engineer, "engineer"), (.MixDj, "DJ-mix"),
        (.MixEngineer, "mix")] →
      s.2.getItems k = Spec.items k ((kv.pairs.filter fun p => p.1 = str role).map fun p => p.2)) ∧
    (s.1 = if (kv.pairs.filter fun p => !Spec.knownRole p.1) = [] then []
      else [.leaf fl (.keyValue { kv with pairs := kv.pairs.filter fun p => !Spec.knownRole p.1 })]) ∧ s.2.pictures = [] := by
  intro s
  have hs := split_people custom fl kv h
  refine ⟨?_, ?_, ?_⟩
  · intro k role hk
    show (itemsOf custom [_]).filter _ = _
    unfold itemsOf
    rw [List.flatMap_cons, hs, List.flatMap_nil, List.append_nil]
    simp only
    have hfind : ∀ r, (tiplMap.find? fun e => e.2 = r).map (fun e => e.1) = some k ↔ r = str role := by
      have htab : ∀ x ∈ [(ItemKey.Producer, "producer"), (.Arranger, "arranger"), (.Engineer, "engineer"), (.MixDj, "DJ-mix"),
          (.MixEngineer, "mix")], (x.1, str x.2) ∈ tiplMap := by decide
      have hmem := htab _ hk
      have hback : ∀ e ∈ tiplMap, tiplMap.find? (fun x => x.2 = e.2) = some e := by decide
      have hinj : ∀ e ∈ tiplMap, ∀ e' ∈ tiplMap, e.1 = e'.1 → e = e' := by decide
      intro r
      constructor
      · intro hr
        cases hf : tiplMap.find? fun e => e.2 = r with
        | none => rw [hf] at hr; cases hr
        | some e =>
          rw [hf] at hr
          have h1 := List.mem_of_find?_eq_some hf
          have h2 : e.2 = r := of_decide_eq_true (List.find?_some (p := fun x : ItemKey × Str => decide (x.2 = r)) hf)
          have h3 : e.1 = k := by simpa using hr
          have := hinj e h1 _ hmem h3
          rw [← h2, this]
      · rintro rfl
        rw [hback _ hmem]
        rfl
    induction kv.pairs with
    | nil => rfl
    | cons p ps ih =>
      rw [List.filterMap_cons]
      by_cases hr : p.1 = str role
      · have := (hfind p.1).mpr hr
        cases hf : tiplMap.find? fun e => e.2 = p.1 with
        | none => rw [hf] at this; cases this
        | some e =>
          rw [hf] at this
          have he : e.1 = k := by simpa using this
          simp only [Option.map_some]
          rw [List.filter_cons_of_pos (by exact decide_eq_true he), ih, List.filter_cons_of_pos (by exact decide_eq_true hr), he]
          rfl
      · rw [List.filter_cons_of_neg (a := p) (by simpa using hr)]
        cases hf : tiplMap.find? fun e => e.2 = p.1 with
        | none => exact ih
        | some e =>
          simp only [Option.map_some]
          rw [List.filter_cons_of_neg, ih]
          show ¬ decide (e.1 = k) = true
          rw [decide_eq_true_iff]
          intro he
          exact hr ((hfind p.1).mp (by rw [hf, ← he]; rfl))
  · show heldOf custom [_] = _
    unfold heldOf
    rw [List.filterMap_cons, hs, List.filterMap_nil]
    simp only
    cases hf : kv.pairs.filter fun p => !Spec.knownRole p.1 with
    | nil => rfl
    | cons p ps => rfl
  · show List.flatMap _ _ = _
    rw [List.flatMap_cons, hs]
    rfl

/-- Frames that show in the generic tag leave nothing behind. -/
theorem split_shown (custom : Rating.Provider) (l : List Frame) (h : ∀ f ∈ l, Spec.viewed custom f = true) :
    (splitId3v2 custom l).1 = [] := by
  rw [held_eq]
  unfold heldOf
  rw [List.filterMap_eq_nil_iff]
  exact fun f hf => split_viewed (h f hf)

/-- The remaining frames and the generic tag are split independently: a tag of two parts gives the two results. -/
theorem split_append (custom : Rating.Provider) (a b : List Frame) :
    (splitId3v2 custom (a ++ b)).1 = (splitId3v2 custom a).1 ++ (splitId3v2 custom b).1 ∧
    (splitId3v2 custom (a ++ b)).2.items = (splitId3v2 custom a).2.items ++ (splitId3v2 custom b).2.items ∧
    (splitId3v2 custom (a ++ b)).2.pictures = (splitId3v2 custom a).2.pictures ++ (splitId3v2 custom b).2.pictures :=
  ⟨heldOf_append .., itemsOf_append .., by show List.flatMap _ _ = _; rw [List.flatMap_append]; rfl⟩

/-! ## What a frame shows -/

theorem split_single (custom : Rating.Provider) (f : Frame) : (splitId3v2 custom [f]).2.items = (splitFrame custom f).items := by
  unfold splitId3v2
  simp only [List.flatMap_cons, List.flatMap_nil, List.append_nil]

/-- **Texts**: a text frame with a known id shows one item for each of its values. -/
theorem shows_text (custom : Rating.Provider) {fl : Id3v2.FrameFlags} {f : Id3v2.TextF} {k : ItemKey}
    (hk : fromKey .id3v2 f.id.asStr = some k) (hn : f.id.asStr ∉ [str "TRCK", str "TPOS", str "MVIN", str "TCON"]) :
    (splitId3v2 custom [.leaf fl (.text f)]).2.items = Spec.items k (Spec.pieces f.value) := by
  rw [split_single]
  simp only [List.mem_cons, List.not_mem_nil, or_false, not_or] at hn
  have hp : pairItems f.id.asStr f.value = none := by
    unfold pairItems
    rw [List.find?_eq_none.mpr]
    · rfl
    · intro e he
      rw [decide_eq_true_iff]
      intro hf
      simp only [pairIds, List.mem_cons, List.not_mem_nil, or_false] at he
      rcases he with rfl | rfl | rfl
      · exact hn.1 hf.symm
      · exact hn.2.1 hf.symm
      · exact hn.2.2.1 hf.symm
  unfold splitFrame
  simp only
  rw [hp]
  simp only
  rw [if_neg hn.2.2.2]
  unfold keyed
  rw [hk]
  exact values_pieces k f.value

/-- **Numbers**: `n` and `n/m` show the number and the total. -/
theorem shows_number (custom : Rating.Provider) (fl : Id3v2.FrameFlags) (enc : Text.Encoding) {id : Str} {x y : ItemKey}
    (hid : (id, x, y) ∈ [(str "TRCK", ItemKey.TrackNumber, ItemKey.TrackTotal), (str "TPOS", .DiscNumber, .DiscTotal),
      (str "MVIN", .MovementNumber, .MovementTotal)]) {n m : Nat} (hn : n < 2 ^ 32) (hm : m < 2 ^ 32) :
    (splitId3v2 custom [.leaf fl (.text ⟨.valid id, enc, toDec n⟩)]).2.items = Spec.items x [toDec n] ∧
    (splitId3v2 custom [.leaf fl (.text ⟨.valid id, enc, toDec n ++ '/' :: toDec m⟩)]).2.items =
      Spec.items x [toDec n] ++ Spec.items y [toDec m] := by
  have hfind : pairIds.find? (fun e => e.1 = id) = some (id, x, y) := by
    have : ∀ e ∈ pairIds, pairIds.find? (fun x => x.1 = e.1) = some e := by decide
    exact this _ hid
  have hgo : ∀ v l, splitNumbers v x y = some l → (splitId3v2 custom [.leaf fl (.text ⟨.valid id, enc, v⟩)]).2.items = l := by
    intro v l h
    rw [split_single]
    have hp : pairItems id v = some l := by
      unfold pairItems
      rw [hfind]
      exact h
    unfold splitFrame
    simp only
    have : (FrameId.valid id).asStr = id := rfl
    rw [this, hp]
  exact ⟨hgo _ _ (splitNumbers_some hn x y), hgo _ _ (splitNumbers_pair hn hm x y)⟩

/-- **Genres** show by their names. -/
theorem shows_genre (custom : Rating.Provider) (fl : Id3v2.FrameFlags) (enc : Text.Encoding) (v : Str) :
    (splitId3v2 custom [.leaf fl (.text ⟨.valid (str "TCON"), enc, v⟩)]).2.items =
      Spec.items .Genre (Id3v2.genreList v.length v) := by
  rw [split_single]
  have hp : pairItems (str "TCON") v = none := rfl
  unfold splitFrame
  simp only
  have : (FrameId.valid (str "TCON")).asStr = str "TCON" := rfl
  rw [this, hp]
  simp only
  rw [if_pos trivial]
  rfl

/-- **User texts** with a known description. -/
theorem shows_user (custom : Rating.Provider) {fl : Id3v2.FrameFlags} {f : Id3v2.UserF} {k : ItemKey}
    (hk : fromKey .id3v2 f.desc = some k) (hd : f.desc ≠ []) :
    (splitId3v2 custom [.leaf fl (.userText f)]).2.items = Spec.items k (Spec.pieces f.content) := by
  rw [split_single]
  unfold splitFrame
  simp only
  rw [if_neg (by simpa using hd)]
  unfold keyed
  rw [hk]
  exact values_pieces k f.content

/-- **Links** with a known id. -/
theorem shows_link (custom : Rating.Provider) {fl : Id3v2.FrameFlags} {f : Id3v2.UrlF} {k : ItemKey}
    (hk : fromKey .id3v2 f.id.asStr = some k) :
    (splitId3v2 custom [.leaf fl (.url f)]).2.items = [TagItem.new k (.locator f.url)] := by
  rw [split_single]
  unfold splitFrame
  simp only
  rcases keyed_cases f.id.asStr (.leaf fl (.url f)) (fun k => [TagItem.new k (.locator f.url)]) with ⟨_, j, hj, h⟩ | ⟨h, _⟩
  · rw [h]
    rw [hk, Option.some.injEq] at hj
    rw [hj]
  · unfold Spec.known at h
    rw [hk] at h
    cases h

/-- **Comments and lyrics** without NULs. -/
theorem shows_remark (custom : Rating.Provider) (fl : Id3v2.FrameFlags) {f : Id3v2.LangF} (h : '\x00' ∉ f.content) :
    (splitId3v2 custom [.leaf fl (.comment f)]).2.items = [⟨langBytes f.lang, f.desc, .Comment, .text f.content⟩] ∧
    (splitId3v2 custom [.leaf fl (.lyrics f)]).2.items = [⟨langBytes f.lang, f.desc, .UnsyncLyrics, .text f.content⟩] := by
  have hv : ∀ k, langValues k f = [⟨langBytes f.lang, f.desc, k, .text f.content⟩] := by
    intro k
    unfold langValues
    rw [splitOn_none h]
    rfl
  constructor
  · rw [split_single]
    exact hv _
  · rw [split_single]
    exact hv _

/-- **Dates** that are valid. -/
theorem shows_date (custom : Rating.Provider) {fl : Id3v2.FrameFlags} {f : Id3v2.TimeF} {k : ItemKey}
    (hk : fromKey .id3v2 f.id.asStr = some k) (hv : f.time.verify = true) :
    (splitId3v2 custom [.leaf fl (.time f)]).2.items = [TagItem.new k (.text f.time.fmt)] := by
  rw [split_single]
  unfold splitFrame
  simp only
  rw [if_pos hv]
  unfold keyed
  rw [hk]

/-- **Pictures**. -/
theorem shows_picture (custom : Rating.Provider) (fl : Id3v2.FrameFlags) (f : Id3v2.PicF) :
    (splitId3v2 custom [.leaf fl (.picture f)]).2.pictures = [f.pic] := rfl

/-- The frames made of a generic tag that are held back have no generic view. -/
theorem made_held {custom : Rating.Provider} {fs : List Frame} (hmade : ∀ f ∈ fs, MadeFrame custom f) :
    ∀ f ∈ heldOf custom fs, f ∈ fs ∧ Spec.viewed custom f = false ∧ Spec.isPeople f = false := by
  intro f hf
  obtain ⟨g, hg, hk⟩ := List.mem_filterMap.mp hf
  have hp : Spec.isPeople g = false := by
    have hgm := hmade g hg
    cases hgm with
    | tipl l h =>
      rw [split_people custom {} ⟨.valid (str "TIPL"), .utf8, l⟩ rfl] at hk
      have hnew : (l.filter fun p => !Spec.knownRole p.1) = [] := by
        rw [List.filter_eq_nil_iff]
        intro p hp
        obtain ⟨x, hx, e⟩ := h p hp
        rw [← role_known, Bool.not_eq_true', Bool.not_eq_false, List.any_eq_true]
        exact ⟨x, hx, decide_eq_true e⟩
      simp only at hk
      rw [hnew] at hk
      cases hk
    | _ => rfl
  cases hv : Spec.viewed custom g with
  | true => rw [split_viewed hv] at hk; cases hk
  | false =>
    rw [split_unviewed hv hp] at hk
    obtain rfl := (Option.some.injEq _ _).mp hk
    exact ⟨hg, hv, hp⟩

theorem split_ext {custom : Rating.Provider} {a b : List Frame} (h : itemsOf custom a = itemsOf custom b)
    (hp : (a.flatMap fun f => (splitFrame custom f).pictures) = b.flatMap fun f => (splitFrame custom f).pictures) :
    (splitId3v2 custom a).2 = (splitId3v2 custom b).2 := by
  unfold splitId3v2
  unfold itemsOf at h
  rw [h, hp]

/-! ## Putting it together again -/

/-- **Merging never panics**, whatever frames are there. -/
theorem merge_total (custom : Rating.Provider) (owned : Bool) (rest : List Frame) (t : Tag) (fs : List Frame)
    (hfs : fs.Perm (fromTag custom owned t.items)) : ∃ l, mergeId3v2 rest fs t.pictures = .ok l := by
  have hmade : ∀ f ∈ fs, MadeFrame custom f := fun f hf => made_all (mem_set (hfs.mem_iff.mp hf))
  obtain ⟨r, hr⟩ := mergeFrames_total (fs := fs) (fun f hf ht => by rw [← made_tipl (hmade f hf)]; exact ht) rest
  exact ⟨_, by unfold mergeId3v2; rw [hr]; rfl⟩

/-- **Merging a generic tag into the frames held back.** If the frames with the id of people lists are people lists, then the
merged tag has a generic view that shows what the generic tag alone would show (`Through`, described by C56), and the frames
held back are still there. What is held back in addition are frames made of the generic tag that have no generic view
themselves. -/
theorem merge_keeps_partial {custom : Rating.Provider} (l0 : List Frame) (t : Tag) {fs : List Frame}
    (hfs : fs.Perm (fromTag custom true t.items))
    (hkv : ∀ f ∈ (splitId3v2 custom l0).1, f.id = .valid (str "TIPL") → Spec.isPeople f = true) :
    ∃ r extra, mergeId3v2 (splitId3v2 custom l0).1 fs t.pictures = .ok r ∧ Through custom true t (splitId3v2 custom r).2 ∧
      (splitId3v2 custom r).1.Perm ((splitId3v2 custom l0).1 ++ extra) ∧
      (∀ f ∈ extra, f ∈ fs ∧ Spec.viewed custom f = false ∧ Spec.isPeople f = false) := by
  have hmade : ∀ f ∈ fs, MadeFrame custom f := fun f hf => made_all (mem_set (hfs.mem_iff.mp hf))
  have hst := rest_stable (custom := custom) (l := l0)
  obtain ⟨m, hm, hM⟩ := merge_merged (rest := (splitId3v2 custom l0).1) (fun f hf hid => by
    have := hkv f hf hid
    cases f with
    | chapter => cases this
    | toc => cases this
    | leaf fl c => cases c <;> first | rfl | cases this) hfs
  obtain ⟨hheld, hitems⟩ := merged_split hM hst
  have hnp : ∀ f ∈ m, (splitFrame custom f).pictures = [] ∧ ∀ p, sameFrame f (newPicture p) = false := by
    intro f hf
    rcases merged_mem hM hf with h | h | h
    · exact ⟨held_pictures (hst f h), held_no_picture (hst f h)⟩
    · exact ⟨made_pictures (hmade f h), made_no_picture (hmade f h)⟩
    · exact kv_pictures custom h
  have hr : mergeId3v2 (splitId3v2 custom l0).1 fs t.pictures = .ok (m ++ (lastOnly t.pictures).map newPicture) := by
    unfold mergeId3v2
    rw [hm]
    show Except.ok (t.pictures.foldl (fun l p => (Id3v2.insert l (newPicture p)).2) m) = _
    rw [insert_pictures fun f hf p => (hnp f hf).2 p]
  have hpicheld : ∀ ps : List Picture.Pic, heldOf custom (ps.map newPicture) = [] := by
    intro ps
    unfold heldOf
    rw [List.filterMap_eq_nil_iff]
    intro f hf
    obtain ⟨p, _, rfl⟩ := List.mem_map.mp hf
    rfl
  have hpics : ∀ (m : List Frame), (∀ f ∈ m, (splitFrame custom f).pictures = []) → ∀ ps : List Picture.Pic,
      ((m ++ ps.map newPicture).flatMap fun f => (splitFrame custom f).pictures) = ps := by
    intro m hm ps
    rw [List.flatMap_append, List.flatMap_eq_nil_iff.mpr hm, List.nil_append]
    induction ps with
    | nil => rfl
    | cons p ps ih => rw [List.map_cons, List.flatMap_cons, ih]; rfl
  refine ⟨_, heldOf custom fs, hr, ⟨fs, _, hfs, by rw [if_pos rfl]; exact merge_ok hfs, ?_⟩, ?_, ?_⟩
  · apply split_ext
    · rw [itemsOf_append, itemsOf_append, hitems]
    · rw [hpics m fun f hf => (hnp f hf).1, hpics fs fun f hf => made_pictures (hmade f hf)]
  · show (heldOf custom (m ++ _)).Perm _
    rw [heldOf_append, hpicheld, List.append_nil]
    exact hheld
  · exact made_held hmade

/-- **Saving a generic tag with its companion.** What is written has the frames held back, in order and unchanged, and a generic
view that shows what the generic tag alone would show. -/
theorem companion_keeps {custom : Rating.Provider} (l0 : List Frame) (t : Tag) {fs : List Frame}
    (hfs : fs.Perm (fromTag custom false t.items)) :
    ∃ extra, (splitId3v2 custom (tagFrames fs (splitId3v2 custom l0).1 t.pictures)).1 = extra ++ (splitId3v2 custom l0).1 ∧
      (∀ f ∈ extra, f ∈ fs ∧ Spec.viewed custom f = false ∧ Spec.isPeople f = false) ∧
      Through custom false t (splitId3v2 custom (tagFrames fs (splitId3v2 custom l0).1 t.pictures)).2 := by
  have hmade : ∀ f ∈ fs, MadeFrame custom f := fun f hf => made_all (mem_set (hfs.mem_iff.mp hf))
  have hst := rest_stable (custom := custom) (l := l0)
  have hpicheld : ∀ ps : List Picture.Pic, heldOf custom (ps.map newPicture) = [] := by
    intro ps
    unfold heldOf
    rw [List.filterMap_eq_nil_iff]
    intro f hf
    obtain ⟨p, _, rfl⟩ := List.mem_map.mp hf
    rfl
  refine ⟨heldOf custom fs, ?_, ?_, ⟨fs, tagFrames fs [] t.pictures, hfs, by rw [if_neg (by simp)], ?_⟩⟩
  · show heldOf custom (fs ++ heldOf custom l0 ++ _) = _
    rw [heldOf_append, heldOf_append, hpicheld, List.append_nil, heldOf_stable hst]
    rfl
  · exact made_held hmade
  · apply split_ext
    · unfold tagFrames
      rw [held_eq, itemsOf_append, itemsOf_append, itemsOf_append, itemsOf_append, itemsOf_stable hst]
      rfl
    · unfold tagFrames
      rw [held_eq]
      simp only [List.flatMap_append]
      rw [List.flatMap_eq_nil_iff.mpr fun f hf => held_pictures (hst f hf)]
      rfl

/-! ## Concrete cases -/

/-- A tag with frames of several kinds: a title, a private frame, a list of people, an unknown user text. -/
def mixed : List Frame :=
  [newText (str "TIT2") (str "t"), .leaf {} (.priv ⟨str "o", [1, 2]⟩),
   .leaf {} (.keyValue ⟨.valid (str "TIPL"), .utf8, [(str "producer", str "p"), (str "cook", str "c")]⟩),
   newUserText (str "MOOD OF THE DAY") (str "m")]

def mixedHeld : List Frame :=
  [.leaf {} (.priv ⟨str "o", [1, 2]⟩), .leaf {} (.keyValue ⟨.valid (str "TIPL"), .utf8, [(str "cook", str "c")]⟩),
   newUserText (str "MOOD OF THE DAY") (str "m")]

/-- Frames without other frames, for comparison. -/
def leaves (l : List Frame) : List (Option (Id3v2.FrameFlags × Content)) := l.map fun
  | .leaf fl c => some (fl, c)
  | _ => none

example : leaves (splitId3v2 Rating.default mixed).1 = leaves mixedHeld ∧
    shown (splitId3v2 Rating.default mixed).2 = [(.TrackTitle, some (str "t")), (.Producer, some (str "p"))] := by decide +kernel

-- the title changed and the tag merged again
example : (mergeId3v2 mixedHeld (fromTag Rating.default true (sample [(.TrackTitle, "u"), (.Producer, "p"), (.Producer, "q")]).items) []).toOption.map leaves =
    some (leaves [.leaf {} (.priv ⟨str "o", [1, 2]⟩), newUserText (str "MOOD OF THE DAY") (str "m"),
      .leaf {} (.keyValue ⟨.valid (str "TIPL"), .utf8, [(str "cook", str "c"), (str "producer", str "p"), (str "producer", str "q")]⟩),
      newText (str "TIT2") (str "u")]) := by decide +kernel

example : ∀ f ∈ mixedHeld, f.id = .valid (str "TIPL") → Spec.isPeople f = true := by decide

/-- **The hypothesis of `merge_keeps_partial` is needed**: if the frame of the people is a plain text, new people are lost. -/
theorem people_lost : (mergeId3v2 [newText (str "TIPL") (str "x")]
      (fromTag Rating.default true (sample [(.Producer, "p")]).items) []).toOption.map leaves =
    some (leaves [newText (str "TIPL") (str "x")]) := by decide +kernel

/-- A genre frame without a genre neither stays nor shows. -/
theorem empty_genre_lost : leaves (splitId3v2 Rating.default [newText (str "TCON") []]).1 = [] ∧
    (splitId3v2 Rating.default [newText (str "TCON") []]).2.items = [] := by decide +kernel

/-- Saved with its companion, a generic tag may give two lists of people. -/
theorem people_twice : leaves (tagFrames (fromTag Rating.default false (sample [(.Producer, "p")]).items)
      (splitId3v2 Rating.default [.leaf {} (.keyValue ⟨.valid (str "TIPL"), .utf8, [(str "cook", str "c")]⟩)]).1 []) =
    leaves [.leaf {} (.keyValue ⟨.valid (str "TIPL"), .utf8, [(str "producer", str "p")]⟩),
      .leaf {} (.keyValue ⟨.valid (str "TIPL"), .utf8, [(str "cook", str "c")]⟩)] := by decide +kernel

end Lofty.Convert
