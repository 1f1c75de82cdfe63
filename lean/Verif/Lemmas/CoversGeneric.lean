import Verif.Lemmas.CoversFiles
/-! # Pictures that are not read: the generic tags -/
namespace Lofty.Covers
open Lofty.Id3v2 Lofty.Item Lofty.Convert
open Lofty.FileTags (Id3Tag)

/-- Does the item have nothing to do with the date? -/
def dateless (d : Bool) (i : TagItem) : Bool := !(d && decide (i.key = .RecordingDate))

theorem items_shape (custom : Rating.Provider) (f : Frame) : (splitFrame custom (shape f)).items = (splitFrame custom f).items := by
  cases f <;> rfl

theorem cover_items (custom : Rating.Provider) {f : Frame} (h : IsCover f = true) : (splitFrame custom f).items = [] := by
  cases f with
  | leaf fl c =>
    cases c with
    | picture => rfl
    | binary => rfl
    | _ => exact absurd (show false = true from h) (by decide)
  | chapter => cases h
  | toc => cases h

theorem pictures_none (custom : Rating.Provider) {f : Frame} (h : IsCover f = false) : (splitFrame custom f).pictures = [] := by
  cases f with
  | leaf fl c =>
    cases c with
    | picture p => cases h
    | text t =>
      unfold splitFrame
      dsimp only
      split
      · rfl
      · split
        · rfl
        · unfold keyed; split <;> rfl
    | keyValue kv => unfold splitFrame; dsimp only; split <;> rfl
    | userText u => unfold splitFrame; dsimp only; split; · rfl
                    · unfold keyed; split <;> rfl
    | userUrl u => unfold splitFrame; dsimp only; split; · rfl
                   · unfold keyed; split <;> rfl
    | ufid u => unfold splitFrame; dsimp only; split <;> rfl
    | time t => unfold splitFrame; dsimp only; split
                · unfold keyed; split <;> rfl
                · rfl
    | pop p => unfold splitFrame; dsimp only; split <;> rfl
    | url u => unfold splitFrame keyed; dsimp only; split <;> rfl
    | _ => rfl
  | chapter => rfl
  | toc => rfl

theorem dates_str {id : FrameId} (h : dates.contains id = true) : id.asStr = str "TDRC" ∨ id.asStr = str "TDAT" ∨ id.asStr = str "TIME" := by
  simp only [dates, List.contains_cons, List.contains_nil, Bool.or_false, Bool.or_eq_true, beq_iff_eq] at h
  rcases h with rfl | rfl | rfl
  · exact .inl rfl
  · exact .inr (.inl rfl)
  · exact .inr (.inr rfl)

theorem date_key {id : FrameId} (h : dates.contains id = true) {k : ItemKey} (hk : fromKey .id3v2 id.asStr = some k) : k = .RecordingDate := by
  rcases dates_str h with e | e | e <;> rw [e] at hk
  · rw [show fromKey .id3v2 (str "TDRC") = some .RecordingDate by decide +kernel] at hk
    exact (Option.some.inj hk).symm
  · rw [show fromKey .id3v2 (str "TDAT") = none by decide +kernel] at hk
    cases hk
  · rw [show fromKey .id3v2 (str "TIME") = none by decide +kernel] at hk
    cases hk

theorem date_keyed {id : FrameId} (h : dates.contains id = true) (f : Frame) (g : ItemKey → List TagItem) (hg : ∀ k, ∀ i ∈ g k, i.key = k) :
    ∀ i ∈ (keyed id.asStr f g).items, i.key = .RecordingDate := by
  intro i hi
  unfold keyed at hi
  split at hi
  · rename_i k hk
    rw [hg k i hi, date_key h hk]
  · cases hi

theorem date_items (custom : Rating.Provider) {f : Frame} (h : dates.contains f.id = true) : ∀ i ∈ (splitFrame custom f).items, i.key = .RecordingDate := by
  cases f with
  | leaf fl c =>
    cases c with
    | text t =>
      have h : dates.contains t.id = true := h
      unfold splitFrame
      dsimp only
      have hp : pairItems t.id.asStr t.value = none := by
        unfold pairItems
        rcases dates_str h with e | e | e <;> rw [e] <;> rfl
      have hc : t.id.asStr ≠ str "TCON" := by
        rcases dates_str h with e | e | e <;> rw [e] <;> decide
      rw [hp]
      dsimp only
      rw [if_neg hc]
      refine date_keyed h _ _ fun k i hi => ?_
      obtain ⟨_, _, rfl⟩ := List.mem_map.mp hi
      rfl
    | keyValue kv =>
      have h : dates.contains kv.id = true := h
      unfold splitFrame
      dsimp only
      rw [if_neg (by rcases dates_str h with e | e | e <;> rw [e] <;> decide)]
      intro i hi
      cases hi
    | time t =>
      have h : dates.contains t.id = true := h
      unfold splitFrame
      dsimp only
      split
      · refine date_keyed h _ _ fun k i hi => ?_
        rw [List.mem_singleton.mp hi]
        rfl
      · intro i hi; cases hi
    | url u =>
      have h : dates.contains u.id = true := h
      unfold splitFrame
      dsimp only
      refine date_keyed h _ _ fun k i hi => ?_
      rw [List.mem_singleton.mp hi]
      rfl
    | binary id b => intro i hi; cases hi
    | userText u => exact absurd (show dates.contains (.valid (str "TXXX")) = true from h) (by decide)
    | userUrl u => exact absurd (show dates.contains (.valid (str "WXXX")) = true from h) (by decide)
    | ufid u => exact absurd (show dates.contains (.valid (str "UFID")) = true from h) (by decide)
    | comment u => exact absurd (show dates.contains (.valid (str "COMM")) = true from h) (by decide)
    | lyrics u => exact absurd (show dates.contains (.valid (str "USLT")) = true from h) (by decide)
    | pop u => exact absurd (show dates.contains (.valid (str "POPM")) = true from h) (by decide)
    | _ => intro i hi; cases hi
  | chapter => intro i hi; cases hi
  | toc => intro i hi; cases hi

theorem rest_items (custom : Rating.Provider) (d : Bool) {f : Frame} (h : Rest d f = false) : (splitFrame custom f).items.filter (dateless d) = [] := by
  unfold Rest at h
  rcases Bool.and_eq_false_iff.mp h with h | h
  · rw [cover_items custom (by simpa using h)]; rfl
  · simp only [Bool.not_eq_false', Bool.and_eq_true] at h
    refine List.filter_eq_nil_iff.mpr fun i hi => ?_
    unfold dateless
    rw [date_items custom h.2 i hi, h.1]
    simp

theorem flat_rest (custom : Rating.Provider) (d : Bool) (l : List Frame) : (l.flatMap fun f => (splitFrame custom f).items).filter (dateless d) =
    (((l.filter (Rest d)).map shape).flatMap fun f => (splitFrame custom f).items).filter (dateless d) := by
  induction l with
  | nil => rfl
  | cons f l ih =>
    rw [List.flatMap_cons, List.filter_append, ih]
    cases hr : Rest d f with
    | true => rw [List.filter_cons_of_pos hr, List.map_cons, List.flatMap_cons, List.filter_append, items_shape]
    | false => rw [List.filter_cons_of_neg (by simp [hr]), rest_items custom d hr, List.nil_append]

theorem id3_bare (custom : Rating.Provider) {d : Bool} {t t' : Id3Tag} (h : RId3 d t t') : BareTag d (Opened.ofId3v2 custom t) (Opened.ofId3v2 custom t') := by
  refine ⟨rfl, ?_, ?_⟩
  · show t'.frames.flatMap (fun f => (splitFrame custom f).pictures) = []
    exact List.flatMap_eq_nil_iff.mpr fun f hf => pictures_none custom (h.1.2 f hf)
  · show ((t'.frames.flatMap fun f => (splitFrame custom f).items).filter (dateless d)).Perm ((t.frames.flatMap fun f => (splitFrame custom f).items).filter (dateless d))
    rw [flat_rest custom d t'.frames, flat_rest custom d t.frames]
    exact ((h.1.1).flatMap_right _).filter _

theorem ape_same {t t' : Ape.Tag} (h : RApe t t') : ofApe t' = ofApe t := by
  have e : ∀ l : List Ape.Item, (l.flatMap fun i => (splitItem i).getD []) = (known l).flatMap fun i => (splitItem i).getD [] := by
    intro l
    unfold known
    induction l with
    | nil => rfl
    | cons i l ih =>
      rw [List.flatMap_cons, ih]
      cases hk : fromKey .ape i.key with
      | none =>
        rw [List.filter_cons_of_neg (by simp [hk])]
        unfold splitItem
        rw [hk]
        rfl
      | some k => rw [List.filter_cons_of_pos (by simp [hk]), List.flatMap_cons]
  unfold ofApe splitApe
  dsimp only
  rw [e t'.items, e t.items, show known t'.items = known t.items from h.symm]

theorem bare_self {d : Bool} {t : Tag} (h : t.pictures = []) : BareTag d t t := ⟨rfl, h, .refl _⟩

theorem ape_bare {d : Bool} {t t' : Ape.Tag} (h : RApe t t') : BareTag d (ofApe t) (ofApe t') := by
  rw [ape_same h]
  exact bare_self rfl

theorem vorbis_bare (custom : Rating.Provider) {d : Bool} {t t' : Vorbis.Tag} (h : RVorbis t t') : BareTag d (ofVorbis custom t) (ofVorbis custom t') := by
  cases h
  exact ⟨rfl, rfl, .refl _⟩

/-! ## Lists of tags -/

theorem opt_bare {α : Type} {R : α → α → Prop} {f : α → Tag} {d : Bool} (hf : ∀ a b, R a b → BareTag d (f a) (f b)) {a b : Option α} (h : ROpt R a b) :
    Both (BareTag d) (a.map f).toList (b.map f).toList := by
  cases a <;> cases b
  · exact .nil
  · exact h.elim
  · exact h.elim
  · exact .cons (hf _ _ h) .nil

theorem same_bare {d : Bool} : ∀ {l : List Tag}, (∀ t ∈ l, t.pictures = []) → Both (BareTag d) l l := by
  intro l
  induction l with
  | nil => intro _; exact .nil
  | cons t l ih => intro h; exact .cons (bare_self (h t (by simp))) (ih fun t ht => h t (by simp [ht]))

theorem all₂_append {α β : Type} {R : α → β → Prop} {a c : List α} {b d : List β} (h : Both R a b) (h2 : Both R c d) :
    Both R (a ++ c) (b ++ d) := by
  induction h with
  | nil => exact h2
  | cons h _ ih => exact .cons h ih

theorem v1_pictures (v : Option Id3v1.Tag) : ∀ t ∈ (v.map Convert.ofId3v1).toList, t.pictures = [] := by
  intro t ht
  cases v with
  | none => cases ht
  | some v =>
    rw [List.mem_singleton.mp ht]
    have hi : ∀ (t : Tag) (k : ItemKey) (s : Option Str), (insertOpt t k s).pictures = t.pictures := by
      intro t k s
      cases s with
      | none => rfl
      | some s => unfold insertOpt Tag.insertText Tag.insert; dsimp only; split <;> rfl
    have hp : ∀ (t : Tag) (k : ItemKey) (s : Option Str), (pushOpt t k s).pictures = t.pictures := by
      intro t k s
      cases s <;> rfl
    unfold ofId3v1
    dsimp only
    rw [hi, hp, hi, hi, hi, hi, hi]
    rfl

theorem tagsOf_bare (custom : Rating.Provider) {d : Bool} {i i' : Option Id3Tag} {v v' : Option Id3v1.Tag} {a a' : Option Ape.Tag} (h1 : ROpt (RId3 d) i i')
    (h2 : v = v') (h3 : ROpt RApe a a') : Both (BareTag d) (Opened.tagsOf custom i v a) (Opened.tagsOf custom i' v' a') := by
  cases h2
  exact all₂_append (all₂_append (opt_bare (fun _ _ h => id3_bare custom h) h1) (same_bare (v1_pictures v))) (opt_bare (fun _ _ h => ape_bare h) h3)

theorem mac_bare (custom : Rating.Provider) {d : Bool} {x y : FileTags.TagsOf} (h : RTags d x y) :
    Both (BareTag d) (Opened.macTagsOf custom x) (Opened.macTagsOf custom y) := by
  obtain ⟨h1, h2, h3, -⟩ := h
  unfold Opened.macTagsOf
  rw [h2]
  exact all₂_append (all₂_append (same_bare (v1_pictures _)) (opt_bare (fun _ _ h => id3_bare custom h) h1)) (opt_bare (fun _ _ h => ape_bare h) h3)

/-! ## Files -/

theorem block_rel' (o : Vorbis.Opts) (tags : Bool) (f : Bytes) (pos : Nat) :
    Rel (fun x y => x.ty = y.ty ∧ x.last = y.last ∧ x.stop = y.stop ∧ (x.ty = 4 → x.content = y.content) ∧ (x.ty ≠ 4 → y.content = []))
      (Flac.readBlock f pos fun ty => (ty == 4 && tags) || (ty == 6 && (fullV o).readCoverArt))
      (Flac.readBlock f pos fun ty => (ty == 4 && tags) || (ty == 6 && (bareV o).readCoverArt)) := by
  cases tags with
  | true =>
    simp only [Bool.and_true]
    exact block_rel o f pos
  | false =>
    unfold Flac.readBlock
    refine Rel.same fun hd => ?_
    dsimp only
    simp only [bareV, Bool.and_false, Bool.or_false, Bool.false_eq_true, if_false, Bool.false_or]
    intro b hb
    obtain ⟨c, hc, hb⟩ := bind_ok hb
    cases hb
    refine ⟨_, rfl, rfl, rfl, rfl, fun h => ?_, fun _ => rfl⟩
    have h : (hd.getD 0 0 &&& 0x7F) = 4 := h
    rw [h] at hc
    rw [if_neg (by simp)] at hc
    cases hc
    rfl

theorem flacLoop_rel (o : Vorbis.Opts) (tags : Bool) (f : Bytes) (n : Nat) : ∀ (last : Bool) (pos : Nat) {r r' : Flac.Found}, RFound r r' →
    Rel (fun x y => RFound x.1 y.1 ∧ x.2 = y.2) (Opened.flacLoop (fullV o) tags f n last pos r) (Opened.flacLoop (bareV o) tags f n last pos r') := by
  induction n with
  | zero =>
    intro last pos r r' h
    cases last with
    | true => exact Rel.ok ⟨h, rfl⟩
    | false => exact Rel.error
  | succ n ih =>
    intro last pos r r' h
    cases last with
    | true => exact Rel.ok ⟨h, rfl⟩
    | false =>
      unfold Opened.flacLoop
      refine (block_rel' o tags f pos).bind ?_
      rintro b b' ⟨h1, h2, h3, h4, h5⟩
      refine (step_rel o h h1 h4 h5).bind fun x y hxy => ?_
      rw [h2, h3]
      exact ih _ _ hxy

open Lofty.Opened

/-- What is shown: the properties are the same, and so are the tags but for pictures; there may have been one more tag with nothing but pictures. -/
def RShown (d extra : Bool) (x y : Shown) : Prop :=
  y.2 = x.2 ∧ ∃ core more, x.1 = core ++ more ∧ Both (BareTag d) core y.1 ∧ (more = [] ∨ extra = true ∧ ∃ t, more = [t] ∧ OnlyPictures t)

theorem shown {d extra : Bool} {ts ts' : List Tag} {p : Generic} (h : Both (BareTag d) ts ts') : RShown d extra (ts, p) (ts', p) :=
  ⟨rfl, ts, [], (List.append_nil _).symm, h, .inl rfl⟩

theorem flacTags (custom : Rating.Provider) {d : Bool} {i i' : Option Id3Tag} {m m' : Flac.Found} (hi : ROpt (RId3 d) i i') (hm : RFound m m') (p : Generic) :
    RShown d true (flacTagsOf custom i m, p) (flacTagsOf custom i' m', p) := by
  obtain ⟨c, ps⟩ := m
  obtain ⟨c', ps'⟩ := m'
  obtain ⟨hc, hp⟩ := hm
  have hp : ps' = [] := hp
  have hc : ROpt RVorbis c c' := hc
  subst hp
  have h1 := opt_bare (fun _ _ h => id3_bare custom h) hi
  unfold flacTagsOf
  cases c with
  | none =>
    cases c' with
    | some _ => exact hc.elim
    | none =>
      dsimp only
      cases ps with
      | nil => exact shown (all₂_append h1 .nil)
      | cons q ps =>
        refine ⟨rfl, _, _, rfl, ?_, .inr ⟨rfl, _, rfl, rfl, rfl⟩⟩
        have := all₂_append h1 (R := BareTag d) (c := []) (d := []) .nil
        rwa [List.append_nil] at this
  | some c =>
    cases c' with
    | none => exact hc.elim
    | some c' =>
      have hc : c' = { c with pictures := [] } := hc
      subst hc
      exact shown (all₂_append h1 (.cons (vorbis_bare custom rfl) .nil))

theorem ogg_shown (o : ReadOptions) (w : Wanted) (f : Bytes) (fmt : OggWrite.Format) {d : Bool} :
    Rel (RShown d false) (wholeOgg { o with cover := true } w f fmt) (wholeOgg { o with cover := false } w f fmt) := by
  unfold wholeOgg
  refine Rel.same fun h => ?_
  refine Rel.bind (R := RVorbis) ?_ fun v v' hv => ?_
  · refine Rel.ite (fun _ => ?_) fun _ => Rel.ok rfl
    refine (comments_rel o.comments _ _).bind ?_
    rintro ⟨a, x⟩ ⟨b, y⟩ ⟨h1, -⟩
    exact Rel.ok h1
  · have hb : Both (BareTag d) [ofVorbis o.custom v] [ofVorbis o.custom v'] := .cons (vorbis_bare _ hv) .nil
    refine Rel.ite (fun _ => ?_) fun _ => Rel.ok (shown hb)
    exact Rel.same fun p => Rel.ok (shown hb)

theorem whole_rel (o : ReadOptions) (w : Wanted) (f : Bytes) {ft : FileType} (h : ft ≠ .mp4) :
    Rel (RShown o.implicit (ft == .flac)) (wholeAs { o with cover := true } w f ft) (wholeAs { o with cover := false } w f ft) := by
  have ef : ({ o with cover := true } : ReadOptions).with w = fullF (o.with w) := rfl
  have eb : ({ o with cover := false } : ReadOptions).with w = bareF (o.with w) := rfl
  cases ft with
  | mp4 => exact absurd rfl h
  | aac =>
    show Rel _ (wholeAac _ w f) (wholeAac _ w f)
    unfold wholeAac
    rw [ef, eb]
    refine (aac_rel (o.with w) f).bind fun m m' hm => ?_
    have hb := tagsOf_bare o.custom hm.1 hm.2.1 (a := none) (a' := none) trivial
    dsimp only
    rw [hm.2.2]
    split
    · exact Rel.ok (shown hb)
    · refine (aacFront_rel (o.with w) f _ _ _ (a := none) (a' := none) trivial).bind fun st st' hs => ?_
      rw [hs.2.2]
      split
      · exact Rel.error
      · exact Rel.ok (shown hb)
  | aiff =>
    show Rel _ ((IffFiles.readAiff _ f).map _) ((IffFiles.readAiff _ f).map _)
    rw [ef, eb]
    refine (aiff_rel (o.with w) f).map fun m m' hm => ?_
    rw [hm.1]
    refine shown ?_
    unfold aiffTagsOf
    rw [hm.2.1]
    refine all₂_append (same_bare ?_) (opt_bare (fun _ _ h => id3_bare o.custom h) hm.2.2)
    intro t ht
    split at ht
    · cases ht
    · rw [List.mem_singleton.mp ht]; rfl
  | wav =>
    show Rel _ ((IffFiles.readWav _ f).map _) ((IffFiles.readWav _ f).map _)
    rw [ef, eb]
    refine (wav_rel (o.with w) f).map fun m m' hm => ?_
    rw [hm.1]
    refine shown ?_
    unfold wavTagsOf
    rw [hm.2.1]
    refine all₂_append (same_bare ?_) (opt_bare (fun _ _ h => id3_bare o.custom h) hm.2.2)
    intro t ht
    split at ht
    · cases ht
    · rw [List.mem_singleton.mp ht]; rfl
  | ape =>
    show Rel _ ((FileTags.readMacFile _ f).map _) ((FileTags.readMacFile _ f).map _)
    rw [ef, eb]
    refine Rel.map (R := fun x y => RTags o.implicit x.1 y.1 ∧ x.2 = y.2) ?_ ?_
    · unfold FileTags.readMacFile
      refine (mac_rel (o.with w) f).bind fun m m' hm => ?_
      refine Rel.ite (fun _ => ?_) fun _ => Rel.ok ⟨hm, rfl⟩
      refine Rel.same ?_
      rintro ⟨_, p⟩
      refine (tail_rel (o.with w) f).bind fun t t' ht => ?_
      rw [ht.2.2.2.2, hm.2.2.2]
      exact Rel.same fun q => Rel.ok ⟨hm, rfl⟩
    · rintro ⟨m, p⟩ ⟨m', p'⟩ ⟨hm, hp⟩
      cases hp
      exact shown (mac_bare o.custom hm)
  | wavPack =>
    show Rel _ ((FileTags.readWavPackFile _ f).map _) ((FileTags.readWavPackFile _ f).map _)
    rw [ef, eb]
    refine Rel.map (R := fun x y => RTags o.implicit x.1 y.1 ∧ x.2 = y.2) ?_ ?_
    · unfold FileTags.readWavPackFile
      refine (wavPack_rel (o.with w) f).bind fun m m' hm => ?_
      refine Rel.ite (fun _ => ?_) fun _ => Rel.ok ⟨hm, rfl⟩
      rw [hm.2.2.2]
      exact Rel.same fun q => Rel.ok ⟨hm, rfl⟩
    · rintro ⟨m, p⟩ ⟨m', p'⟩ ⟨hm, hp⟩
      cases hp
      exact shown (mac_bare o.custom hm)
  | mpeg =>
    show Rel _ (wholeMpeg _ w f) (wholeMpeg _ w f)
    unfold wholeMpeg
    rw [ef, eb]
    refine (mpeg_rel (o.with w) f).bind fun m m' hm => ?_
    have hb := tagsOf_bare o.custom hm.1 hm.2.1 hm.2.2.1
    dsimp only
    rw [hm.2.2.2]
    split
    · exact Rel.ok (shown hb)
    · refine (front_rel (o.with w) f _ _ (st := ⟨none, none⟩) (st' := ⟨none, none⟩) ⟨trivial, trivial⟩).bind ?_
      rintro ⟨st, first⟩ ⟨st', first'⟩ ⟨-, h2⟩
      cases h2
      dsimp only
      split
      · exact Rel.error
      · exact Rel.ok (shown hb)
  | mpc =>
    show Rel _ (wholeMpc _ w f) (wholeMpc _ w f)
    unfold wholeMpc
    rw [ef, eb]
    refine (mpc_rel (o.with w) f).bind fun m m' hm => ?_
    have hb := tagsOf_bare o.custom hm.1 hm.2.1 hm.2.2.1
    dsimp only
    rw [hm.2.2.2]
    refine Rel.ite (fun _ => ?_) fun _ => Rel.ok (shown hb)
    refine Rel.same ?_
    rintro ⟨_, p⟩
    exact Rel.same fun q => Rel.ok (shown hb)
  | flac =>
    show Rel _ (wholeFlac _ w f) (wholeFlac _ w f)
    unfold wholeFlac
    rw [ef, eb]
    refine Rel.same ?_
    rintro ⟨r, pos⟩
    refine (contentOf_rel (o.with w) r).bind fun i i' hi => ?_
    refine Rel.same fun si => ?_
    refine Rel.ite (fun _ => Rel.error) fun _ => ?_
    refine (flacLoop_rel o.comments w.tags f _ _ _ (r := ⟨none, []⟩) (r' := ⟨none, []⟩) ⟨trivial, rfl⟩).bind ?_
    rintro ⟨m, stop⟩ ⟨m', stop'⟩ ⟨hm, hs⟩
    cases hs
    refine Rel.ite (fun _ => ?_) fun _ => Rel.ok (flacTags o.custom hi hm _)
    exact Rel.same fun p => Rel.ok (flacTags o.custom hi hm _)
  | opus => exact ogg_shown o w f .opus
  | vorbis => exact ogg_shown o w f .vorbis
  | speex => exact ogg_shown o w f .speex

end Lofty.Covers
