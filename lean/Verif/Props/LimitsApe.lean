import Verif.Model.LimitsApe
import Verif.Lemmas.Limits
import Verif.Props.TagFiles
/-!
# C100: the allocation limit and APE tags
-/
namespace Lofty.LimitsApe
open Lofty.Ape Lofty.Limits

theorem parseItem_or (limit : Nat) (r : Bytes) (key : Str) (flags size : Nat) :
    parseItem limit r key flags size = Ape.parseItem r key flags size ∨ parseItem limit r key flags size = .error .alloc :=
  tryVec_or _ _ (.inl rfl)

theorem readItems_or (limit : Nat) (cover : Bool) (n : Nat) : ∀ (rem : Nat) (r : Bytes) (acc : List Item),
    readItems limit cover n rem r acc = Ape.readItems cover n rem r acc ∨ readItems limit cover n rem r acc = .error .alloc := by
  induction n with
  | zero => intro rem r acc; exact .inl rfl
  | succ n ih =>
    intro rem r acc
    unfold readItems Ape.readItems
    split
    · exact .inl rfl
    refine bind_or _ _ _ fun ⟨size, r⟩ => ?_
    dsimp only
    split
    · exact .inl rfl
    refine bind_or _ _ _ fun ⟨flags, r⟩ => ?_
    dsimp only
    refine bind_or _ _ _ fun ⟨kb, r⟩ => ?_
    dsimp only
    refine bind_or _ _ _ fun key => ?_
    split
    · exact ih _ _ _
    · rcases parseItem_or limit r key flags size with e | e
      · rw [e]
        exact bind_or _ _ _ fun ⟨i, r⟩ => ih _ _ _
      · rw [e]; exact .inr rfl

/-- C100: with a limit APE tags are read as without, or refused because of it. -/
theorem tag_or_refused (limit : Nat) (o : Opts) (f : Bytes) (pos : Nat) (footer : Bool) :
    readTag limit o f pos footer = Ape.readTag o f pos footer ∨ readTag limit o f pos footer = .error .alloc := by
  unfold readTag Ape.readTag
  refine bind_or _ _ _ fun p => ?_
  split
  · exact .inl rfl
  refine bind_or _ _ _ fun ⟨h, next⟩ => ?_
  dsimp only
  split
  · rcases readItems_or limit o.cover h.count h.size (f.drop next) [] with e | e
    · rw [e]; exact .inl rfl
    · rw [e]; exact .inr rfl
  · exact .inl rfl

/-- C100: saving an APE tag does what it does without the limit, or is refused because of it. -/
theorem save_or_refused (limit : Nat) (o : Opts) (f : Bytes) (t : Tag) :
    writeTo limit o f t = Ape.writeTo o f t ∨ writeTo limit o f t = .error .alloc := by
  have h : findExisting limit o f = Ape.findExisting o f ∨ findExisting limit o f = .error .alloc := by
    unfold findExisting Ape.findExisting
    refine bind_or _ _ _ fun ⟨_, p⟩ => ?_
    dsimp only
    refine bind_or _ _ _ fun _ => ?_
    rcases tag_or_refused limit o f (p + 8) false with e | e
    · rw [e]
      refine bind_or _ _ _ fun head => bind_or _ _ _ fun ⟨_, _, q⟩ => ?_
      dsimp only
      split
      · exact .inl rfl
      split
      · exact .inl rfl
      · rcases tag_or_refused limit o f (q - 32) true with e | e
        · rw [e]; exact .inl rfl
        · rw [e]; exact .inr rfl
    · rw [e]; exact .inr rfl
  unfold writeTo Ape.writeTo
  rcases h with e | e
  · rw [e]; exact .inl rfl
  · rw [e]; exact .inr rfl

/-- The values that are read are no longer than `limit`: those of all items, or of all but the pictures if these are not to be read. -/
def Within (limit : Nat) (cover : Bool) (l : List Item) : Prop :=
  ∀ i ∈ l, (cover = true ∨ i.key ∉ Picture.apePictureTypes) → i.value.bytes.length ≤ limit

instance (limit : Nat) (cover : Bool) (l : List Item) : Decidable (Within limit cover l) := by unfold Within; infer_instance

theorem readItems_written {limit : Nat} (cover : Bool) (l : List Item) : ∀ (rem : Nat) (rest : Bytes) (acc : List Item),
    (∀ i ∈ l, Kept i) → Distinct (acc ++ l) → (writeItems l).length ≤ rem → rem < 2 ^ 32 →
    readItems limit cover l.length rem (writeItems l ++ rest) acc
      = if Within limit cover l then .ok (acc ++ l.filter fun i => cover || !Picture.apePictureTypes.contains i.key) else .error .alloc := by
  induction l with
  | nil => intro rem rest acc _ _ _ _; rw [if_pos (show Within limit cover [] from fun i hi => by cases hi)]; simp [readItems]
  | cons i l ih =>
    intro rem rest acc hk hd hlen hrem
    have hki := hk i (by simp)
    have hkl : ∀ j ∈ l, Kept j := fun j hj => hk j (by simp [hj])
    have hw := Item.write_length i
    rw [writeItems_cons, List.length_append] at hlen
    have h2 := validKey_len hki.1
    have hsz : i.value.bytes.length < 2 ^ 32 := by omega
    rw [List.length_cons, readItems, if_neg (by omega), writeItems_cons]
    simp only [Item.write, Nat.mod_eq_of_lt hsz, List.append_assoc, List.cons_append]
    rw [readLE_append _ (by omega), ok_bind]
    simp only
    rw [if_neg (by omega), readLE_append _ (by have := flags_lt i; omega), ok_bind]
    simp only
    rw [readKey_append _ _ (validKey_zero hki.1), ok_bind]
    simp only
    rw [Vorbis.utf8Decode_utf8 _ (validKey_getLast hki.1), ok_bind]
    have hacc : ∀ j ∈ acc, eqIc j.key i.key = false := by
      intro j hj
      exact (List.pairwise_append.mp hd).2.2 j hj i (by simp)
    cases hc : Picture.apePictureTypes.contains i.key && !cover with
    | true =>
      rw [if_pos rfl, List.drop_left' rfl, ih _ _ _ hkl ?_ (by omega) (by omega)]
      · simp only [Bool.and_eq_true, Bool.not_eq_true'] at hc
        rw [List.filter_cons_of_neg (by simp only [hc.1, hc.2]; decide)]
        refine if_congr ⟨fun h j hj hjc => ?_, fun h j hj => h j (List.mem_cons_of_mem _ hj)⟩ rfl rfl
        rcases List.mem_cons.mp hj with rfl | hj
        · rcases hjc with hjc | hjc
          · rw [hc.2] at hjc; cases hjc
          · exact absurd (by simpa using hc.1) hjc
        · exact h j hj hjc
      · unfold Distinct at *
        exact hd.sublist (by simp)
    | false =>
      rw [if_neg (by simp)]
      have hread : cover = true ∨ i.key ∉ Picture.apePictureTypes := by
        cases cover
        · exact .inr (by simpa using hc)
        · exact .inl rfl
      unfold parseItem
      by_cases hv : limit < i.value.bytes.length
      · rw [tryVec_gt hv, error_bind, error_bind, if_neg (fun h => by have := h i (by simp) hread; omega)]
      rw [tryVec_le (by omega), ok_bind, parseItem_rt hki, ok_bind]
      simp only
      rw [insert_new _ _ hacc, ih _ _ _ hkl (by simpa using hd) (by omega) (by omega)]
      rw [List.filter_cons_of_pos]
      · rw [List.append_assoc, List.singleton_append]
        refine if_congr ⟨fun h j hj hjc => ?_, fun h j hj => h j (List.mem_cons_of_mem _ hj)⟩ rfl rfl
        rcases List.mem_cons.mp hj with rfl | hj
        · omega
        · exact h j hj hjc
      · cases cover
        · simpa using hc
        · rfl

/-- **C100, APE tags.** A tag that was saved is read if the values of its items are within the limit; otherwise it is refused. -/
theorem tag_limited {limit : Nat} {t : Tag} {b : Bytes} (hg : Good t) (h : createTag t = .ok b) (cover : Bool) (pre post : Bytes) :
    readTag limit ⟨true, cover⟩ (pre ++ (b ++ post)) (pre.length + b.length - 32) true =
      if Within limit cover t.items then .ok (some ⟨false, t.items.filter fun i => cover || !Picture.apePictureTypes.contains i.key⟩,
        some ⟨min b.length (2 ^ 32 - 1), t.items.length⟩)
      else .error .alloc := by
  obtain ⟨hs, f1, f2, l1, l2, hb, -⟩ := createTag_ok hg.nonempty h
  have hcount := writeItems_count t.items
  have hrt := fun r hr1 hr2 rest => readItems_written (limit := limit) cover t.items r rest [] hg.kept (by simpa using hg.distinct) hr1 hr2
  simp only [List.nil_append] at hrt
  generalize hbody : writeItems t.items = body at *
  have hbl : b.length = body.length + 64 := by
    rw [hb]; simp [headerBytes_length]; omega
  have e : pre ++ (b ++ post) = (pre ++ (headerBytes (body.length + 32) t.items.length f1 ++ body)) ++
      (headerBytes (body.length + 32) t.items.length f2 ++ post) := by rw [hb]; simp
  have ep : (pre ++ (headerBytes (body.length + 32) t.items.length f1 ++ body)).length = pre.length + b.length - 32 := by
    simp [headerBytes_length, hbl]; omega
  have hR := readHeader_rt (pre ++ (headerBytes (body.length + 32) t.items.length f1 ++ body)) post body t.items.length f2 true
    hs (by omega) (by intro _; simp only [List.length_append]; omega) (by
      simp only [List.length_append, headerBytes_length]; omega)
  rw [e, ← ep]
  unfold readTag
  have hP : readAt (pre ++ (headerBytes (body.length + 32) t.items.length f1 ++ body) ++ (headerBytes (body.length + 32)
      t.items.length f2 ++ post)) (pre ++ (headerBytes (body.length + 32) t.items.length f1 ++ body)).length 8 = .ok preamble := by
    simp only [headerBytes, List.append_assoc (as := preamble)]
    exact readAt_append _ preamble _ 8 (by decide)
  rw [hP, ok_bind, if_neg (by simp), hR, ok_bind]
  simp only [if_true]
  have hd : (pre ++ (headerBytes (body.length + 32) t.items.length f1 ++ body) ++ (headerBytes (body.length + 32)
      t.items.length f2 ++ post)).drop ((pre ++ (headerBytes (body.length + 32) t.items.length f1 ++ body)).length - body.length)
      = body ++ (headerBytes (body.length + 32) t.items.length f2 ++ post) := by
    have : (pre ++ (headerBytes (body.length + 32) t.items.length f1 ++ body)).length - body.length
        = (pre ++ headerBytes (body.length + 32) t.items.length f1).length := by simp only [List.length_append]; omega
    rw [this]
    have e2 : pre ++ (headerBytes (body.length + 32) t.items.length f1 ++ body) ++ (headerBytes (body.length + 32) t.items.length f2 ++ post)
      = (pre ++ headerBytes (body.length + 32) t.items.length f1) ++ (body ++ (headerBytes (body.length + 32) t.items.length f2 ++ post)) := by
      simp
    rw [e2, List.drop_left' rfl]
  rw [hd, hrt _ (by omega) (by omega), hbl]
  split <;> rfl

/-- **C100, disagreement in general.** A tag with an item over the limit, saved to a file, can neither be replaced nor removed: whatever tag is
saved to the file afterwards, and be it an empty one, is refused. -/
theorem stuck {limit : Nat} (cover : Bool) (lead audio old v1 : Bytes) (t0 : Tag)
    (hlead : Leading lead (audio ++ (old ++ v1))) (hv : Trailing (lead ++ (audio ++ old)) v1)
    (hlen : 16 ≤ audio.length) (hhead : (audio.drop 8).take 8 ≠ ascii "APETAGEX")
    (h0 : Good t0) (hold : createTag t0 = .ok old) (hover : ¬ Within limit cover t0.items) (t : Tag) :
    writeTo limit ⟨true, cover⟩ (lead ++ (audio ++ (old ++ v1))) t = .error .alloc := by
  obtain ⟨r, hr⟩ := hlead
  obtain ⟨b, hb⟩ := find_trailing hv
  have hlo : 64 ≤ old.length := by
    obtain ⟨body, h1, -⟩ := createTag_layout h0.nonempty hold
    omega
  have hfoot := tag_limited (limit := limit) h0 hold cover (lead ++ audio) v1
  rw [if_neg hover] at hfoot
  simp only [List.append_assoc, List.length_append] at hfoot
  have ef : lead ++ (audio ++ old) ++ v1 = lead ++ (audio ++ (old ++ v1)) := by simp
  rw [ef] at hb
  have el : (lead ++ (audio ++ old)).length = lead.length + audio.length + old.length := by
    simp only [List.length_append]; omega
  rw [el] at hb
  generalize hF : lead ++ (audio ++ (old ++ v1)) = F at *
  have hFl : F.length = lead.length + audio.length + old.length + v1.length := by
    rw [← hF]; simp only [List.length_append]; omega
  have hh : readTag limit ⟨true, cover⟩ F (lead.length + 8) false = .ok (none, none) := by
    unfold readTag readAt
    rw [if_pos (by omega), ok_bind]
    refine if_pos ?_
    rw [← hF, ← List.drop_drop, List.drop_left' rfl, List.drop_append_of_le_length (by omega),
      List.take_append_of_le_length (by simp; omega)]
    exact hhead
  unfold writeTo findExisting
  rw [hr, ok_bind]
  simp only
  obtain ⟨y, hy⟩ : ∃ y, readAt F lead.length 8 = .ok y := ⟨_, by unfold readAt; rw [if_pos (by omega)]⟩
  rw [hy, ok_bind, hh, ok_bind, hb, ok_bind]
  simp only
  rw [if_neg (by omega), if_neg (by omega), hfoot]
  rfl

/-- C100: if the items of the tag in the file are within the limit, saving is as without it. -/
theorem not_stuck {limit : Nat} (cover : Bool) (lead audio old v1 new : Bytes) (t t0 : Tag)
    (hlead : Leading lead (audio ++ (old ++ v1))) (hv : Trailing (lead ++ (audio ++ old)) v1)
    (hlen : 16 ≤ audio.length) (hhead : (audio.drop 8).take 8 ≠ ascii "APETAGEX")
    (h0 : Good t0) (hold : createTag t0 = .ok old) (hsize : old.length < 2 ^ 32) (hin : Within limit cover t0.items)
    (hnew : createTag t = .ok new) :
    writeTo limit ⟨true, cover⟩ (lead ++ (audio ++ (old ++ v1))) t = .ok (lead ++ (audio ++ (new ++ v1))) := by
  have hw := writeTo_tagged ⟨true, cover⟩ rfl lead audio old v1 new t t0 hlead hv hlen hhead h0 hold hsize hnew
  rw [← hw]
  obtain ⟨r, hr⟩ := hlead
  obtain ⟨b, hb⟩ := find_trailing hv
  have hlo : 64 ≤ old.length := by
    obtain ⟨body, h1, -⟩ := createTag_layout h0.nonempty hold
    omega
  have hfoot := tag_limited (limit := limit) h0 hold cover (lead ++ audio) v1
  rw [if_pos hin, ← (tag_rt h0 hold cover (lead ++ audio) v1).1] at hfoot
  simp only [List.append_assoc, List.length_append] at hfoot
  have ef : lead ++ (audio ++ old) ++ v1 = lead ++ (audio ++ (old ++ v1)) := by simp
  rw [ef] at hb
  have el : (lead ++ (audio ++ old)).length = lead.length + audio.length + old.length := by
    simp only [List.length_append]; omega
  rw [el] at hb
  generalize hF : lead ++ (audio ++ (old ++ v1)) = F at *
  have hFl : F.length = lead.length + audio.length + old.length + v1.length := by
    rw [← hF]; simp only [List.length_append]; omega
  have hp : (F.drop (lead.length + 8)).take 8 ≠ ascii "APETAGEX" := by
    rw [← hF, ← List.drop_drop, List.drop_left' rfl, List.drop_append_of_le_length (by omega),
      List.take_append_of_le_length (by simp; omega)]
    exact hhead
  have hh : readTag limit ⟨true, cover⟩ F (lead.length + 8) false = Ape.readTag ⟨true, cover⟩ F (lead.length + 8) false := by
    rw [readTag_none (by omega) hp]
    unfold readTag readAt
    rw [if_pos (by omega), ok_bind]
    exact if_pos hp
  unfold writeTo Ape.writeTo findExisting Ape.findExisting
  rw [hr, ok_bind, ok_bind]
  simp only
  rw [hh, hb]
  simp only [ok_bind]
  rw [hfoot]

/-! ## Cases that meet the hypotheses -/

/-- The tag that is saved: a title of six bytes. -/
def title : Tag := ⟨false, [⟨false, str "Title", .text (str "second")⟩]⟩

theorem title_good : Good title := by
  refine ⟨by decide, ?_, by unfold Distinct; decide⟩
  intro i hi
  obtain rfl : i = _ := by simpa [title] using hi
  exact ⟨by decide, by decide⟩

/-- **Saved once, stuck forever**: with a limit of five bytes the title is saved without an error; the tag is then refused, and so is every
further save, also that of an empty tag.  With six bytes everything works. -/
theorem saved_stuck : ∃ b, createTag title = .ok b ∧ writeTo 5 {} (someAudio ++ someV1) title = .ok (someAudio ++ (b ++ someV1)) ∧
    readTag 5 {} (someAudio ++ (b ++ someV1)) (someAudio.length + b.length - 32) true = .error .alloc ∧
    (∀ t, writeTo 5 {} (someAudio ++ (b ++ someV1)) t = .error .alloc) ∧
    writeTo 6 {} (someAudio ++ (b ++ someV1)) ⟨false, []⟩ = .ok (someAudio ++ someV1) := by
  obtain ⟨b, hb⟩ : ∃ b, createTag title = .ok b := ((createTag_total title).2 (by decide)).mpr (by decide)
  have hbv : (createTag title).toOption.getD [] = b := by rw [hb]; rfl
  have hn : (createTag title).toOption.getD [] ≠ [] ∧ ((createTag title).toOption.getD []).length < 1000 ∧
    writeTo 5 {} (someAudio ++ someV1) title = .ok (someAudio ++ ((createTag title).toOption.getD [] ++ someV1)) ∧
    Id3v2.find (someAudio ++ ((createTag title).toOption.getD [] ++ someV1)) 0 false none = .ok (none, 0) := by decide +kernel
  rw [hbv] at hn
  have hlead : Leading [] (someAudio ++ (b ++ someV1)) := ⟨none, hn.2.2.2⟩
  have hv : Trailing ([] ++ (someAudio ++ b)) someV1 := .tag (by decide +kernel) (by decide +kernel)
  refine ⟨b, hb, hn.2.2.1, (tag_limited title_good hb true someAudio someV1).trans (if_neg (by decide)),
    fun t => stuck true [] someAudio b someV1 title hlead hv (by decide) (by decide) title_good hb (by decide) t, ?_⟩
  exact not_stuck true [] someAudio b someV1 [] ⟨false, []⟩ title hlead hv (by decide) (by decide) title_good hb (by omega) (by decide) rfl

end Lofty.LimitsApe
