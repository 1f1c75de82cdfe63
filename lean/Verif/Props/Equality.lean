import Verif.Lemmas.Equality
import Verif.Props.Order
import Verif.Model.ConvertIlst
/-! # C89: when two tags compare as equal -/
namespace Lofty

namespace Id3v2

/-- **What `==` of ID3v2 tags says**: the same flags and version, and frames that are the same one by one; what the frames
*hold* is compared only for frames that nothing but their contents identifies. -/
theorem equal_iff (a b : V2Tag) :
    a.eq b = true ↔ a.flags = b.flags ∧ a.version = b.version ∧ Alike a.frames b.frames := by
  unfold V2Tag.eq
  rw [Bool.and_eq_true, Bool.and_eq_true, decide_eq_true_eq, decide_eq_true_eq, sameFrames_iff, and_assoc]

theorem alike_refl (l : List Frame) : Alike l l := ⟨rfl, fun i a b ha hb => by
  rw [ha] at hb; cases hb; exact same_equivalence.refl a⟩

theorem alike_symm {l m : List Frame} (h : Alike l m) : Alike m l :=
  ⟨h.1.symm, fun i a b ha hb => same_symm (h.2 i b a hb ha)⟩

theorem alike_trans {l m n : List Frame} (h : Alike l m) (h' : Alike m n) : Alike l n := by
  refine ⟨h.1.trans h'.1, fun i a b ha hb => ?_⟩
  rcases like_get (alike_like.mp h) i with ⟨h1, -⟩ | ⟨x, y, h1, h2, h3⟩
  · rw [h1] at ha; cases ha
  · rw [h1] at ha; cases ha
    exact same_equivalence.trans h3 (h'.2 i y b h2 hb)

/-- `==` is an equivalence. -/
theorem equality : Equivalence fun a b : V2Tag => a.eq b = true where
  refl a := (equal_iff a a).mpr ⟨rfl, rfl, alike_refl _⟩
  symm {a b} h := by
    obtain ⟨h1, h2, h3⟩ := (equal_iff a b).mp h
    exact (equal_iff b a).mpr ⟨h1.symm, h2.symm, alike_symm h3⟩
  trans {a b c} h h' := by
    obtain ⟨h1, h2, h3⟩ := (equal_iff a b).mp h
    obtain ⟨g1, g2, g3⟩ := (equal_iff b c).mp h'
    exact (equal_iff a c).mpr ⟨h1.trans g1, h2.trans g2, alike_trans h3 g3⟩

theorem alike_insert {l m : List Frame} (h : Alike l m) {f g : Frame} (hf : Same f g) :
    Alike (insert l f).2 (insert m g).2 := by
  have hid := same_id hf
  unfold insert
  rw [hid]
  split
  · refine like_append (like_drainFilter (fun a b hab => by rw [same_id hab]) h) (like_cons.mpr ⟨hf, like_nil⟩)
  · refine like_append (alike_takeFirst (fun a b hab => ?_) h) (like_cons.mpr ⟨hf, like_nil⟩)
    rw [Bool.eq_iff_iff, sameFrame_iff, sameFrame_iff]
    exact ⟨fun x => same_equivalence.trans (same_symm hab) (same_equivalence.trans x hf),
      fun x => same_equivalence.trans hab (same_equivalence.trans x (same_symm hf))⟩

theorem alike_op {l m : List Frame} (h : Alike l m) {o p : ListOp} (ho : SameOp o p) : Alike (o.run l) (p.run m) := by
  cases ho with
  | insert hf => exact alike_insert h hf
  | remove id => exact like_drainFilter (fun a b hab => by rw [same_id hab]) h
  | insertUserText d c c' => exact alike_insert h rfl
  | removeUserText d => exact alike_takeFirst (fun a b hab => same_userText hab d) h
  | insertPicture p =>
    show Alike (Id3v2.insertPicture l p).2 (Id3v2.insertPicture m p).2
    unfold Id3v2.insertPicture
    simp only
    split
    · exact like_append (alike_takeFirst (fun a b hab => by rw [same_pic hab]) h) (like_cons.mpr ⟨same_equivalence.refl _, like_nil⟩)
    · exact like_append h (like_cons.mpr ⟨same_equivalence.refl _, like_nil⟩)
  | removePictureType t => exact like_filter (fun a b hab => by rw [same_pic hab]) h
  | retain p hp => exact like_filter hp h
  | takeFirst id => exact alike_takeFirst (fun a b hab => by rw [same_id hab]) h
  | clear => exact like_nil

/-- **Equal tags stay equal** under every history of edits that treats the two alike, even if what is inserted differs in its
contents. -/
theorem equal_history {a b : V2Tag} (h : a.eq b = true) {os ps : List ListOp} (ho : SameOps os ps) :
    V2Tag.eq { a with frames := os.foldl ListOp.run a.frames } { b with frames := ps.foldl ListOp.run b.frames } = true := by
  obtain ⟨h1, h2, h3⟩ := (equal_iff a b).mp h
  refine (equal_iff _ _).mpr ⟨h1, h2, ?_⟩
  simp only
  clear h
  generalize a.frames = l at h3
  generalize b.frames = m at h3
  induction ho generalizing l m with
  | nil => exact h3
  | cons h _ ih => exact ih _ _ (alike_op h3 h)

/-- **Equal tags have the same frame ids** in the same order. -/
theorem equal_ids {a b : V2Tag} (h : a.eq b = true) : a.frames.map Frame.id = b.frames.map Frame.id := by
  obtain ⟨-, -, h3⟩ := (equal_iff a b).mp h
  refine List.ext_getElem? fun i => ?_
  rw [List.getElem?_map, List.getElem?_map]
  rcases like_get (alike_like.mp h3) i with ⟨h1, h2⟩ | ⟨x, y, h1, h2, h3⟩
  · rw [h1, h2]
  · rw [h1, h2]; simp [same_id h3]

/-- **Equal tags are identical** if they consist of pictures, people lists, owners, event timings, private frames, dates and
unknown frames.  Missing because the code does otherwise: all other frames (`titles_ignored`, `contents_ignored`). -/
theorem equal_identical_partial {a b : V2Tag} (h : a.eq b = true) (w : ∀ f ∈ a.frames, Whole f) : a = b := by
  obtain ⟨h1, h2, h3⟩ := (equal_iff a b).mp h
  have : a.frames = b.frames := List.ext_getElem? fun i => by
    rcases like_get (alike_like.mp h3) i with ⟨g1, g2⟩ | ⟨x, y, g1, g2, g3⟩
    · rw [g1, g2]
    · rw [g1, g2, whole_eq g3 (w x (List.mem_of_getElem? g1))]
  cases a; cases b; simp_all

/-- **Tags of texts with equal names are equal whatever they say**: replacing the text of any number of text frames yields a tag
that compares as equal. -/
theorem titles_ignored (a : V2Tag) (g : Str → Str) :
    V2Tag.eq a { a with frames := a.frames.map fun
      | .leaf fl (.text x) => .leaf fl (.text { x with value := g x.value })
      | .leaf fl (.comment x) => .leaf fl (.comment { x with content := g x.content })
      | f => f } = true := by
  refine (equal_iff _ _).mpr ⟨rfl, rfl, by simp, fun i x y hx hy => ?_⟩
  simp only [List.getElem?_map, hx, Option.map_some, Option.some.injEq] at hy
  subst hy
  split
  · exact rfl
  · exact ⟨rfl, rfl⟩
  · exact same_equivalence.refl x

/-- A tag with one frame. -/
def exTag (f : Frame) : V2Tag := ⟨⟨false, false, false, false, none⟩, .v4, [f]⟩

/-- Two tags that compare as equal although their titles differ, and chapters of other times and contents. -/
theorem contents_ignored :
    V2Tag.eq (exTag (.leaf {} (.text ⟨.valid (str "TIT2"), .utf8, str "a"⟩)))
      (exTag (.leaf {} (.text ⟨.valid (str "TIT2"), .utf8, str "b"⟩))) = true ∧
    getText (exTag (.leaf {} (.text ⟨.valid (str "TIT2"), .utf8, str "a"⟩))).frames (.valid (str "TIT2")) = some (str "a") ∧
    getText (exTag (.leaf {} (.text ⟨.valid (str "TIT2"), .utf8, str "b"⟩))).frames (.valid (str "TIT2")) = some (str "b") ∧
    V2Tag.eq (exTag (.chapter {} (str "c") (0, 10) (0, 0) []))
      (exTag (.chapter {} (str "c") (5, 7) (0, 0) [.leaf {} (.text ⟨.valid (str "TIT2"), .utf8, str "b"⟩)])) = true := by
  decide

/-- The same frames in another order make a tag that is not equal. -/
theorem order_matters :
    sameFrames [.leaf {} (.text ⟨.valid (str "TIT2"), .utf8, str "a"⟩), .leaf {} (.text ⟨.valid (str "TPE1"), .utf8, str "b"⟩)]
      [.leaf {} (.text ⟨.valid (str "TPE1"), .utf8, str "b"⟩), .leaf {} (.text ⟨.valid (str "TIT2"), .utf8, str "a"⟩)] = false := by
  decide

/-- Private frames and dates are compared in full. -/
example : (∀ f ∈ (exTag (.leaf {} (.priv ⟨str "o", [1]⟩))).frames, Whole f) ∧
    V2Tag.eq (exTag (.leaf {} (.priv ⟨str "o", [1]⟩))) (exTag (.leaf {} (.priv ⟨str "o", [2]⟩))) = false := by
  refine ⟨fun f hf => ?_, by decide⟩
  rw [List.mem_singleton.mp hf]; trivial

/-- Two histories that insert different titles. -/
example : SameOps [.insert (.leaf {} (.text ⟨.valid (str "TIT2"), .utf8, str "a"⟩)), .remove (.valid (str "TPE1")),
      .insertUserText (str "x") (str "1")]
    [.insert (.leaf {} (.text ⟨.valid (str "TIT2"), .latin1, str "b"⟩)), .remove (.valid (str "TPE1")),
      .insertUserText (str "x") (str "2")] :=
  .cons (.insert rfl) (.cons (.remove _) (.cons (.insertUserText _ _ _) .nil))

end Id3v2

namespace Ilst

theorem tidy_parseData {r r' : Mp4.Rd} {mode : Mode} {t t' : Tag} {a : Mp4.Info} (ht : Tidy t)
    (h : parseData r mode t a = .ok (t', r')) : Tidy t' := by
  unfold parseData at h
  obtain ⟨⟨ds, r1⟩, -, h⟩ := bind_ok h
  simp only at h
  split at h
  · split at h
    · next hs => cases h; exact tidy_append ht (tidy_one (tidy_ofList hs))
    · cases h; exact ht
  · split at h
    · cases h
    · cases h; exact ht

theorem tidy_handleCovr {r r' : Mp4.Rd} {mode : Mode} {t t' : Tag} {a : Mp4.Info} (ht : Tidy t)
    (h : handleCovr r mode t a = .ok (t', r')) : Tidy t' := by
  unfold handleCovr at h
  obtain ⟨⟨ds, r1⟩, -, h⟩ := bind_ok h
  simp only at h
  split at h
  · split at h
    · cases h
    · cases h; exact ht
  · split at h
    · next hs => cases h; exact tidy_append ht (tidy_one (tidy_ofList hs))
    · cases h; exact ht

theorem tidy_step {o : Opts} {r r' : Mp4.Rd} {a : Mp4.Info} {t t' : Tag} {g g' : List Data} (ht : Tidy t)
    (h : ilstStep o r a t g = .ok (t', g', r')) : Tidy t' := by
  unfold ilstStep at h
  split at h
  · obtain ⟨⟨u, r1⟩, h1, h⟩ := bind_ok h
    cases h
    exact tidy_parseData ht h1
  · split at h
    · obtain ⟨r1, h1, h⟩ := bind_ok h
      cases h; exact ht
    · split at h
      · split at h
        · obtain ⟨⟨u, r1⟩, h1, h⟩ := bind_ok h
          cases h
          exact tidy_handleCovr ht h1
        · obtain ⟨r1, h1, h⟩ := bind_ok h
          cases h; exact ht
      · split at h
        · obtain ⟨⟨u, r1⟩, h1, h⟩ := bind_ok h
          simp only at h
          split at h
          · cases h; exact ht
          · cases h; exact tidy_addAtom ht _ _
        · split at h
          · obtain ⟨⟨u, r1⟩, h1, h⟩ := bind_ok h
            cases h; exact tidy_addAtom ht _ _
          · split at h
            · obtain ⟨⟨u, r1⟩, h1, h⟩ := bind_ok h
              simp only at h
              split at h
              · cases h; exact ht
              · cases h; exact tidy_append ht (tidy_one (tidy_single _ _))
            · obtain ⟨⟨u, r1⟩, h1, h⟩ := bind_ok h
              cases h
              exact tidy_parseData ht h1

theorem tidy_loop {o : Opts} : ∀ (k : Nat) {r : Mp4.Rd} {t t' : Tag} {g g' : List Data}, Tidy t →
    ilstLoop o k r t g = .ok (t', g') → Tidy t'
  | 0, _, _, _, _, _, _, h => by cases h
  | k + 1, r, t, t', g, g', ht, h => by
    rw [ilstLoop] at h
    split at h
    · cases h
    · cases h; exact ht
    · cases h; exact ht
    · obtain ⟨⟨u, g1, r1⟩, h1, h⟩ := bind_ok h
      exact tidy_loop k (tidy_step ht h1) h

/-- Every MP4 tag that is read, from whatever bytes, has its values as users would put them. -/
theorem tidy_read {o : Opts} {content : Bytes} {t : Tag} (h : parse o content = .ok t) : Tidy t := by
  unfold parse at h
  obtain ⟨⟨u, g⟩, h1, h⟩ := bind_ok h
  have hu := tidy_loop _ (fun _ ha => by simp at ha) h1
  simp only at h
  split at h
  · split at h
    · cases h; exact hu
    · cases h; exact tidy_addAtom hu _ _
  · cases h; exact hu

theorem tidy_op {t : Tag} (ht : Tidy t) {op : Op} (ho : op.Tidy) : Tidy (op.run t) := by
  cases op with
  | insert a => exact tidy_insert ht ho
  | replace a => exact tidy_replace ht ho
  | remove i => exact tidy_remove ht i
  | setText i s => exact tidy_replace ht (tidy_single _ _)
  | setFlag i v =>
    show Tidy (setFlag t i v)
    unfold setFlag
    split
    · exact tidy_remove ht i
    · exact tidy_replace ht (tidy_single _ _)
  | setNumber i v => exact tidy_replace ht (tidy_single _ _)
  | setTotal i v => exact tidy_replace ht (tidy_single _ _)
  | removeTotal i =>
    show Tidy (removeTotal t i)
    unfold removeTotal
    simp only
    split
    · exact tidy_replace (tidy_remove ht i) (tidy_single _ _)
    · exact tidy_remove ht i
  | setRating r => exact tidy_replace ht (tidy_single _ _)
  | insertPicture p => exact tidy_insertPicture ht p
  | removePictures => exact fun a ha => ht a (List.mem_filter.mp ha).1

/-- Editing keeps it so. -/
theorem tidy_history (ops : List Op) {t : Tag} (ht : Tidy t) (ho : ∀ op ∈ ops, op.Tidy) : Tidy (ops.foldl Op.run t) := by
  induction ops generalizing t with
  | nil => exact ht
  | cons op ops ih => exact ih (tidy_op ht (ho op (by simp))) fun x hx => ho x (by simp [hx])

/-- **MP4 tags compare as equal exactly if they have the same contents**, for tags whose atoms are as users make them.  Missing
because the code does otherwise: what remains of a tag after `split_tag` (`remainder_unequal`). -/
theorem equal_iff_partial {t u : Tag} (ht : Tidy t) (hu : Tidy u) : eqTag t u = true ↔ contents t = contents u := by
  rw [eqTag_iff]
  refine ⟨fun h => by rw [h], fun h => ?_⟩
  induction t generalizing u with
  | nil => cases u with
    | nil => rfl
    | cons => simp [contents] at h
  | cons a t ih => cases u with
    | nil => simp [contents] at h
    | cons b u =>
      simp only [contents, List.map_cons, List.cons.injEq, Prod.mk.injEq] at h
      rw [tidy_toList (ht a (by simp)) (hu b (by simp)) h.1.1 h.1.2,
        ih (fun x hx => ht x (by simp [hx])) (fun x hx => hu x (by simp [hx])) h.2]

/-- **Tags that were read, from whatever bytes, and edited, in whatever way, compare as equal exactly if they have the same
contents.** -/
theorem edited_equal_iff_partial {o p : Opts} {b c : Bytes} {t u : Tag} (ht : parse o b = .ok t) (hu : parse p c = .ok u)
    {ops ops' : List Op} (ho : ∀ op ∈ ops, op.Tidy) (ho' : ∀ op ∈ ops', op.Tidy) :
    eqTag (ops.foldl Op.run t) (ops'.foldl Op.run u) = true ↔ contents (ops.foldl Op.run t) = contents (ops'.foldl Op.run u) :=
  equal_iff_partial (tidy_history ops (tidy_read ht) ho) (tidy_history ops' (tidy_read hu) ho')

/-- Equal tags have the same contents, without conditions. -/
theorem equal_contents {t u : Tag} (h : eqTag t u = true) : contents t = contents u := by rw [(eqTag_iff t u).mp h]

end Ilst

namespace Convert

open Ilst in
/-- What remains of a tag after `split_tag` may be unequal to a tag of the same contents: an atom with a text and a number,
of which the text has been split off. -/
theorem remainder_unequal :
    (splitIlst [⟨four 0xA9 "nam", .multiple [.utf8 (str "a"), .signed 5]⟩]).1 = [⟨four 0xA9 "nam", .multiple [.signed 5]⟩] ∧
    eqTag (splitIlst [⟨four 0xA9 "nam", .multiple [.utf8 (str "a"), .signed 5]⟩]).1 [⟨four 0xA9 "nam", .single (.signed 5)⟩] = false ∧
    contents (splitIlst [⟨four 0xA9 "nam", .multiple [.utf8 (str "a"), .signed 5]⟩]).1 =
      contents [⟨four 0xA9 "nam", .single (.signed 5)⟩] := by
  decide +kernel

end Convert

end Lofty
