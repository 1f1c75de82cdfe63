import Verif.Lemmas.Id3v2List
/-!
# C26: the frame list of an ID3v2 tag
-/
namespace Lofty.Id3v2
open Lofty.Text (Encoding)

/-! ## What one operation does -/

/-- **Inserting** a frame that may occur more than once: the first frame that is the same is taken out and
returned, the new frame goes to the end, every other frame stays, in order. -/
theorem insert_spec (l : List Frame) (f : Frame) (hf : f.id.asStr ∉ onceIds.map String.toList) :
    ((∀ g ∈ l, ¬ Same g f) ∧ insert l f = (none, l ++ [f]))
    ∨ ∃ a g b, l = a ++ g :: b ∧ (∀ x ∈ a, ¬ Same x f) ∧ Same g f ∧ insert l f = (some g, a ++ b ++ [f]) := by
  have hc : onePerTag.contains f.id.asStr = false := by
    rw [← Bool.not_eq_true, List.contains_iff_mem, onePerTag_eq]; exact hf
  unfold insert
  rw [hc]
  simp only [Bool.false_eq_true, if_false]
  rcases takeFirst_cases (fun g => sameFrame g f) l with ⟨h1, h2⟩ | ⟨a, g, b, h1, h2, h3, h4⟩
  · left
    refine ⟨fun g hg hs => ?_, by rw [h2]⟩
    have := h1 g hg
    rw [(sameFrame_iff g f).mpr hs] at this
    exact Bool.noConfusion this
  · right
    refine ⟨a, g, b, h1, fun x hx hs => ?_, (sameFrame_iff g f).mp h3, by rw [h4]⟩
    have := h2 x hx
    rw [(sameFrame_iff x f).mpr hs] at this
    exact Bool.noConfusion this

/-- **Inserting** a frame that may occur once: all frames with its id go, the first of them is returned,
the new frame goes to the end; the other frames stay, but not always in order (`insert_reorders`).
Missing: the order of the other frames. -/
theorem insert_once_partial (l : List Frame) (f : Frame) (hf : f.id.asStr ∈ onceIds.map String.toList) :
    (insert l f).1 = (l.filter fun g => g.id = f.id).head? ∧
    ∃ r, (insert l f).2 = r ++ [f] ∧ r.Perm (l.filter fun g => g.id ≠ f.id) ∧ ((∀ g ∈ l, g.id ≠ f.id) → r = l) := by
  have hc : onePerTag.contains f.id.asStr = true := by rw [List.contains_iff_mem, onePerTag_eq]; exact hf
  obtain ⟨h1, h2, h3⟩ := drainFilter_spec (fun g : Frame => decide (g.id = f.id)) l
  unfold insert
  rw [hc]
  simp only [if_true, remove]
  refine ⟨by rw [h1], _, rfl, ?_, ?_⟩
  · simpa using h2
  · intro h
    exact h3 (List.filter_eq_nil_iff.mpr fun g hg => by simpa using h g hg)

/-- The frames that remain are not kept in order: inserting `ETCO` anew swaps the title and the artist. -/
theorem insert_reorders :
    let t (id v : String) : Frame := .leaf {} (.text ⟨.valid (str id), .utf8, str v⟩)
    let e : Frame := .leaf {} (.etco ⟨2, []⟩)
    (insert [t "TIT2" "a", t "TPE1" "b", e] e).2 = [t "TPE1" "b", t "TIT2" "a", e] := rfl

/-- **Removing** by id removes and returns exactly the frames with that id; the others stay, but not always in
order (`remove_changes_get`).  Missing: the order of the other frames. -/
theorem remove_partial (l : List Frame) (id : FrameId) :
    (remove l id).1 = l.filter (fun g => g.id = id) ∧ (remove l id).2.Perm (l.filter fun g => g.id ≠ id)
      ∧ ((∀ g ∈ l, g.id ≠ id) → (remove l id).2 = l) := by
  obtain ⟨h1, h2, h3⟩ := drainFilter_spec (fun g : Frame => decide (g.id = id)) l
  refine ⟨h1, by simpa [remove] using h2, fun h => h3 (List.filter_eq_nil_iff.mpr fun g hg => by simpa using h g hg)⟩

/-- After a removal by id there is nothing under that id. -/
theorem get_remove (l : List Frame) (id : FrameId) : get (remove l id).2 id = none := by
  rw [get, List.find?_eq_none]
  intro g hg
  have := (remove_partial l id).2.1.mem_iff.mp hg
  simpa using (List.mem_filter.mp this).2

/-- What is found under an id with at most one frame is not affected by the removal of another id. -/
theorem get_remove_other (l : List Frame) (id id' : FrameId) (hne : id ≠ id')
    (h1 : (l.filter fun f => f.id = id').length ≤ 1) : get (remove l id).2 id' = get l id' := by
  have hp := ((remove_partial l id).2.1).filter (fun f => decide (f.id = id'))
  have e : (l.filter fun g => decide (g.id ≠ id)).filter (fun f => decide (f.id = id')) = l.filter fun f => decide (f.id = id') := by
    rw [List.filter_filter]
    apply List.filter_congr
    intro x _
    by_cases hx : x.id = id'
    · simp [hx, Ne.symm hne]
    · simp [hx]
  rw [e] at hp
  have hg : ∀ m : List Frame, get m id' = (m.filter fun f => decide (f.id = id')).head? := by
    intro m; rw [get, List.head?_filter]
  rw [hg, hg]
  match hl : l.filter fun f => decide (f.id = id') with
  | [] => rw [hl] at hp; rw [List.Perm.eq_nil hp, hl]
  | [x] => rw [hl] at hp; rw [List.perm_singleton.mp hp, hl]
  | x :: y :: r => rw [hl] at h1; simp at h1

/-- With several comments, removing the title changes which comment is found. -/
theorem remove_changes_get :
    let c (d : String) : Frame := .leaf {} (.comment ⟨.utf8, (101, 110, 103), str d, str d⟩)
    let t : Frame := .leaf {} (.text ⟨.valid (str "TIT2"), .utf8, str "x"⟩)
    get [c "a", c "b", t] (.valid (str "COMM")) = some (c "a")
    ∧ get (remove [c "a", c "b", t] (.valid (str "TIT2"))).2 (.valid (str "COMM")) = some (c "b") := ⟨rfl, rfl⟩

/-- **Removing a user text** takes out the first `TXXX` frame with that description and nothing else. -/
theorem removeUserText_spec (l : List Frame) (d : Str) :
    (getUserText l d = none ∧ removeUserText l d = (none, l))
    ∨ ∃ a fl u b, l = a ++ .leaf fl (.userText u) :: b ∧ u.desc = d ∧ getUserText l d = some u.content
        ∧ removeUserText l d = (some (.leaf fl (.userText u)), a ++ b) := by
  rcases takeFirst_cases (fun f => (userTextOf d f).isSome) l with ⟨h1, h2⟩ | ⟨a, g, b, h1, h2, h3, h4⟩
  · left
    refine ⟨?_, h2⟩
    rw [getUserText, List.findSome?_eq_none_iff]
    intro x hx
    simpa using h1 x hx
  · right
    cases g with
    | chapter => simp [userTextOf] at h3
    | toc => simp [userTextOf] at h3
    | leaf fl c =>
      cases c with
      | userText u =>
        by_cases hd : u.desc = d
        · refine ⟨a, fl, u, b, h1, hd, ?_, h4⟩
          rw [getUserText, h1, List.findSome?_append, List.findSome?_eq_none_iff.mpr (fun x hx => by simpa using h2 x hx)]
          simp [userTextOf, hd]
        · simp [userTextOf, hd] at h3
      | _ => simp [userTextOf] at h3

/-- **Inserting a picture**: an icon replaces the first picture of the same icon type, other
pictures are added; everything else stays, in order. -/
theorem insertPicture_spec (l : List Frame) (p : Picture.Pic) :
    let f : Frame := .leaf {} (.picture ⟨.utf8, p⟩)
    ((p.ty = .icon ∨ p.ty = .otherIcon → ∀ g ∈ l, picTypeOf g ≠ some p.ty) ∧ insertPicture l p = (none, l ++ [f]))
    ∨ ∃ a g b, (p.ty = .icon ∨ p.ty = .otherIcon) ∧ l = a ++ g :: b ∧ (∀ x ∈ a, picTypeOf x ≠ some p.ty) ∧ picTypeOf g = some p.ty
        ∧ insertPicture l p = (some g, a ++ b ++ [f]) := by
  intro f
  unfold insertPicture
  by_cases hi : p.ty = .icon ∨ p.ty = .otherIcon
  · simp only [if_pos hi]
    rcases takeFirst_cases (fun g => decide (picTypeOf g = some p.ty)) l with ⟨h1, h2⟩ | ⟨a, g, b, h1, h2, h3, h4⟩
    · left; exact ⟨fun _ g hg => by simpa using h1 g hg, by rw [h2]⟩
    · right; exact ⟨a, g, b, hi, h1, fun x hx => by simpa using h2 x hx, by simpa using h3, by rw [h4]⟩
  · left; simp only [if_neg hi]; exact ⟨fun h => absurd h hi, rfl⟩

/-- **Removing a picture type** keeps every other frame, in order. -/
theorem removePictureType_spec (l : List Frame) (t : Picture.PicType) :
    (removePictureType l t).Sublist l ∧ ∀ f, f ∈ removePictureType l t ↔ f ∈ l ∧ picTypeOf f ≠ some t := by
  refine ⟨List.filter_sublist, fun f => ?_⟩
  rw [removePictureType, List.mem_filter]
  simp

/-! ## What can be found after an insertion -/

/-- Nothing but the inserted frame is found under its id, if the frames that were there are the same. -/
theorem get_insert (l : List Frame) (f : Frame) (hd : Distinct l) (hp : picTypeOf f = none)
    (hs : ∀ g ∈ l, g.id = f.id → Same g f) : get (insert l f).2 f.id = some f := by
  by_cases hf : f.id.asStr ∈ onceIds.map String.toList
  · obtain ⟨_, r, h1, h2, _⟩ := insert_once_partial l f hf
    rw [h1, get, List.find?_append, List.find?_eq_none.mpr, Option.none_or]
    · simp
    · intro x hx
      have := h2.mem_iff.mp hx
      simpa using (List.mem_filter.mp this).2
  · rcases insert_spec l f hf with ⟨h1, h2⟩ | ⟨a, g, b, h1, h2, h3, h4⟩
    · rw [h2]
      show get (l ++ [f]) f.id = some f
      rw [get, List.find?_append, List.find?_eq_none.mpr, Option.none_or]
      · simp
      · intro x hx hid
        exact h1 x hx (hs x hx (by simpa using hid))
    · rw [h4]
      show get (a ++ b ++ [f]) f.id = some f
      rw [get, List.find?_append, List.find?_eq_none.mpr, Option.none_or]
      · simp
      · intro x hx hid
        rw [decide_eq_true_eq] at hid
        rcases List.mem_append.mp hx with hx | hx
        · exact h2 x hx (hs x (by simp [h1, hx]) hid)
        · have hxs := hs x (by simp [h1, hx]) hid
          rw [h1] at hd
          have hgp := same_picType (same_symm h3) hp
          have h5 := (List.pairwise_append.mp hd).2.1
          have h6 := (List.pairwise_cons.mp h5).1 x hx hgp
          exact h6 (same_join h3 hxs)

/-- Other ids are not affected by inserting a frame that may occur more than once. -/
theorem get_insert_other (l : List Frame) (f : Frame) (id : FrameId) (hne : id ≠ f.id) (hf : f.id.asStr ∉ onceIds.map String.toList) :
    get (insert l f).2 id = get l id := by
  have hfid : (decide (f.id = id)) = false := by simpa using Ne.symm hne
  rcases insert_spec l f hf with ⟨h1, h2⟩ | ⟨a, g, b, h1, h2, h3, h4⟩
  · rw [h2]; simp [get, List.find?_append, hfid]
  · have hg : (decide (g.id = id)) = false := by
      have := same_id h3
      simpa [this] using Ne.symm hne
    rw [h4, h1]
    simp [get, List.find?_append, hfid, hg]

/-- A **user text** can be found under its description after it was inserted, and the other
descriptions are not affected. -/
theorem getUserText_insert (l : List Frame) (hd : Distinct l) (d c d' : Str) :
    getUserText (insertUserText l d c).2 d' = if d' = d then some c else getUserText l d' := by
  have hf : (Frame.leaf {} (.userText ⟨.utf8, d, c⟩)).id.asStr ∉ onceIds.map String.toList := by
    show str "TXXX" ∉ onceIds.map String.toList
    decide
  unfold insertUserText
  rcases insert_spec l _ hf with ⟨h1, h2⟩ | ⟨a, g, b, h1, h2, h3, h4⟩
  · rw [h2]
    show getUserText (l ++ [_]) d' = _
    rw [getUserText, List.findSome?_append]
    split
    · rename_i e
      subst e
      rw [List.findSome?_eq_none_iff.mpr]
      · simp [userTextOf]
      · intro x hx
        have := h1 x hx
        cases x with
        | chapter => rfl
        | toc => rfl
        | leaf fl cx => cases cx <;> simp_all [Same, userTextOf]
    · rename_i e
      have : userTextOf d' (Frame.leaf {} (.userText ⟨.utf8, d, c⟩)) = none := by simp [userTextOf, Ne.symm e]
      simp [this, getUserText]
  · obtain ⟨fg, u, rfl, hu⟩ : ∃ fg u, g = .leaf fg (.userText u) ∧ u.desc = d := by
      cases g with
      | chapter => simp [Same] at h3
      | toc => simp [Same] at h3
      | leaf fg cg =>
        cases cg with
        | userText u => exact ⟨fg, u, rfl, by simpa [Same] using h3⟩
        | _ => simp [Same] at h3
    rw [h4]
    show getUserText (a ++ b ++ [_]) d' = _
    split
    · rename_i e
      subst e
      rw [getUserText, List.findSome?_append, List.findSome?_eq_none_iff.mpr]
      · simp [userTextOf]
      · intro x hx
        rcases List.mem_append.mp hx with hx | hx
        · have := h2 x hx
          cases x with
          | chapter => rfl
          | toc => rfl
          | leaf fl cx => cases cx <;> simp_all [Same, userTextOf]
        · rw [h1] at hd
          have h5 := (List.pairwise_append.mp hd).2.1
          have h6 := (List.pairwise_cons.mp h5).1 x hx rfl
          cases x with
          | chapter => rfl
          | toc => rfl
          | leaf fl cx =>
            cases cx with
            | userText w =>
              have : w.desc ≠ d' := fun e => h6 (by simp [Same, hu, e])
              simp [userTextOf, this]
            | _ => rfl
    · rename_i e
      have e1 : userTextOf d' (Frame.leaf {} (.userText ⟨.utf8, d, c⟩)) = none := by simp [userTextOf, Ne.symm e]
      have e2 : userTextOf d' (Frame.leaf fg (.userText u)) = none := by simp [userTextOf, hu, Ne.symm e]
      rw [h1]
      simp [getUserText, List.findSome?_append, e1, e2]

/-- Two dates: `Timestamp` frames are only the same when everything is equal, so setting a new recording date
leaves the old one in the tag, and the old one is found. -/
theorem insert_date_keeps_old :
    let d (y : Nat) : Frame := .leaf {} (.time ⟨.valid (str "TDRC"), .utf8, { year := y }⟩)
    insert [d 2019] (d 2020) = (none, [d 2019, d 2020])
    ∧ get (insert [d 2019] (d 2020)).2 (.valid (str "TDRC")) = some (d 2019) := ⟨rfl, rfl⟩

/-! ## Invariants of every sequence of operations -/

theorem insert_distinct {l : List Frame} (hd : Distinct l) (f : Frame) : Distinct (insert l f).2 := by
  by_cases hf : f.id.asStr ∈ onceIds.map String.toList
  · obtain ⟨_, r, h1, h2, _⟩ := insert_once_partial l f hf
    rw [h1]
    have hr : Distinct r := distinct_perm h2.symm (List.Pairwise.sublist List.filter_sublist hd)
    refine distinct_snoc hr ?_
    intro g hg hgp hs
    have hgm := (List.mem_filter.mp (h2.mem_iff.mp hg)).2
    -- a frame that is the same as one that may occur once has the same id
    have := same_id hs
    simp [this] at hgm
  · rcases insert_spec l f hf with ⟨h1, h2⟩ | ⟨a, g, b, h1, h2, h3, h4⟩
    · rw [h2]; exact distinct_snoc hd fun g hg _ => h1 g hg
    · rw [h4]
      have hab : Distinct (a ++ b) := by
        refine List.Pairwise.sublist ?_ hd
        rw [h1]; simp
      refine distinct_snoc hab ?_
      intro x hx hxp hxs
      rcases List.mem_append.mp hx with hx | hx
      · exact h2 x hx hxs
      · have hgp := same_picType hxs hxp
        have hgp' := same_picType (same_symm h3) hgp
        rw [h1] at hd
        have h6 := (List.pairwise_cons.mp (List.pairwise_append.mp hd).2.1).1 x hx hgp'
        exact h6 (same_join h3 hxs)

theorem insert_once_per_tag {l : List Frame} (ho : OncePerTag l) (f : Frame) : OncePerTag (insert l f).2 := by
  by_cases hf : f.id.asStr ∈ onceIds.map String.toList
  · obtain ⟨_, r, h1, h2, _⟩ := insert_once_partial l f hf
    rw [h1]
    refine once_snoc (once_perm h2 (once_sublist List.filter_sublist ho)) (.inr fun g hg => ?_)
    simpa using (List.mem_filter.mp (h2.mem_iff.mp hg)).2
  · rcases insert_spec l f hf with ⟨_, h2⟩ | ⟨a, g, b, h1, _, _, h4⟩
    · rw [h2]; exact once_snoc ho (.inl hf)
    · rw [h4]
      refine once_snoc (once_sublist ?_ ho) (.inl hf)
      rw [h1]; simp

theorem insertPicture_parts (l : List Frame) (p : Picture.Pic) :
    ∃ r, r.Sublist l ∧ (insertPicture l p).2 = r ++ [.leaf {} (.picture ⟨.utf8, p⟩)] := by
  rcases insertPicture_spec l p with ⟨_, h⟩ | ⟨a, g, b, _, h1, _, _, h⟩
  · exact ⟨l, List.Sublist.refl _, by rw [h]⟩
  · exact ⟨a ++ b, by rw [h1]; simp, by rw [h]⟩

theorem run_once {l : List Frame} (ho : OncePerTag l) (op : ListOp) : OncePerTag (op.run l) := by
  cases op with
  | insert f => exact insert_once_per_tag ho f
  | remove id => exact once_perm (remove_partial l id).2.1 (once_sublist List.filter_sublist ho)
  | insertUserText d c => exact insert_once_per_tag ho _
  | removeUserText d => exact once_sublist (takeFirst_sublist _ _) ho
  | insertPicture p =>
    obtain ⟨r, h1, h2⟩ := insertPicture_parts l p
    show OncePerTag (Id3v2.insertPicture l p).2
    rw [h2]
    refine once_snoc (once_sublist h1 ho) (.inl ?_)
    show str "APIC" ∉ _
    decide
  | removePictureType t => exact once_sublist List.filter_sublist ho
  | retain p => exact once_sublist List.filter_sublist ho
  | takeFirst id => exact once_sublist (takeFirst_sublist _ _) ho
  | clear => intro id _; simp [ListOp.run]

theorem run_distinct {l : List Frame} (hd : Distinct l) (op : ListOp) : Distinct (op.run l) := by
  cases op with
  | insert f => exact insert_distinct hd f
  | remove id => exact distinct_perm (remove_partial l id).2.1.symm (List.Pairwise.sublist List.filter_sublist hd)
  | insertUserText d c => exact insert_distinct hd _
  | removeUserText d => exact List.Pairwise.sublist (takeFirst_sublist _ _) hd
  | insertPicture p =>
    obtain ⟨r, h1, h2⟩ := insertPicture_parts l p
    show Distinct (Id3v2.insertPicture l p).2
    rw [h2]
    refine distinct_snoc (List.Pairwise.sublist h1 hd) ?_
    intro g hg hgp hs
    have := same_picType hs hgp
    simp [picTypeOf] at this
  | removePictureType t => exact List.Pairwise.sublist List.filter_sublist hd
  | retain p => exact List.Pairwise.sublist List.filter_sublist hd
  | takeFirst id => exact List.Pairwise.sublist (takeFirst_sublist _ _) hd
  | clear => exact List.Pairwise.nil

/-- **After any sequence of operations** on an empty list, no frame that may occur only once occurs twice, and no
two frames other than pictures are the same. -/
theorem list_invariant (ops : List ListOp) :
    OncePerTag (ops.foldl ListOp.run []) ∧ Distinct (ops.foldl ListOp.run []) := by
  have : ∀ (ops : List ListOp) (l : List Frame), OncePerTag l → Distinct l →
      OncePerTag (ops.foldl ListOp.run l) ∧ Distinct (ops.foldl ListOp.run l) := by
    intro ops
    induction ops with
    | nil => intro l h1 h2; exact ⟨h1, h2⟩
    | cons op ops ih => intro l h1 h2; exact ih _ (run_once h1 op) (run_distinct h2 op)
  exact this ops [] (fun id _ => by simp) List.Pairwise.nil

/-! ## Concrete cases of the hypotheses -/

section Examples
def exTitle : Frame := .leaf {} (.text ⟨.valid (str "TIT2"), .utf8, str "a"⟩)
def exTitle2 : Frame := .leaf {} (.text ⟨.valid (str "TIT2"), .latin1, str "b"⟩)
def exUser (d c : String) : Frame := .leaf {} (.userText ⟨.utf8, str d, str c⟩)
def exList : List Frame := [exUser "x" "1", exTitle, exUser "y" "2"]

example : exTitle2.id.asStr ∉ onceIds.map String.toList := by show str "TIT2" ∉ _; decide
example : Same exTitle exTitle2 := rfl
example : insert exList exTitle2 = (some exTitle, [exUser "x" "1", exUser "y" "2", exTitle2]) := rfl
example : Distinct exList := by
  simp [Distinct, exList, exUser, exTitle, Same, str]
example : ∀ g ∈ exList, g.id = exTitle2.id → Same g exTitle2 := by
  simp [exList, exUser, exTitle, exTitle2, Same, Frame.id, Content.id, str]
example : getUserText (insertUserText exList (str "x") (str "9")).2 (str "x") = some (str "9") := rfl
example : (Frame.leaf {} (.owner ⟨.utf8, [], [], []⟩)).id.asStr ∈ onceIds.map String.toList := by show str "OWNE" ∈ _; decide
example : (exList.filter fun f => f.id = .valid (str "TIT2")).length ≤ 1 := by decide
end Examples

end Lofty.Id3v2
