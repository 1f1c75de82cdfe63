import Verif.Model.PictureStorage
import Verif.Spec.PictureInfo
/-!
# C66: the pictures of Vorbis comments and FLAC files
-/
namespace Lofty.Picture

/-- The types of which there may only be one picture. -/
def Single (t : PicType) : Prop := t = .icon ∨ t = .otherIcon

/-- The pictures of a type. -/
def ofType (s : Store) (t : PicType) : Store := s.filter fun q => decide (q.1.ty = t)

/-- All others. -/
def notOfType (s : Store) (t : PicType) : Store := s.filter fun q => decide (q.1.ty ≠ t)

/-- At most one icon of each kind. -/
def IconsUnique (s : Store) : Prop := ∀ t, Single t → (ofType s t).length ≤ 1

/-- Operations on the pictures. -/
inductive Op
  | insert (p : Pic) (i : Option Info)
  | removeType (t : PicType)
  | set (n : Nat) (p : Pic) (i : Info)
  | remove (n : Nat)
  | clear

/-- What they do; a removal of a picture that is not there panics. -/
def Op.run (s : Store) : Op → Except Err Store
  | .insert p i => .ok (insertPicture s p i).1
  | .removeType t => .ok (Picture.removeType s t)
  | .set n p i => .ok (setPicture s n p i)
  | .remove n => (removePicture s n).map (·.2)
  | .clear => .ok (removePictures s).2

/-- Operations one after the other. -/
def runOps : List Op → Store → Except Err Store
  | [], s => .ok s
  | op :: l, s => (op.run s).bind (runOps l)

theorem findIdx_split {α : Type} (p : α → Bool) : ∀ (s : List α), (s.findIdx? p = none ∧ s.filter p = []) ∨
    ∃ a x b k, s = a ++ x :: b ∧ a.filter p = [] ∧ p x = true ∧ s.findIdx? p = some k ∧ k = a.length := by
  intro s
  induction s with
  | nil => exact .inl ⟨rfl, rfl⟩
  | cons y s ih =>
    by_cases hy : p y = true
    · exact .inr ⟨[], y, s, 0, rfl, rfl, hy, by simp [List.findIdx?_cons, hy], rfl⟩
    · rcases ih with ⟨h1, h2⟩ | ⟨a, x, b, k, h1, h2, h3, h4, h5⟩
      · refine .inl ⟨by simp [List.findIdx?_cons, hy, h1], by simp [hy]; simpa using h2⟩
      · refine .inr ⟨y :: a, x, b, k + 1, by rw [h1]; rfl, by simp [hy]; simpa using h2, h3, by simp [List.findIdx?_cons, hy, h4], by simp [h5]⟩

/-- What is removed to make room: nothing, or the first picture of an icon type. -/
theorem makeRoom_cases (s : Store) (t : PicType) : (makeRoom s t = (none, s) ∧ (Single t → ofType s t = [])) ∨
    (Single t ∧ ∃ a x b, s = a ++ x :: b ∧ ofType a t = [] ∧ x.1.ty = t ∧ makeRoom s t = (some x, a ++ b)) := by
  by_cases ht : Single t
  · have e : makeRoom s t = (match s.findIdx? fun q => decide (q.1.ty = t) with
      | some k => (s[k]?, s.eraseIdx k)
      | none => (none, s)) := by
      rcases ht with rfl | rfl <;> rfl
    rcases findIdx_split (fun q : Pic × Info => decide (q.1.ty = t)) s with ⟨h1, h2⟩ | ⟨a, x, b, k, h1, h2, h3, h4, h5⟩
    · exact .inl ⟨by rw [e, h1], fun _ => h2⟩
    · refine .inr ⟨ht, a, x, b, h1, h2, of_decide_eq_true h3, ?_⟩
      rw [e, h4]
      subst h5 h1
      simp [List.eraseIdx_append_of_length_le]
  · refine .inl ⟨?_, fun h => absurd h ht⟩
    unfold Single at ht
    unfold makeRoom
    cases t <;> first | rfl | simp at ht

theorem ofType_append (s u : Store) (t : PicType) : ofType (s ++ u) t = ofType s t ++ ofType u t := by simp [ofType]

/-- C66: inserting a picture that is no icon adds it behind the others and removes nothing; inserting an icon replaces and returns
the icon of that kind.  All other pictures stay as they are and in their order. -/
theorem insert_spec (s : Store) (hs : IconsUnique s) (p : Pic) (i : Info) :
    ∃ r, insertPicture s p (some i) = (if p.ty = .icon ∨ p.ty = .otherIcon then notOfType s p.ty ++ [(p, i)] else s ++ [(p, i)], .ok r) ∧
      r.toList = if p.ty = .icon ∨ p.ty = .otherIcon then ofType s p.ty else [] := by
  unfold insertPicture infoOr
  simp only
  by_cases ht : Single p.ty
  · have ht' : p.ty = .icon ∨ p.ty = .otherIcon := ht
    rw [if_pos ht', if_pos ht']
    have hu := hs p.ty ht
    rcases makeRoom_cases s p.ty with ⟨h1, h2⟩ | ⟨-, a, x, b, h1, h2, h3, h4⟩
    · rw [h1, h2 ht]
      refine ⟨none, ?_, rfl⟩
      have : notOfType s p.ty = s := by
        unfold notOfType
        refine List.filter_eq_self.mpr fun q hq => ?_
        have := List.filter_eq_nil_iff.mp (h2 ht) q hq
        simpa using this
      rw [this]
    · rw [h4]
      have hx : ofType [x] p.ty = [x] := by simp [ofType, h3]
      have hb : ofType b p.ty = [] := by
        rw [h1, show a ++ x :: b = a ++ ([x] ++ b) from rfl, ofType_append, ofType_append, h2, hx] at hu
        exact List.eq_nil_of_length_eq_zero (by simpa using hu)
      have hn : ∀ l : Store, ofType l p.ty = [] → notOfType l p.ty = l := by
        intro l hl
        unfold notOfType
        refine List.filter_eq_self.mpr fun q hq => ?_
        have := List.filter_eq_nil_iff.mp hl q hq
        simpa using this
      refine ⟨some x, ?_, ?_⟩
      · have : notOfType s p.ty = a ++ b := by
          rw [h1]
          unfold notOfType
          rw [List.filter_append, List.filter_cons_of_neg (by simp [h3])]
          have ha := hn a h2
          have hb := hn b hb
          unfold notOfType at ha hb
          rw [ha, hb]
        rw [this]
      · rw [h1, show a ++ x :: b = a ++ ([x] ++ b) from rfl, ofType_append, ofType_append, h2, hx, hb]
        rfl
  · have ht' : ¬ (p.ty = .icon ∨ p.ty = .otherIcon) := ht
    rw [if_neg ht', if_neg ht']
    rcases makeRoom_cases s p.ty with ⟨h1, -⟩ | ⟨h, -⟩
    · rw [h1]; exact ⟨none, rfl, rfl⟩
    · exact absurd h ht

/-- C66: without given information, that of the image is used. -/
theorem insert_infers (s : Store) (p : Pic) {i : Info} (h : infoOf p = .ok i) : insertPicture s p none = insertPicture s p (some i) := by
  unfold insertPicture infoOr
  rw [h]

/-- C66: a picture whose information cannot be found is not inserted.  `_partial`: nothing is changed if it is no icon, but the icon
that would have been replaced is lost (`failed_insert_loses_icon`). -/
theorem insert_fails_partial (s : Store) (p : Pic) {e : Err} (h : infoOf p = .error e) (hp : ¬ Single p.ty) : insertPicture s p none = (s, .error e) := by
  unfold insertPicture infoOr
  rw [h]
  simp only
  rcases makeRoom_cases s p.ty with ⟨h1, -⟩ | ⟨h', -⟩
  · rw [h1]
  · exact absurd h' hp

theorem sublist_unique {s u : Store} (h : s.Sublist u) (hu : IconsUnique u) : IconsUnique s :=
  fun t ht => Nat.le_trans (List.Sublist.length_le (h.filter _)) (hu t ht)

theorem makeRoom_sublist (s : Store) (t : PicType) : (makeRoom s t).2.Sublist s := by
  rcases makeRoom_cases s t with ⟨h1, -⟩ | ⟨-, a, x, b, h1, -, -, h4⟩
  · rw [h1]
    exact List.Sublist.refl s
  · rw [h4, h1]
    exact List.Sublist.append (List.Sublist.refl a) (List.sublist_cons_self x b)

theorem insert_unique {s : Store} (hs : IconsUnique s) (p : Pic) (i : Option Info) : IconsUnique (insertPicture s p i).1 := by
  unfold insertPicture
  have hm := sublist_unique (makeRoom_sublist s p.ty) hs
  cases infoOr p i with
  | error e => exact hm
  | ok info =>
    simp only
    intro t ht
    rw [ofType_append]
    by_cases htp : p.ty = t
    · subst htp
      have : ofType (makeRoom s p.ty).2 p.ty = [] := by
        have hu := hs p.ty ht
        rcases makeRoom_cases s p.ty with ⟨h1, h2⟩ | ⟨-, a, x, b, h1, h2, h3, h4⟩
        · rw [h1]; exact h2 ht
        · rw [h4]
          have hx : ofType [x] p.ty = [x] := by simp [ofType, h3]
          rw [h1, show a ++ x :: b = a ++ ([x] ++ b) from rfl, ofType_append, ofType_append, h2, hx] at hu
          show ofType (a ++ b) p.ty = []
          rw [ofType_append, h2]
          exact List.eq_nil_of_length_eq_zero (by simpa using hu)
      rw [this]
      simp [ofType]
    · have : ofType [(p, info)] t = [] := by simp [ofType, htp]
      rw [this, List.append_nil]
      exact hm t ht

/-- C66: whatever is done with the pictures, there is never more than one icon of each kind.  `_partial`: icons are not put in the
place of another picture (`set_duplicates_icon`). -/
theorem icons_unique_partial (l : List Op) : ∀ (s u : Store), IconsUnique s →
    (∀ n p i, Op.set n p i ∈ l → ¬ Single p.ty) → runOps l s = .ok u → IconsUnique u := by
  induction l with
  | nil => intro s u hs _ h; cases h; exact hs
  | cons op l ih =>
    intro s u hs hl h
    rw [runOps] at h
    cases hr : op.run s with
    | error e => rw [hr] at h; cases h
    | ok s' =>
      rw [hr] at h
      refine ih s' u ?_ (fun n p i hm => hl n p i (List.mem_cons_of_mem _ hm)) h
      cases op with
      | insert p i => cases hr; exact insert_unique hs p i
      | removeType t => cases hr; exact sublist_unique List.filter_sublist hs
      | set n p i =>
        have hp := hl n p i List.mem_cons_self
        cases hr
        unfold setPicture
        split
        · exact insert_unique hs p (some i)
        · rename_i hn
          intro t ht
          have hpt : p.ty ≠ t := fun h' => hp (h' ▸ ht)
          refine Nat.le_trans ?_ (hs t ht)
          unfold ofType
          rw [List.set_eq_take_append_cons_drop, if_pos (by omega), List.filter_append, List.filter_cons_of_neg (by simp [hpt])]
          rw [← List.filter_append]
          refine List.Sublist.length_le (List.Sublist.filter _ ?_)
          conv => rhs; rw [← List.take_append_drop n s]
          refine List.Sublist.append (List.Sublist.refl _) ?_
          rw [← List.drop_drop]
          exact List.drop_sublist 1 _
      | remove n =>
        simp only [Op.run, removePicture] at hr
        split at hr
        · cases hr; exact sublist_unique (List.eraseIdx_sublist s n) hs
        · cases hr
      | clear => cases hr; intro t _; exact Nat.zero_le 1

/-- C66: removing a picture gives that picture, and the others in their order; it panics if there is none. -/
theorem remove_spec (s : Store) (n : Nat) : (∀ x u, removePicture s n = .ok (x, u) ↔ ∃ a b, s = a ++ x :: b ∧ a.length = n ∧ u = a ++ b) ∧
    (s.length ≤ n ↔ removePicture s n = .error .panic) := by
  unfold removePicture
  constructor
  · intro x u
    constructor
    · intro h
      split at h
      · rename_i q hq
        cases h
        obtain ⟨hn, hq⟩ := List.getElem?_eq_some_iff.mp hq
        refine ⟨s.take n, s.drop (n + 1), ?_, by simp; omega, List.eraseIdx_eq_take_drop_succ s n⟩
        rw [← hq, List.getElem_cons_drop, List.take_append_drop]
      · cases h
    · rintro ⟨a, b, rfl, rfl, rfl⟩
      simp [List.eraseIdx_append_of_length_le]
  · constructor
    · intro h
      rw [List.getElem?_eq_none h]
    · intro h
      split at h
      · cases h
      · rename_i hq
        simpa using hq

/-- C66: removing a type removes all of that type and nothing else. -/
theorem removeType_spec (s : Store) (t : PicType) : ofType (removeType s t) t = [] ∧ ∀ u, u ≠ t → ofType (removeType s t) u = ofType s u := by
  unfold ofType removeType
  refine ⟨by simp [List.filter_filter], fun u hu => ?_⟩
  rw [List.filter_filter]
  refine List.filter_congr fun q _ => ?_
  by_cases h : q.1.ty = u
  · simp [h, hu]
  · simp [h]

/-- C66: setting a picture replaces exactly the picture at that place; behind the end it inserts. -/
theorem set_spec (s : Store) (n : Nat) (p : Pic) (i : Info) :
    (∀ a x b, s = a ++ x :: b → a.length = n → setPicture s n p i = a ++ (p, i) :: b) ∧
    (s.length ≤ n → setPicture s n p i = (insertPicture s p (some i)).1) := by
  unfold setPicture
  constructor
  · rintro a x b rfl rfl
    rw [if_neg (by simp)]
    simp
  · intro h
    rw [if_pos h]

/-! ## Examples and disagreements -/

/-- A picture of a type. -/
def pic (t : PicType) (b : UInt8) : Pic := ⟨t, none, none, List.replicate 8 b⟩

/-- Icons are replaced, covers are not. -/
example : runOps [.insert (pic .icon 1) none, .insert (pic .coverFront 2) none, .insert (pic .otherIcon 3) none, .insert (pic .icon 4) none,
    .insert (pic .coverFront 5) none] []
    = .ok [(pic .coverFront 2, Info.default), (pic .otherIcon 3, Info.default), (pic .icon 4, Info.default), (pic .coverFront 5, Info.default)] := by
  decide +kernel

/-- Disagreement: putting an icon in the place of another picture makes a second icon, which the format does not allow. -/
theorem set_duplicates_icon :
    runOps [.insert (pic .icon 1) none, .insert (pic .coverFront 2) none, .set 1 (pic .icon 3) Info.default] []
      = .ok [(pic .icon 1, Info.default), (pic .icon 3, Info.default)] := by
  decide +kernel

/-- Disagreement: **inserting an icon that is no image fails, and the icon that was there is lost**. -/
theorem failed_insert_loses_icon :
    insertPicture [(pic .icon 1, Info.default)] ⟨.icon, none, none, [1, 2, 3]⟩ none = ([], .error .notEnough) := by
  decide +kernel

end Lofty.Picture
