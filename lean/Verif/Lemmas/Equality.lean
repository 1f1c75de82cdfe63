import Verif.Spec.Equality
import Verif.Lemmas.Id3v2List
import Verif.Props.IlstOps
/-! Lemmas for C89. -/
namespace Lofty

/-- Two lists related position by position. -/
def Like {α : Type} (R : α → α → Prop) (l m : List α) : Prop :=
  l.length = m.length ∧ ∀ (i : Nat) (a b : α), l[i]? = some a → m[i]? = some b → R a b

variable {α : Type} {R : α → α → Prop}

theorem like_nil : Like R [] [] := ⟨rfl, fun _ _ _ h => by simp at h⟩

theorem like_cons {a b : α} {l m : List α} : Like R (a :: l) (b :: m) ↔ R a b ∧ Like R l m := by
  constructor
  · rintro ⟨h1, h2⟩
    exact ⟨h2 0 a b rfl rfl, by simpa using h1, fun i x y hx hy => h2 (i + 1) x y (by simpa using hx) (by simpa using hy)⟩
  · rintro ⟨h1, h2, h3⟩
    refine ⟨by simp [h2], fun i x y hx hy => ?_⟩
    cases i with
    | zero => simp at hx hy; rw [← hx, ← hy]; exact h1
    | succ i => exact h3 i x y (by simpa using hx) (by simpa using hy)

theorem not_like_nil_cons {b : α} {m : List α} : ¬ Like R [] (b :: m) := fun h => by simpa using h.1

theorem not_like_cons_nil {b : α} {m : List α} : ¬ Like R (b :: m) [] := fun h => by simpa using h.1

theorem like_append {l m l' m' : List α} (h : Like R l m) (h' : Like R l' m') : Like R (l ++ l') (m ++ m') := by
  induction l generalizing m with
  | nil => cases m with
    | nil => exact h'
    | cons => exact (not_like_nil_cons h).elim
  | cons a l ih => cases m with
    | nil => exact (not_like_cons_nil h).elim
    | cons b m => exact like_cons.mpr ⟨(like_cons.mp h).1, ih (like_cons.mp h).2⟩

theorem like_set {l m : List α} {a b : α} (h : Like R l m) (hab : R a b) (i : Nat) : Like R (l.set i a) (m.set i b) := by
  refine ⟨by simp [h.1], fun j x y hx hy => ?_⟩
  rw [List.getElem?_set] at hx hy
  by_cases hj : i = j
  · rw [if_pos hj] at hx hy
    split at hx
    · split at hy
      · cases hx; cases hy; exact hab
      · cases hy
    · cases hx
  · rw [if_neg hj] at hx hy
    exact h.2 j x y hx hy

theorem like_take {l m : List α} (h : Like R l m) (n : Nat) : Like R (l.take n) (m.take n) := by
  refine ⟨by simp [h.1], fun j x y hx hy => ?_⟩
  rw [List.getElem?_take] at hx hy
  split at hx
  · rw [if_pos ‹_›] at hy; exact h.2 j x y hx hy
  · cases hx

theorem like_drop {l m : List α} (h : Like R l m) (n : Nat) : Like R (l.drop n) (m.drop n) := by
  refine ⟨by simp [h.1], fun j x y hx hy => ?_⟩
  rw [List.getElem?_drop] at hx hy
  exact h.2 _ x y hx hy

theorem like_get {l m : List α} (h : Like R l m) (i : Nat) :
    (l[i]? = none ∧ m[i]? = none) ∨ ∃ a b, l[i]? = some a ∧ m[i]? = some b ∧ R a b := by
  by_cases hi : i < l.length
  · have hi' : i < m.length := h.1 ▸ hi
    have e1 : l[i]? = some l[i] := List.getElem?_eq_getElem hi
    have e2 : m[i]? = some m[i] := List.getElem?_eq_getElem hi'
    exact Or.inr ⟨_, _, e1, e2, h.2 _ _ _ e1 e2⟩
  · exact Or.inl ⟨List.getElem?_eq_none (by omega), List.getElem?_eq_none (by have := h.1; omega)⟩

theorem like_swap {l m : List α} (h : Like R l m) (a b : Nat) : Like R (swap l a b) (swap m a b) := by
  unfold swap
  rcases like_get h a with ⟨h1, h2⟩ | ⟨x, x', h1, h2, h3⟩
  · rw [h1, h2]; exact h
  · rcases like_get h b with ⟨h4, h5⟩ | ⟨y, y', h4, h5, h6⟩
    · rw [h4, h5, h1, h2]; exact h
    · rw [h4, h5, h1, h2]
      exact like_set (like_set h h6 a) h3 b

theorem like_drainLoop {p q : α → Bool} (hp : ∀ a b, R a b → p a = q b) : ∀ (k i s : Nat) (l m : List α), Like R l m →
    Like R (drainLoop p k i s l).1 (drainLoop q k i s m).1 ∧ (drainLoop p k i s l).2 = (drainLoop q k i s m).2
  | 0, _, _, _, _, h => ⟨h, rfl⟩
  | k + 1, i, s, l, m, h => by
    rw [drainLoop, drainLoop]
    rcases like_get h i with ⟨h1, h2⟩ | ⟨x, y, h1, h2, h3⟩
    · rw [h1, h2]; exact ⟨h, rfl⟩
    · rw [h1, h2]
      simp only
      rw [hp x y h3]
      split
      · exact like_drainLoop hp k _ _ _ _ (like_swap h _ _)
      · exact like_drainLoop hp k _ _ _ _ h

theorem like_drainFilter {p q : α → Bool} (hp : ∀ a b, R a b → p a = q b) {l m : List α} (h : Like R l m) :
    Like R (drainFilter p l).2 (drainFilter q m).2 := by
  obtain ⟨h1, h2⟩ := like_drainLoop hp l.length 0 0 l m h
  show Like R ((drainLoop p l.length 0 0 l).1.drop (drainLoop p l.length 0 0 l).2)
    ((drainLoop q m.length 0 0 m).1.drop (drainLoop q m.length 0 0 m).2)
  rw [← h.1, ← h2]
  exact like_drop h1 _

theorem like_filter {p q : α → Bool} (hp : ∀ a b, R a b → p a = q b) {l m : List α} (h : Like R l m) :
    Like R (l.filter p) (m.filter q) := by
  induction l generalizing m with
  | nil => cases m with
    | nil => exact h
    | cons => exact (not_like_nil_cons h).elim
  | cons a l ih => cases m with
    | nil => exact (not_like_cons_nil h).elim
    | cons b m =>
      obtain ⟨h1, h2⟩ := like_cons.mp h
      rw [List.filter_cons, List.filter_cons, hp a b h1]
      split
      · exact like_cons.mpr ⟨h1, ih h2⟩
      · exact ih h2

namespace Id3v2

theorem alike_like {l m : List Frame} : Alike l m ↔ Like Same l m := Iff.rfl

theorem sameFrames_iff (l m : List Frame) : sameFrames l m = true ↔ Alike l m := by
  rw [alike_like]
  induction l generalizing m with
  | nil => cases m with
    | nil => simp [sameFrames, like_nil]
    | cons => simp [sameFrames, not_like_nil_cons]
  | cons a l ih => cases m with
    | nil => simp [sameFrames, not_like_cons_nil]
    | cons b m => rw [sameFrames, Bool.and_eq_true, like_cons, ih, sameFrame_iff]

theorem alike_takeFirst {p q : Frame → Bool} (hp : ∀ a b, Same a b → p a = q b) {l m : List Frame} (h : Alike l m) :
    Alike (takeFirst p l).2 (takeFirst q m).2 := by
  rw [alike_like] at h ⊢
  induction l generalizing m with
  | nil => cases m with
    | nil => exact h
    | cons => exact (not_like_nil_cons h).elim
  | cons a l ih => cases m with
    | nil => exact (not_like_cons_nil h).elim
    | cons b m =>
      obtain ⟨h1, h2⟩ := like_cons.mp h
      rw [takeFirst, takeFirst, hp a b h1]
      split
      · exact h2
      · exact like_cons.mpr ⟨h1, ih h2⟩

theorem same_userText {a b : Frame} (h : Same a b) (d : Str) : (userTextOf d a).isSome = (userTextOf d b).isSome := by
  cases a with
  | chapter => cases b <;> simp_all [Same, userTextOf]
  | toc => cases b <;> simp_all [Same, userTextOf]
  | leaf fa x =>
    cases b with
    | chapter => simp [Same] at h
    | toc => simp [Same] at h
    | leaf fb y =>
      cases x <;> cases y <;> simp [Same] at h <;> simp [userTextOf]
      rw [h]
      split <;> rfl

theorem same_pic {a b : Frame} (h : Same a b) : picTypeOf a = picTypeOf b := by
  cases a with
  | chapter => cases b <;> simp_all [Same, picTypeOf]
  | toc => cases b <;> simp_all [Same, picTypeOf]
  | leaf fa x =>
    cases b with
    | chapter => simp [Same] at h
    | toc => simp [Same] at h
    | leaf fb y => cases x <;> cases y <;> simp_all [Same, picTypeOf]

theorem whole_eq {a b : Frame} (h : Same a b) (w : Whole a) : a = b := by
  cases a with
  | chapter => exact w.elim
  | toc => exact w.elim
  | leaf fa x =>
    cases b with
    | chapter => exact h.elim
    | toc => exact h.elim
    | leaf fb y => cases x <;> first | exact w.elim | (cases y <;> simp_all [Same])

end Id3v2

namespace Ilst

theorem storage_eq (s t : Storage) : s.eq t = true ↔ s = t := by
  cases s <;> cases t <;> simp [Storage.eq]

theorem eqTag_iff (t u : Tag) : eqTag t u = true ↔ t = u := by
  induction t generalizing u with
  | nil => cases u <;> simp [eqTag]
  | cons a t ih => cases u with
    | nil => simp [eqTag]
    | cons b u =>
      rw [eqTag, Bool.and_eq_true, Bool.and_eq_true, decide_eq_true_eq, storage_eq, ih, List.cons.injEq]
      constructor
      · rintro ⟨⟨h1, h2⟩, h3⟩
        refine ⟨?_, h3⟩
        cases a; cases b; simp_all
      · rintro ⟨rfl, h⟩; exact ⟨⟨rfl, rfl⟩, h⟩

theorem tidy_toList {a b : Atom} (ha : a.Tidy) (hb : b.Tidy) (h1 : a.ident = b.ident) (h2 : a.data.toList = b.data.toList) : a = b := by
  rcases a with ⟨i, s⟩
  rcases b with ⟨j, u⟩
  have ha' : ∀ l, s = .multiple l → 2 ≤ l.length := ha
  have hb' : ∀ l, u = .multiple l → 2 ≤ l.length := hb
  simp only at h1 h2
  subst h1
  cases s with
  | single d => cases u with
    | single e => simp [Storage.toList] at h2; rw [h2]
    | multiple m =>
      have := hb' m rfl
      simp [Storage.toList] at h2
      rw [← h2] at this; simp at this
  | multiple l => cases u with
    | single e =>
      have := ha' l rfl
      simp [Storage.toList] at h2
      rw [h2] at this; simp at this
    | multiple m => simp [Storage.toList] at h2; rw [h2]

theorem tidy_ofList {i : Mp4.Ident} {l : List Data} {s : Storage} (h : Storage.ofList l = some s) : Atom.Tidy ⟨i, s⟩ := by
  intro m hm
  simp only at hm
  subst hm
  rcases l with _ | ⟨a, _ | ⟨b, l⟩⟩
  · cases h
  · cases h
  · cases h; simp

theorem tidy_single (i : Mp4.Ident) (d : Data) : Atom.Tidy ⟨i, .single d⟩ := fun _ h => by cases h

theorem tidy_push {a : Atom} (h : a.Tidy) (d : Data) : Atom.Tidy { a with data := a.data.push d } := by
  intro m hm
  rcases a with ⟨i, s⟩
  cases s with
  | single e => cases hm; simp
  | multiple l =>
    have := h l rfl
    cases hm
    simp; omega

theorem tidy_pushAll (l : List Data) {a : Atom} (h : a.Tidy) : Atom.Tidy { a with data := l.foldl Storage.push a.data } := by
  induction l generalizing a with
  | nil => exact h
  | cons d l ih => exact ih (tidy_push h d)

theorem tidy_append {t u : Tag} (ht : Tidy t) (hu : Tidy u) : Tidy (t ++ u) := fun a ha => by
  rcases List.mem_append.mp ha with h | h
  · exact ht a h
  · exact hu a h

theorem tidy_one {a : Atom} (h : a.Tidy) : Tidy [a] := fun b hb => by rw [List.mem_singleton.mp hb]; exact h

theorem tidy_update {t t' : Tag} {i : Mp4.Ident} {f : Atom → Atom} (ht : Tidy t) (hf : ∀ a, a.Tidy → (f a).Tidy)
    (h : update t i f = some t') : Tidy t' := by
  obtain ⟨p, a, s, h1, h2, -, -⟩ := update_some h
  subst h1 h2
  intro b hb
  rcases List.mem_append.mp hb with h | h
  · exact ht b (by simp [h])
  · rcases List.mem_cons.mp h with h | h
    · rw [h]; exact hf a (ht a (by simp))
    · exact ht b (by simp [h])

theorem tidy_remove {t : Tag} (ht : Tidy t) (i : Mp4.Ident) : Tidy (remove t i).2 := fun a ha => ht a (mem_remove.mp ha).1

theorem tidy_replace {t : Tag} (ht : Tidy t) {a : Atom} (ha : a.Tidy) : Tidy (replace t a) :=
  tidy_append (tidy_remove ht _) (tidy_one ha)

theorem tidy_insertPicture {t : Tag} (ht : Tidy t) (p : Picture.Pic) : Tidy (insertPicture t p) := by
  unfold insertPicture
  simp only
  split
  · next h => exact tidy_update ht (fun a ha => tidy_push ha _) h
  · exact tidy_append ht (tidy_one (tidy_single _ _))

theorem tidy_insertData (l : List Data) {t : Tag} (ht : Tidy t) : Tidy (l.foldl insertData t) := by
  induction l generalizing t with
  | nil => exact ht
  | cons d l ih =>
    refine ih ?_
    cases d <;> first | exact tidy_insertPicture ht _ | exact ht

theorem tidy_insert {t : Tag} (ht : Tidy t) {a : Atom} (ha : a.Tidy) : Tidy (insert t a) := by
  unfold insert
  split
  · exact tidy_insertData _ ht
  · split
    · next h => exact tidy_update ht (fun e he => tidy_pushAll _ he) h
    · exact tidy_append ht (tidy_one ha)

theorem tidy_addAtom {t : Tag} (ht : Tidy t) (i : Mp4.Ident) (l : List Data) : Tidy (addAtom t i l) := by
  unfold addAtom
  split
  · next h => exact tidy_append ht (tidy_one (tidy_ofList h))
  · exact ht

end Ilst

end Lofty
