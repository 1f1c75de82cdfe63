import Verif.Lemmas.CoversGeneric
import Verif.Props.Ilst
import Verif.Props.Mp4Read
/-! # Pictures that are not read: MP4 tags -/
namespace Lofty.Covers
open Lofty.Text Lofty.Mp4 Lofty.Ilst

/-- The options without pictures. -/
def bareI (o : Ilst.Opts) : Ilst.Opts := { o with coverArt := false }
/-- The options with pictures. -/
def fullI (o : Ilst.Opts) : Ilst.Opts := { o with coverArt := true }

/-- The atoms other than `covr`. -/
def uncovr (t : Ilst.Tag) : Ilst.Tag := t.filter fun a => decide (a.ident ≠ covr)

theorem atomOk_bare {o : Ilst.Opts} {a : Atom} (h : AtomOk (fullI o) a) (hc : a.ident ≠ covr) : AtomOk (bareI o) a := by
  refine ⟨h.1, h.2.1, fun d hd => ?_⟩
  have := h.2.2 d hd
  unfold ValueOk at this ⊢
  rw [if_neg (show ¬ a.ident = .fourcc (ascii "covr") from hc)] at this ⊢
  exact this

theorem atom_covers {o : Ilst.Opts} {a : Atom} (h : AtomOk (fullI o) a) (hc : a.ident = covr) : ∀ d ∈ a.data.toList, ∃ p, d = .picture p := by
  intro d hd
  have := h.2.2 d hd
  unfold ValueOk at this
  rw [if_pos (show a.ident = .fourcc (ascii "covr") from hc)] at this
  cases d with
  | picture p => exact ⟨p, rfl⟩
  | _ => exact this.2.elim

theorem ilstLoop_bare {o : Ilst.Opts} (t : Ilst.Tag) (h : ∀ a ∈ t, AtomOk (fullI o) a) : ∀ (fuel : Nat) (r : Rd) (acc : Ilst.Tag) (g : List Data),
    t.length < fuel → At r (t.flatMap atomBox) → (t.flatMap atomBox).length < 2 ^ 32 →
    ilstLoop (bareI o) fuel r acc g = .ok (acc ++ uncovr t, g) := by
  induction t with
  | nil =>
    intro fuel r acc g hf hr hl
    exact ilstLoop_ok (o := bareI o) [] (fun a ha => by cases ha) fuel r acc g hf hr hl
  | cons a t ih =>
    intro fuel r acc g hf hr hl
    rw [List.flatMap_cons] at hr hl
    rw [List.length_append] at hl
    cases fuel with
    | zero => omega
    | succ k =>
      have ha := h a (by simp)
      have h4 := header_ok ha.1
      have hlen := atomBox_length a h4
      rw [List.length_append] at hlen
      have hn := next_atom ha hr (by omega)
      rw [ilstLoop, show r.next (bareI o).mode = _ from hn]
      simp only
      have hr2 : At (r.skip (8 + (Ident.names a.ident).length)) (values a.data.toList ++ t.flatMap atomBox) := by
        have : atomBox a ++ t.flatMap atomBox = (beBytes 4 (8 + (Ident.names a.ident ++ values a.data.toList).length) ++ (Ident.header a.ident ++ Ident.names a.ident)) ++ (values a.data.toList ++ t.flatMap atomBox) := by
          rw [atomBox, box]
          simp only [List.append_assoc]
          rfl
        rw [this] at hr
        exact hr.skip (by simp [h4]; omega)
      have hr3 : At (r.skip (8 + (Ident.names a.ident).length + (values a.data.toList).length)) (t.flatMap atomBox) :=
        hr.skip (by omega)
      by_cases hc : a.ident = covr
      · have hs : ilstStep (bareI o) (r.skip (8 + (Ident.names a.ident).length)) ⟨r.pos, (atomBox a).length, false, a.ident⟩ acc g =
            .ok (acc, g, (r.skip (8 + (Ident.names a.ident).length)).skip (values a.data.toList).length) := by
          unfold ilstStep
          rw [hc]
          dsimp only [covr]
          rw [if_neg (by decide), if_pos rfl, if_neg (by simp [bareI])]
          unfold skipAtom
          have hz : (Ident.names (.fourcc (ascii "covr"))).length = 0 := rfl
          have e : (atomBox a).length % 2 ^ 32 = 8 + (values a.data.toList).length := by
            rw [Nat.mod_eq_of_lt (by omega), hlen, hc]
            exact congrArg (8 + ·) (Nat.zero_add _)
          simp only [Bool.not_false, if_true]
          rw [e, if_pos (by omega), ok_bind, show 8 + (values a.data.toList).length - 8 = (values a.data.toList).length by omega]
        rw [hs, ok_bind]
        simp only [skip_skip]
        rw [ih (fun x hx => h x (by simp [hx])) k _ _ _ (by simp at hf; omega) hr3 (by omega)]
        unfold uncovr
        rw [List.filter_cons_of_neg (by simp [hc])]
      · rw [ilstStep_ok (atomOk_bare ha hc) rfl hr2 (by simp only [skip_pos]; omega) (by omega), ok_bind]
        simp only [skip_skip]
        rw [ih (fun x hx => h x (by simp [hx])) k _ _ _ (by simp at hf; omega) hr3 (by omega)]
        unfold uncovr
        rw [List.filter_cons_of_pos (by simp [hc]), List.append_assoc]
        rfl

theorem parse_bare {o : Ilst.Opts} (t : Ilst.Tag) (h : ∀ a ∈ t, AtomOk (fullI o) a) (hl : (t.flatMap atomBox).length < 2 ^ 32) :
    Ilst.parse (bareI o) (t.flatMap atomBox) = .ok (uncovr t) := by
  have hlen : t.length ≤ (t.flatMap atomBox).length := by
    clear hl
    induction t with
    | nil => simp
    | cons a t ih =>
      have := ih fun x hx => h x (by simp [hx])
      rw [List.flatMap_cons, List.length_append, atomBox_length a (header_ok (h a (by simp)).1), List.length_cons]
      omega
  unfold Ilst.parse
  rw [ilstLoop_bare t h _ _ _ _ (by omega) (at_new _) hl, ok_bind]
  simp

/-! ## The generic tag -/
open Lofty.Convert

/-- A generic tag without its pictures. -/
def wipe (t : Item.Tag) : Item.Tag := { t with pictures := [] }

theorem wipe_insert (t : Item.Tag) (k : Item.ItemKey) (s : Str) : ((wipe t).insertText k s).2 = wipe (t.insertText k s).2 := by
  unfold Item.Tag.insertText Item.Tag.insert
  have : (wipe t).type = t.type := rfl
  rw [this]
  split <;> rfl

theorem wipe_positive (t : Item.Tag) (k : Item.ItemKey) (n : Nat) : insertPositive (wipe t) k n = wipe (insertPositive t k n) := by
  unfold insertPositive
  split
  · exact wipe_insert t k _
  · rfl

theorem wipe_mapped (t : Item.Tag) (m : Mapping) (s : Str) : pushMapped (wipe t) m s = wipe (pushMapped t m s) := by cases m <;> rfl

theorem wipe_data (i : Ident) {m : Mapping} (hm : m ≠ .picture) (t : Item.Tag) (d : Data) :
    splitData i m (wipe t) d = ((splitData i m t d).1, wipe (splitData i m t d).2) := by
  cases d with
  | utf8 s => exact congrArg (false, ·) (wipe_mapped t m s)
  | utf16 s => exact congrArg (false, ·) (wipe_mapped t m s)
  | bool b => exact congrArg (false, ·) (wipe_mapped t m _)
  | picture p => cases m <;> first | rfl | exact absurd rfl hm
  | unknown c b =>
    unfold splitData
    dsimp only
    split
    · split
      · rw [wipe_positive, wipe_positive]
      · rfl
    · rfl
  | _ => rfl

theorem wipe_values (i : Ident) {m : Mapping} (hm : m ≠ .picture) (l : List Data) : ∀ t : Item.Tag,
    splitValuesOf i m l (wipe t) = ((splitValuesOf i m l t).1, wipe (splitValuesOf i m l t).2) := by
  induction l with
  | nil => intro t; rfl
  | cons d l ih =>
    intro t
    unfold splitValuesOf
    rw [wipe_data i hm]
    dsimp only
    rw [ih]

theorem wipe_atom {a : Atom} (ha : a.ident ≠ covr) (t : Item.Tag) : splitAtom a (wipe t) = ((splitAtom a t).1, wipe (splitAtom a t).2) := by
  have hm : mappingOf a.ident ≠ .picture := by
    unfold mappingOf
    split
    · exact fun h => by cases h
    · rw [if_neg ha]; exact fun h => by cases h
  unfold splitAtom
  split
  · rfl
  · dsimp only
    rw [wipe_values a.ident hm]

theorem cover_atom {a : Atom} (ha : a.ident = covr) (hd : ∀ d ∈ a.data.toList, ∃ p, d = .picture p) (t : Item.Tag) :
    (splitAtom a t).1 = none ∧ wipe (splitAtom a t).2 = wipe t := by
  have hm : mappingOf covr = .picture := by decide +kernel
  have hv : ∀ (l : List Data) (t : Item.Tag), (∀ d ∈ l, ∃ p, d = .picture p) →
      (splitValuesOf covr .picture l t).1 = [] ∧ wipe (splitValuesOf covr .picture l t).2 = wipe t := by
    intro l
    induction l with
    | nil => intro t _; exact ⟨rfl, rfl⟩
    | cons d l ih =>
      intro t h
      obtain ⟨p, rfl⟩ := h d (by simp)
      have := ih (t.pushPicture p) fun d hd => h d (by simp [hd])
      exact ⟨this.1, this.2⟩
  unfold splitAtom
  rw [ha, hm]
  dsimp only
  have := hv a.data.toList t hd
  rw [this.1]
  exact ⟨rfl, this.2⟩

theorem wipe_atoms (l : Ilst.Tag) (h : ∀ a ∈ l, a.ident = covr → ∀ d ∈ a.data.toList, ∃ p, d = .picture p) : ∀ t : Item.Tag,
    splitAtoms (uncovr l) (wipe t) = ((splitAtoms l t).1, wipe (splitAtoms l t).2) := by
  induction l with
  | nil => intro t; rfl
  | cons a l ih =>
    intro t
    have ih := ih fun x hx => h x (by simp [hx])
    by_cases hc : a.ident = covr
    · have h1 := cover_atom hc (h a (by simp) hc) t
      have : uncovr (a :: l) = uncovr l := by unfold uncovr; rw [List.filter_cons_of_neg (by simp [hc])]
      rw [this, ← h1.2, ih]
      conv => rhs; unfold splitAtoms
      dsimp only
      rw [h1.1]
      rfl
    · have : uncovr (a :: l) = a :: uncovr l := by unfold uncovr; rw [List.filter_cons_of_pos (by simp [hc])]
      rw [this]
      unfold splitAtoms
      rw [wipe_atom hc]
      dsimp only
      rw [ih]

theorem ofIlst_bare {l : Ilst.Tag} (h : ∀ a ∈ l, a.ident = covr → ∀ d ∈ a.data.toList, ∃ p, d = .picture p) :
    (ofIlst false (uncovr l)).tag = { (ofIlst false l).tag with pictures := [] } := by
  have hw := wipe_atoms l h (Item.Tag.new .mp4Ilst)
  have he : wipe (Item.Tag.new .mp4Ilst) = Item.Tag.new .mp4Ilst := rfl
  rw [he] at hw
  unfold ofIlst splitIlst
  rw [hw]
  dsimp only
  unfold splitRating
  split
  · exact wipe_insert _ _ _
  · rfl

end Lofty.Covers
