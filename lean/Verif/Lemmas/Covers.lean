import Verif.Spec.Covers
import Verif.Props.Id3v2List
import Verif.Lemmas.Bytes
/-! # Lemmas for C77: ID3v2 -/
namespace Lofty.Covers
open Lofty.Id3v2

theorem shape_id (f : Frame) : (shape f).id = f.id := by cases f <;> rfl
theorem shape_cover (f : Frame) : IsCover (shape f) = IsCover f := by cases f <;> rfl
theorem shape_empty (f : Frame) : (shape f).isEmpty = f.isEmpty := by cases f <;> rfl
theorem shape_same (f g : Frame) : sameFrame (shape f) (shape g) = sameFrame f g := by cases f <;> cases g <;> rfl

/-- Does the frame make room for the other one? -/
def coll (f g : Frame) : Bool := if onePerTag.contains f.id.asStr then g.id = f.id else sameFrame g f

theorem coll_shape (f g : Frame) : coll (shape f) (shape g) = coll f g := by
  unfold coll
  rw [shape_id, shape_id, shape_same]

theorem coll_shape' {f f' : Frame} (h : shape f = shape f') (g : Frame) : coll f' (shape g) = coll f g := by
  have h1 : coll f' (shape g) = coll (shape f') (shape (shape g)) := (coll_shape _ _).symm
  have h2 : shape (shape g) = shape g := by cases g <;> rfl
  rw [h1, h2, ← h, coll_shape]

theorem coll_id {f g : Frame} (h : coll f g = true) : g.id = f.id := by
  unfold coll at h
  split at h
  · simpa using h
  · exact same_id ((sameFrame_iff _ _).mp h)

theorem insert_parts {l : List Frame} {f : Frame} (hd : Distinct l) (ho : OncePerTag l) (hf : picTypeOf f = none) :
    (insert l f).1 = (l.filter (coll f)).head? ∧ (insert l f).2.Perm (l.filter (fun g => !coll f g) ++ [f]) ∧ (l.filter (coll f)).length ≤ 1 := by
  by_cases h1 : onePerTag.contains f.id.asStr = true
  · have hc : coll f = fun g => decide (g.id = f.id) := by funext g; unfold coll; rw [if_pos h1]
    obtain ⟨d1, d2, -⟩ := drainFilter_spec (fun g : Frame => decide (g.id = f.id)) l
    unfold Id3v2.insert
    rw [if_pos h1, hc]
    unfold remove
    refine ⟨by rw [d1], d2.append_right _, ho f.id ?_⟩
    rw [← onePerTag_eq]
    simpa using h1
  · have hc : coll f = fun g => sameFrame g f := by funext g; unfold coll; rw [if_neg h1]
    unfold Id3v2.insert
    rw [if_neg h1, hc]
    rcases takeFirst_cases (fun g => sameFrame g f) l with ⟨h2, h3⟩ | ⟨a, g, b, rfl, h3, h4, h5⟩
    · rw [h3]
      have e1 : l.filter (fun g => sameFrame g f) = [] := List.filter_eq_nil_iff.mpr fun g hg => by simp [h2 g hg]
      have e2 : l.filter (fun g => !sameFrame g f) = l := List.filter_eq_self.mpr fun g hg => by simp [h2 g hg]
      rw [e1, e2]
      exact ⟨rfl, .refl _, by simp⟩
    · rw [h5]
      have hb : ∀ x ∈ b, sameFrame x f = false := by
        intro x hx
        cases hs : sameFrame x f with
        | false => rfl
        | true =>
          exfalso
          have hs := (sameFrame_iff _ _).mp hs
          have h4' := (sameFrame_iff _ _).mp h4
          have hgp := same_picType (same_symm h4') hf
          exact (List.pairwise_cons.mp (List.pairwise_append.mp hd).2.1).1 x hx hgp (same_join h4' hs)
      have e1 : (a ++ g :: b).filter (fun g => sameFrame g f) = [g] := by
        rw [List.filter_append, List.filter_cons_of_pos (by simpa using h4), List.filter_eq_nil_iff.mpr fun g hg => by simp [h3 g hg],
          List.filter_eq_nil_iff.mpr fun g hg => by simp [hb g hg]]
        rfl
      have e2 : (a ++ g :: b).filter (fun g => !sameFrame g f) = a ++ b := by
        rw [List.filter_append, List.filter_cons_of_neg (by simp [h4]), List.filter_eq_self.mpr fun g hg => by simp [h3 g hg],
          List.filter_eq_self.mpr fun g hg => by simp [hb g hg]]
      rw [e1, e2]
      exact ⟨rfl, .refl _, by simp⟩

/-- Both invariants of lists of frames. -/
def Good (l : List Frame) : Prop := Distinct l ∧ OncePerTag l

theorem good_nil : Good [] := ⟨List.Pairwise.nil, fun _ _ => by simp⟩

theorem good_insert {l : List Frame} (h : Good l) (f : Frame) : Good (insert l f).2 := ⟨insert_distinct h.1 f, insert_once_per_tag h.2 f⟩

theorem good_add {l : List Frame} (h : Good l) (f : Frame) : Good (addFrame l f) := by
  unfold addFrame
  split
  · exact good_insert h f
  · split
    · exact good_insert (good_insert h f) _
    · exact good_insert h f

theorem perm_one {α : Type} {l l' : List α} (h : l.Perm l') (h1 : l'.length ≤ 1) : l = l' := by
  match l', h1 with
  | [], _ => exact List.Perm.eq_nil h
  | [x], _ => exact List.perm_singleton.mp h

theorem filter_shape {f f' : Frame} (h : shape f = shape f') (l : List Frame) :
    (l.filter (coll f)).map shape = (l.map shape).filter (coll f') := by
  rw [List.filter_map]
  congr 2
  funext g
  exact (coll_shape' h g).symm

theorem filter_shape' {f f' : Frame} (h : shape f = shape f') (l : List Frame) :
    (l.filter (fun g => !coll f g)).map shape = (l.map shape).filter (fun g => !coll f' g) := by
  rw [List.filter_map]
  congr 2
  funext g
  simp only [Function.comp]
  rw [coll_shape' h]

theorem cover_id {f : Frame} (h : IsCover f = true) : f.id = .valid (str "APIC") := by
  cases f with
  | leaf fl c =>
    cases c <;> first | rfl | (simp only [IsCover] at h; exact of_decide_eq_true h) | cases h
  | chapter => cases h
  | toc => cases h

theorem same_cover {f g : Frame} (h : Same g f) : IsCover g = IsCover f := by
  cases f with
  | chapter => cases g <;> first | rfl | exact h.elim
  | toc => cases g <;> first | rfl | exact h.elim
  | leaf fa x =>
    cases g with
    | chapter => exact h.elim
    | toc => exact h.elim
    | leaf fb y =>
      cases x <;> cases y <;> first
        | exact h.elim
        | rfl
        | (obtain ⟨_, h2⟩ := h; rw [h2]; rfl)
        | (obtain ⟨_, h2⟩ := h; rw [h2])

theorem not_pic {f : Frame} (h : IsCover f = false) : picTypeOf f = none := by
  cases f with
  | leaf fl c => cases c <;> first | rfl | cases h
  | chapter => rfl
  | toc => rfl

/-- A frame that is not a picture makes no room among the pictures. -/
theorem coll_cover {f g : Frame} (hf : IsCover f = false) (hg : IsCover g = true) : coll f g = false := by
  cases h : coll f g with
  | false => rfl
  | true =>
    have hid := coll_id h
    unfold coll at h
    rw [cover_id hg] at hid
    split at h
    · rename_i h1
      rw [← hid] at h1
      exact absurd h1 (by decide)
    · rw [same_cover ((sameFrame_iff _ _).mp h), hf] at hg
      cases hg

theorem filter_cover {f : Frame} (hf : IsCover f = false) (l : List Frame) :
    (l.filter fun g => !IsCover g).filter (coll f) = l.filter (coll f) := by
  rw [List.filter_filter]
  refine List.filter_congr fun g _ => ?_
  cases hg : IsCover g with
  | false => simp
  | true => simp [coll_cover hf hg]

theorem filter_cover' (f : Frame) (l : List Frame) :
    (l.filter fun g => !IsCover g).filter (fun g => !coll f g) = (l.filter (fun g => !coll f g)).filter fun g => !IsCover g := by
  rw [List.filter_filter, List.filter_filter]
  refine List.filter_congr fun g _ => ?_
  cases IsCover g <;> cases coll f g <;> rfl

/-- Both sides add the same frame. -/
theorem insert_uncovered {l l' : List Frame} {f f' : Frame} (hs : shape f = shape f') (hf : IsCover f = false) (hl : Good l) (hl' : Good l')
    (h : Uncovered l l') : ((insert l f).1.map shape = (insert l' f').1.map shape) ∧ Uncovered (insert l f).2 (insert l' f').2 := by
  have hf' : IsCover f' = false := by rw [← shape_cover, ← hs, shape_cover]; exact hf
  obtain ⟨a1, a2, a3⟩ := insert_parts hl.1 hl.2 (not_pic hf)
  obtain ⟨b1, b2, b3⟩ := insert_parts hl'.1 hl'.2 (not_pic hf')
  have p1 : ((l'.filter (coll f')).map shape).Perm ((l.filter (coll f)).map shape) := by
    rw [filter_shape (f' := f) hs.symm, ← filter_cover hf l, filter_shape (f' := f) rfl]
    exact h.filter _
  constructor
  · rw [a1, b1, ← List.head?_map, ← List.head?_map, perm_one p1 (by rw [List.length_map]; exact a3)]
  · unfold Uncovered
    refine (b2.map shape).trans ?_
    refine List.Perm.trans ?_ ((a2.filter _).map shape).symm
    rw [List.map_append, List.filter_append, List.map_append, ← filter_cover' f l, filter_shape' (f' := f) hs.symm, filter_shape' (f' := f) rfl]
    refine (h.filter _).append ?_
    have : [f].filter (fun g => !IsCover g) = [f] := by simp [hf]
    rw [this, List.map_singleton, List.map_singleton, hs]

theorem insert_cover {l : List Frame} {f : Frame} (hf : IsCover f = true) : ((insert l f).2.filter fun g => !IsCover g) = l.filter (fun g => !IsCover g) ∧
    ∀ old, (insert l f).1 = some old → IsCover old = true := by
  have h1 : ¬ onePerTag.contains f.id.asStr = true := by rw [cover_id hf]; decide
  unfold Id3v2.insert
  rw [if_neg h1]
  have e0 : [f].filter (fun g => !IsCover g) = [] := by simp [hf]
  rcases takeFirst_cases (fun g => sameFrame g f) l with ⟨h2, h3⟩ | ⟨a, g, b, rfl, h3, h4, h5⟩
  · rw [h3]
    refine ⟨?_, fun old h => by cases h⟩
    rw [List.filter_append, e0, List.append_nil]
  · rw [h5]
    have hg : IsCover g = true := by rw [same_cover ((sameFrame_iff _ _).mp h4)]; exact hf
    refine ⟨?_, fun old h => by cases h; exact hg⟩
    simp only [List.filter_append, e0, List.append_nil]
    rw [List.filter_cons_of_neg (by simp [hg])]

theorem add_cover {l : List Frame} {f : Frame} (hf : IsCover f = true) : ((addFrame l f).filter fun g => !IsCover g) = l.filter fun g => !IsCover g := by
  obtain ⟨h1, h2⟩ := insert_cover (l := l) hf
  unfold addFrame
  split
  · exact h1
  · rename_i old ho
    split
    · rw [(insert_cover (h2 old ho)).1]; exact h1
    · exact h1

theorem add_uncovered {l l' : List Frame} {f f' : Frame} (hs : shape f = shape f') (hf : IsCover f = false) (hl : Good l) (hl' : Good l')
    (h : Uncovered l l') : Uncovered (addFrame l f) (addFrame l' f') := by
  obtain ⟨h1, h2⟩ := insert_uncovered hs hf hl hl' h
  have he : f'.isEmpty = f.isEmpty := by rw [← shape_empty, ← hs, shape_empty]
  unfold addFrame
  cases ho : (insert l f).1 with
  | none =>
    rw [ho] at h1
    cases ho' : (insert l' f').1 with
    | none => exact h2
    | some old => rw [ho'] at h1; cases h1
  | some old =>
    rw [ho] at h1
    cases ho' : (insert l' f').1 with
    | none => rw [ho'] at h1; cases h1
    | some old' =>
      rw [ho'] at h1
      injection h1 with h1
      have he' : old'.isEmpty = old.isEmpty := by rw [← shape_empty, ← h1, shape_empty]
      have hc : IsCover old = false := by
        obtain ⟨a1, -, -⟩ := insert_parts hl.1 hl.2 (not_pic hf)
        rw [ho] at a1
        have : coll f old = true := by
          have := List.mem_filter.mp (List.mem_of_head? a1.symm)
          exact this.2
        cases hi : IsCover old with
        | false => rfl
        | true => rw [coll_cover hf hi] at this; cases this
      simp only
      rw [he, he']
      split
      · exact (insert_uncovered h1 hc (good_insert hl f) (good_insert hl' f') h2).2
      · exact h2

/-! ## Reading -/

/-- What reading gives with and without pictures. -/
def Step (p p' : Parsed) : Prop :=
  match p with
  | .next f rest => (IsCover f = true ∧ p' = .skip rest) ∨ (IsCover f = false ∧ ∃ f', shape f = shape f' ∧ p' = .next f' rest)
  | p => p' = p

/-- Frames inside of chapters: the second reader reads whatever the first one reads, and stops at the same place. -/
def Inner (rc rc' : Bytes → Except Err (List Frame × Bytes)) : Prop := ∀ b l rest, rc b = .ok (l, rest) → ∃ l', rc' b = .ok (l', rest)

/-- The same without pictures. -/
def bare (o : ParseOpts) : ParseOpts := { o with readCover := false }
/-- The same with pictures. -/
def full (o : ParseOpts) : ParseOpts := { o with readCover := true }

theorem map_ok {α β : Type} {x : Except Err α} {g : α → β} {b : β} (h : x.map g = .ok b) : ∃ a, x = .ok a ∧ g a = b := by
  cases x with
  | error e => cases h
  | ok a => cases h; exact ⟨a, rfl, rfl⟩

theorem leaf_cover {o : ParseOpts} {v : Version} {id : FrameId} {r rest : Bytes} {c : Option Content} (h : parseLeaf o v id r = .ok (c, rest))
    (hid : id.asStr ≠ str "APIC") (fl : FrameFlags) : ∀ x, c = some x → IsCover (.leaf fl x) = false := by
  intro x hx
  subst hx
  unfold parseLeaf at h
  dsimp only at h
  rw [if_neg hid] at h
  have w : ∀ {α : Type} {k : α → Content} {y : Except Err (Option α × Bytes)}, (∀ a, IsCover (.leaf fl (k a)) = false) → wrap k y = .ok (some x, rest) →
      IsCover (.leaf fl x) = false := by
    intro α k y hk h
    obtain ⟨⟨a, b⟩, -, h⟩ := map_ok h
    cases a with
    | none => cases h
    | some a => cases h; exact hk a
  have w1 : ∀ {α : Type} {k : α → Content} {y : Except Err (α × Bytes)}, (∀ a, IsCover (.leaf fl (k a)) = false) → wrap1 k y = .ok (some x, rest) →
      IsCover (.leaf fl x) = false := by
    intro α k y hk h
    obtain ⟨⟨a, b⟩, -, h⟩ := map_ok h
    cases h; exact hk a
  have st : ∀ {P : Prop} [Decidable P] {a b c : Except Err (Option Content × Bytes)}, (if P then a else b) = c → a = c ∨ b = c := by
    intro P _ a b c h
    by_cases hp : P
    · rw [if_pos hp] at h; exact .inl h
    · rw [if_neg hp] at h; exact .inr h
  iterate 15
    rcases st h with h | h
    · first
      | exact w (fun _ => rfl) h
      | exact w1 (fun _ => rfl) h
  obtain ⟨rfl⟩ := h
  simp only [IsCover]
  refine decide_eq_false ?_
  intro e
  rw [e] at hid
  exact hid rfl

theorem inner_content {rc rc' : Bytes → Except Err (List Frame × Bytes)} (hrc : Inner rc rc') {o : ParseOpts} {v : Version} {id : FrameId}
    {fl : FrameFlags} {r rest : Bytes} {f : Option Frame} (hid : id.asStr ≠ str "APIC") (h : parseContent rc (full o) v id fl r = .ok (f, rest)) :
    (∀ x, f = some x → IsCover x = false) ∧ ∃ f', parseContent rc' (bare o) v id fl r = .ok (f', rest) ∧ f.map shape = f'.map shape := by
  unfold parseContent at h ⊢
  split at h
  · rename_i hc
    obtain ⟨⟨x, y⟩, h1, h'⟩ := map_ok h
    clear h
    cases h'
    have h := h1
    clear h1
    unfold parseChapter at h ⊢
    split at h
    · cases h
    · rename_i hv
      obtain ⟨⟨a, r1⟩, e1, h⟩ := bind_ok h
      obtain ⟨⟨b, r2⟩, e2, h⟩ := bind_ok h
      obtain ⟨⟨c, r3⟩, e3, h⟩ := bind_ok h
      obtain ⟨⟨d, r4⟩, e4, h⟩ := bind_ok h
      obtain ⟨⟨e, r5⟩, e5, h⟩ := bind_ok h
      obtain ⟨⟨ch, r6⟩, e6, h⟩ := bind_ok h
      cases h
      obtain ⟨ch', e6⟩ := hrc _ _ _ e6
      refine ⟨fun x hx => by cases hx; rfl, some (.chapter fl a.content (b, c) (d, e) ch'), ?_, rfl⟩
      rw [if_pos hc, if_neg hv, e1, ok_bind]
      simp only
      rw [e2, ok_bind]
      simp only
      rw [e3, ok_bind]
      simp only
      rw [e4, ok_bind]
      simp only
      rw [e5, ok_bind]
      simp only
      rw [e6, ok_bind]
      rfl
  · rename_i hc1
    split at h
    · rename_i hc
      obtain ⟨⟨x, y⟩, h1, h'⟩ := map_ok h
      clear h
      cases h'
      have h := h1
      clear h1
      unfold parseToc at h ⊢
      split at h
      · cases h
      · rename_i hv
        obtain ⟨⟨a, r1⟩, e1, h⟩ := bind_ok h
        obtain ⟨⟨b, r2⟩, e2, h⟩ := bind_ok h
        obtain ⟨⟨c, r3⟩, e3, h⟩ := bind_ok h
        obtain ⟨⟨d, r4⟩, e4, h⟩ := bind_ok h
        obtain ⟨⟨ch, r6⟩, e6, h⟩ := bind_ok h
        cases h
        obtain ⟨ch', e6⟩ := hrc _ _ _ e6
        refine ⟨fun x hx => by cases hx; rfl, some (.toc fl a.content (b &&& 2 == 2) (b &&& 1 == 1) d ch'), ?_, rfl⟩
        rw [if_neg hc1, if_pos hc, if_neg hv, e1, ok_bind]
        simp only
        rw [e2, ok_bind]
        simp only
        rw [e3, ok_bind]
        simp only
        rw [e4, ok_bind]
        simp only
        rw [e6, ok_bind]
        rfl
    · rename_i h2
      rw [if_neg hc1, if_neg h2]
      have e : parseLeaf (bare o) v id r = parseLeaf (full o) v id r := rfl
      rw [e, h]
      refine ⟨?_, f, rfl, rfl⟩
      obtain ⟨⟨c, r'⟩, hl, h'⟩ := map_ok h
      cases h'
      intro x hx
      cases c with
      | none => cases hx
      | some c => cases hx; exact leaf_cover hl hid _ _ rfl

theorem take_drop {r r' : Bytes} {size k : Nat} (h : r' = r.drop k) (hk : k ≤ size) : r'.drop (size - k) = r.drop size := by
  rw [h, List.drop_drop]
  congr 1
  omega

theorem flagData_drop {fl fl' : FrameFlags} {size size' : Nat} {r r' : Bytes} (h : flagData fl size r = .ok (fl', size', r')) :
    r'.drop size' = r.drop size := by
  have u8 : ∀ {r r1 : Bytes} {x : UInt8}, readU8 r = .ok (x, r1) → r1 = r.drop 1 := by
    intro r r1 x h
    cases r with
    | nil => cases h
    | cons a r => cases h; rfl
  unfold flagData at h
  obtain ⟨⟨fl1, s1, r1⟩, h1, h⟩ := bind_ok h
  obtain ⟨⟨fl2, s2, r2⟩, h2, h⟩ := bind_ok h
  have a1 : r1.drop s1 = r.drop size := by
    unfold flagData.encryptionSymbol at h1
    split at h1
    · split at h1
      · cases h1
      · obtain ⟨⟨x, y⟩, hx, h1⟩ := map_ok h1
        cases h1
        exact take_drop (u8 hx) (by omega)
    · cases h1; rfl
  have a2 : r2.drop s2 = r1.drop s1 := by
    unfold flagData.groupIdentifier at h2
    split at h2
    · split at h2
      · cases h2
      · obtain ⟨⟨x, y⟩, hx, h2⟩ := map_ok h2
        cases h2
        exact take_drop (u8 hx) (by omega)
    · cases h2; rfl
  have a3 : r'.drop size' = r2.drop s2 := by
    unfold flagData.dataLengthIndicator at h
    simp only at h
    split at h
    · split at h
      · cases h
      · obtain ⟨⟨x, y⟩, hx, h⟩ := map_ok h
        cases h
        refine take_drop ?_ (by omega)
        obtain ⟨a, h1, h2, -⟩ := readBE_ok hx
        rw [h1, ← h2, List.drop_left]
    · cases h; rfl
  rw [a3, a2, a1]

theorem known_step {rc rc' : Bytes → Except Err (List Frame × Bytes)} (hrc : Inner rc rc') {o : ParseOpts} {v : Version} {u : Bool} {id : FrameId}
    {fl : FrameFlags} {size : Nat} {r : Bytes} {p : Parsed} (hid : ∀ s, id = .outdated s → s ≠ str "APIC")
    (h : readKnown rc (full o) v u id fl size r = .ok p) : ∃ p', readKnown rc' (bare o) v u id fl size r = .ok p' ∧ Step p p' := by
  by_cases hA : id = .valid (str "APIC")
  · subst hA
    refine ⟨.skip (r.drop size), ?_, ?_⟩
    · unfold readKnown
      rw [if_pos ⟨rfl, rfl⟩]
    · unfold readKnown at h
      rw [if_neg (by rintro ⟨h, -⟩; cases h)] at h
      dsimp only at h
      split at h
      · rename_i h0
        split at h
        · cases h
        · cases h
          rw [h0]
          rfl
      · obtain ⟨⟨fl', size', r'⟩, h1, h⟩ := bind_ok h
        have hd := flagData_drop h1
        rw [← hd]
        simp only at h
        unfold readBody at h
        split at h
        · cases h
        · obtain ⟨c, h2, h⟩ := bind_ok h
          have hleft : ∀ left, (fl'.unsync || fl'.compression) = true ∨ left = [] → leftover fl' left (r'.drop size') = r'.drop size' := by
            intro left hl
            unfold leftover
            rcases hl with hl | hl
            · rw [if_pos hl]
            · rw [hl]; split <;> rfl
          split at h
          · unfold handleEncryption at h
            split at h
            · cases h
            · obtain ⟨⟨x, y⟩, h3, h⟩ := map_ok h
              cases h
              rw [hleft]
              · exact .inl ⟨by simp [IsCover], rfl⟩
              · by_cases hb : (fl'.unsync || fl'.compression) = true
                · exact .inl hb
                · right
                  have hu : fl'.unsync = false := by
                    cases e : fl'.unsync with
                    | false => rfl
                    | true => rw [e] at hb; exact absurd rfl hb
                  have hcm : fl'.compression = false := by
                    cases e : fl'.compression with
                    | false => rfl
                    | true => rw [e, Bool.or_true] at hb; exact absurd rfl hb
                  unfold handleCompression at h2
                  rw [hcm, if_neg (by decide), hu] at h2
                  cases h2
                  obtain ⟨e1, e2⟩ := readN_ok h3
                  have hl : (r'.take size').length ≤ size' := by rw [List.length_take]; omega
                  rw [if_neg (by decide)] at e1
                  rw [e1, List.length_append, e2] at hl
                  have hl : y.length = 0 := by omega
                  exact List.length_eq_zero_iff.mp hl
          · unfold parseFrame at h
            obtain ⟨⟨x, y⟩, h3, h⟩ := map_ok h
            unfold parseContent at h3
            rw [if_neg (by decide), if_neg (by decide)] at h3
            obtain ⟨⟨x1, y1⟩, h4, h3⟩ := map_ok h3
            unfold parseLeaf at h4
            dsimp only at h4
            rw [if_pos (show (FrameId.valid (str "APIC")).asStr = str "APIC" from rfl)] at h4
            obtain ⟨⟨x2, y2⟩, h5, h4⟩ := map_ok h4
            have hy : y2 = [] := by
              unfold PicF.parse at h5
              obtain ⟨_, -, h5⟩ := bind_ok h5
              obtain ⟨_, -, h5⟩ := bind_ok h5
              obtain ⟨_, -, h5⟩ := bind_ok h5
              obtain ⟨_, -, h5⟩ := bind_ok h5
              obtain ⟨_, -, h5⟩ := bind_ok h5
              cases h5
              rfl
            cases h4
            cases h3
            subst hy
            cases h
            rw [hleft _ (.inr rfl)]
            exact .inl ⟨rfl, rfl⟩
  · have hs : id.asStr ≠ str "APIC" := by
      cases id with
      | valid s => exact fun e => hA (congrArg FrameId.valid e)
      | outdated s => exact hid s rfl
    have e : readKnown rc' (bare o) v u id fl size r = (if size = 0 then (if o.mode = .strict then .error .parse else .ok (.skip r))
        else do
          let (flags, size, r) ← flagData (if u && v == .v4 then { fl with unsync := true } else fl) size r
          readBody rc' (bare o) v id flags size r) := by
      unfold readKnown
      rw [if_neg (fun h => hA h.2)]
      rfl
    rw [e]
    unfold readKnown at h
    rw [if_neg (by rintro ⟨h, -⟩; cases h)] at h
    dsimp only at h
    split at h
    · rename_i h0
      split at h
      · cases h
      · rename_i hm
        cases h
        rw [if_pos h0, if_neg (show ¬ o.mode = .strict from hm)]
        exact ⟨_, rfl, rfl⟩
    · rename_i h0
      obtain ⟨⟨fl', size', r'⟩, h1, h⟩ := bind_ok h
      rw [if_neg h0, h1, ok_bind]
      simp only at h ⊢
      unfold readBody at h ⊢
      split at h
      · cases h
      · rename_i hz
        obtain ⟨c, h2, h⟩ := bind_ok h
        have h2' : handleCompression (bare o) fl' (if fl'.unsync then Synchsafe.desync (r'.take size') else r'.take size') = .ok c := h2
        rw [if_neg hz]
        dsimp only
        rw [h2', ok_bind]
        split at h
        · rename_i he
          rw [if_pos he, h]
          refine ⟨_, rfl, ?_⟩
          unfold handleEncryption at h
          split at h
          · cases h
          · obtain ⟨⟨x, y⟩, h3, h⟩ := map_ok h
            cases h
            exact .inr ⟨decide_eq_false hA, _, rfl, rfl⟩
        · rename_i he
          rw [if_neg he]
          unfold parseFrame at h ⊢
          obtain ⟨⟨x, y⟩, h3, h⟩ := map_ok h
          obtain ⟨k1, f', k2, k3⟩ := inner_content hrc hs h3
          rw [k2]
          refine ⟨_, rfl, ?_⟩
          cases x with
          | none =>
            cases f' with
            | none => cases h; rfl
            | some f' => cases k3
          | some x =>
            cases f' with
            | none => cases k3
            | some f' =>
              cases h
              injection k3 with k3
              exact .inr ⟨k1 x rfl, f', k3, rfl⟩

theorem outdated_name {v : Version} {b : Bool} {r rest : Bytes} {id : FrameId} {fl : FrameFlags} {size : Nat}
    (h : parseFrameHeader v b r = .frame id fl size rest) : ∀ s, id = .outdated s → s ≠ str "APIC" := by
  have hn : ∀ {m : Str} {s : Str}, FrameId.new m = .ok (.outdated s) → s ≠ str "APIC" := by
    intro m s h
    unfold FrameId.new at h
    split at h
    · cases h
    · split at h
      · rename_i hl
        cases h
        intro e
        rw [e] at hl
        exact absurd hl (by decide)
      · split at h <;> cases h
  have hf : ∀ {i : Except Err FrameId} {fl' : FrameFlags} {n : Nat} {b : Bytes}, FrameHeader.ofId i fl' n b = .frame id fl size rest → i = .ok id := by
    intro i fl' n b h
    cases i with
    | error e => cases h
    | ok i => cases h; rfl
  intro s hs
  subst hs
  unfold parseFrameHeader at h
  have h34 : ∀ b1 b2 a b c d, idV34 b1 b2 a b c d = .ok (.outdated s) → s ≠ str "APIC" := by
    intro b1 b2 a b c d h
    unfold idV34 at h
    split at h <;> split at h
    · exact hn h
    · cases h
    · exact hn h
    · cases h
  cases v with
  | v2 =>
    simp only at h
    unfold parseHeaderV2 at h
    split at h
    · split at h
      · cases h
      · have := hf h
        unfold idV2 at this
        split at this
        · exact hn this
        · cases this
    · cases h
  | v3 =>
    simp only at h
    unfold parseHeaderV34 at h
    split at h
    · split at h
      · cases h
      · exact h34 _ _ _ _ _ _ (hf h)
    · cases h
  | v4 =>
    simp only at h
    unfold parseHeaderV34 at h
    split at h
    · split at h
      · cases h
      · exact h34 _ _ _ _ _ _ (hf h)
    · cases h

theorem frame_step {rc rc' : Bytes → Except Err (List Frame × Bytes)} (hrc : Inner rc rc') {o : ParseOpts} {v : Version} {u : Bool} {r : Bytes}
    {p : Parsed} (h : readFrame rc (full o) v u r = .ok p) : ∃ p', readFrame rc' (bare o) v u r = .ok p' ∧ Step p p' := by
  unfold readFrame at h ⊢
  have e1 : (full o).implicit = o.implicit := rfl
  have e2 : (bare o).implicit = o.implicit := rfl
  rw [e1] at h
  rw [e2]
  cases hh : parseFrameHeader v o.implicit r with
  | none => rw [hh] at h; cases h; exact ⟨_, rfl, rfl⟩
  | bad size rest =>
    rw [hh] at h
    simp only at h ⊢
    split at h
    · cases h
    · rename_i hm
      rw [if_neg (show ¬ (bare o).mode = .strict from hm)]
      cases h
      exact ⟨_, rfl, rfl⟩
  | frame id fl size rest =>
    rw [hh] at h
    exact known_step hrc (outdated_name hh) h

theorem loop_covers {rc rc' : Bytes → Except Err (List Frame × Bytes)} (hrc : Inner rc rc') {o : ParseOpts} {v : Version} {u : Bool} (n : Nat) :
    ∀ {r rest : Bytes} {l l' l1 : List Frame}, Good l → Good l' → Uncovered l l' → readLoop rc (full o) v u n r l = .ok (l1, rest) →
      ∃ l2, readLoop rc' (bare o) v u n r l' = .ok (l2, rest) ∧ Uncovered l1 l2 ∧ Good l1 ∧ Good l2 := by
  induction n with
  | zero => intro r rest l l' l1 _ _ _ h; cases h
  | succ n ih =>
    intro r rest l l' l1 g g' hu h
    unfold readLoop at h ⊢
    cases hp : readFrame rc (full o) v u r with
    | error e => rw [hp] at h; cases h
    | ok p =>
      obtain ⟨p', hp', hs⟩ := frame_step hrc hp
      rw [hp] at h
      rw [hp']
      cases p with
      | eof rs => cases hs; cases h; exact ⟨l', rfl, hu, g, g'⟩
      | skip rs => cases hs; exact ih g g' hu h
      | next f rs =>
        simp only at h
        rcases hs with ⟨hc, rfl⟩ | ⟨hc, f', hsh, rfl⟩
        · exact ih (good_add g f) g' (by unfold Uncovered; rw [add_cover hc]; exact hu) h
        · exact ih (good_add g f) (good_add g' f') (add_uncovered hsh hc g g' hu) h

theorem readAll_covers (o : ParseOpts) (v : Version) (d : Nat) : ∀ {u : Bool} {r rest : Bytes} {l : List Frame}, readAll (full o) v d u r = .ok (l, rest) →
    ∃ l', readAll (bare o) v d u r = .ok (l', rest) ∧ Uncovered l l' ∧ Good l ∧ Good l' := by
  induction d with
  | zero => intro u r rest l h; cases h
  | succ d ih =>
    intro u r rest l h
    unfold readAll at h ⊢
    refine loop_covers ?_ _ good_nil good_nil (List.Perm.refl _) h
    intro b l rest h
    obtain ⟨l', h, -⟩ := ih h
    exact ⟨l', h⟩

end Lofty.Covers
