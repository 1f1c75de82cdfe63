import Verif.Lemmas.CoversTag
import Verif.Lemmas.Ascii
/-! # Lemmas for C77: files -/
namespace Lofty.Covers
open Lofty.Id3v2 Lofty.FileTags

/-- Whatever the first computation gives, the second gives something related to it. -/
def Rel {α β : Type} (R : α → β → Prop) (x : Except Err α) (y : Except Err β) : Prop := ∀ a, x = .ok a → ∃ b, y = .ok b ∧ R a b

theorem Rel.bind {α β γ δ : Type} {R : α → β → Prop} {S : γ → δ → Prop} {x : Except Err α} {y : Except Err β} {f : α → Except Err γ}
    {g : β → Except Err δ} (h : Rel R x y) (hf : ∀ a b, R a b → Rel S (f a) (g b)) : Rel S (x >>= f) (y >>= g) := by
  intro c hc
  obtain ⟨a, h1, h2⟩ := bind_ok hc
  obtain ⟨b, h3, h4⟩ := h a h1
  rw [h3, ok_bind]
  exact hf a b h4 c h2

theorem Rel.same {α γ δ : Type} {S : γ → δ → Prop} {x : Except Err α} {f : α → Except Err γ} {g : α → Except Err δ} (hf : ∀ a, Rel S (f a) (g a)) :
    Rel S (x >>= f) (x >>= g) := by
  intro c hc
  obtain ⟨a, h1, h2⟩ := bind_ok hc
  rw [h1, ok_bind]
  exact hf a c h2

theorem Rel.map {α β γ δ : Type} {R : α → β → Prop} {S : γ → δ → Prop} {x : Except Err α} {y : Except Err β} {f : α → γ} {g : β → δ} (h : Rel R x y)
    (hf : ∀ a b, R a b → S (f a) (g b)) : Rel S (x.map f) (y.map g) := by
  intro c hc
  obtain ⟨a, h1, rfl⟩ := map_ok hc
  obtain ⟨b, h3, h4⟩ := h a h1
  exact ⟨g b, by rw [h3]; rfl, hf a b h4⟩

theorem Rel.ok {α β : Type} {R : α → β → Prop} {a : α} {b : β} (h : R a b) : Rel R (.ok a) (.ok b) := by
  intro c hc; cases hc; exact ⟨b, rfl, h⟩

theorem Rel.error {α β : Type} {R : α → β → Prop} {e : Err} {y : Except Err β} : Rel R (.error e) y := by
  intro c hc; cases hc

theorem Rel.ite {α β : Type} {R : α → β → Prop} {P : Prop} [Decidable P] {a b : Except Err α} {c d : Except Err β} (h1 : P → Rel R a c) (h2 : ¬ P → Rel R b d) :
    Rel R (if P then a else b) (if P then c else d) := by
  by_cases h : P
  · rw [if_pos h, if_pos h]; exact h1 h
  · rw [if_neg h, if_neg h]; exact h2 h

theorem Rel.refl {α : Type} {R : α → α → Prop} (h : ∀ a, R a a) (x : Except Err α) : Rel R x x := fun a ha => ⟨a, ha, h a⟩

/-! ## The relations -/

/-- ID3v2 tags. -/
def RId3 (d : Bool) (t t' : Id3Tag) : Prop := Sans d t.frames t'.frames ∧ Good t.frames ∧ Good t'.frames

/-- There may be none. -/
def ROpt {α : Type} (R : α → α → Prop) : Option α → Option α → Prop
  | none, none => True
  | some a, some b => R a b
  | _, _ => False

/-- The items of APE tags that have a generic key. -/
def known (l : List Ape.Item) : List Ape.Item := l.filter fun i => (Item.fromKey .ape i.key).isSome

/-- APE tags. -/
def RApe (t t' : Ape.Tag) : Prop := known t.items = known t'.items

/-- The options without pictures. -/
def bareF (o : Opts) : Opts := { o with id3 := bare o.id3 }
/-- The options with pictures. -/
def fullF (o : Opts) : Opts := { o with id3 := full o.id3 }

theorem ROpt.refl {α : Type} {R : α → α → Prop} (h : ∀ a, R a a) (a : Option α) : ROpt R a a := by
  cases a with
  | none => trivial
  | some a => exact h a

theorem parseId3_rel (o : Opts) (h : Id3v2.Header) (c : Bytes) : Rel (RId3 o.id3.implicit) (parseId3 (fullF o) h c) (parseId3 (bareF o) h c) := by
  unfold parseId3
  refine Rel.bind (R := fun l l' => Sans o.id3.implicit l l' ∧ Good l ∧ Good l') ?_ ?_
  · intro l hl
    exact parse_covers hl
  · intro l l' hl
    exact Rel.ok hl

theorem contentOf_rel (o : Opts) (r : Option (Id3v2.Header × Option Bytes)) :
    Rel (ROpt (RId3 o.id3.implicit)) (contentOf (fullF o) r) (contentOf (bareF o) r) := by
  unfold contentOf
  split
  · exact (parseId3_rel o _ _).map fun _ _ h => h
  · exact Rel.ok trivial

theorem add_rel {d : Bool} {a a' b b' : Id3Tag} (h : RId3 d a a') (h2 : RId3 d b b') : RId3 d (addFrames a b.frames) (addFrames a' b'.frames) :=
  ⟨sans_inserted h.2.1 h.2.2 h2.2.1 h2.2.2 h.1 h2.1, good_inserted _ h.2.1, good_inserted _ h.2.2⟩

/-! ## APE tags -/

theorem fromKey_ic {a b : Str} (h : eqIc a b = true) : Item.fromKey .ape a = Item.fromKey .ape b := by
  unfold Item.fromKey
  congr 1
  funext rows
  unfold Item.lookup
  congr 2
  funext e
  rw [eqIc_comm _ a, eqIc_comm _ b, eqIc_congr h]

theorem picture_unknown : ∀ k ∈ Picture.apePictureTypes, Item.fromKey .ape k = none := by decide +kernel

theorem insert_known (l : List Ape.Item) (i : Ape.Item) : known (Ape.insert l i) = (known l).filter (fun j => !eqIc j.key i.key) ++ known [i] := by
  unfold Ape.insert Ape.remove known
  rw [List.filter_append, List.filter_filter, List.filter_filter]
  refine congrArg (· ++ _) (List.filter_congr fun j _ => Bool.and_comm _ _)

theorem insert_unknown {l : List Ape.Item} {i : Ape.Item} (h : Item.fromKey .ape i.key = none) : known (Ape.insert l i) = known l := by
  rw [insert_known]
  have : known [i] = [] := by unfold known; simp [h]
  rw [this, List.append_nil]
  refine List.filter_eq_self.mpr fun j hj => ?_
  have hj := (List.mem_filter.mp hj).2
  cases he : eqIc j.key i.key with
  | false => rfl
  | true => rw [fromKey_ic he, h] at hj; cases hj

theorem new_key {k : Str} {v : Ape.Value} {i : Ape.Item} (h : Ape.Item.new k v = .ok i) : i.key = k := by
  unfold Ape.Item.new at h
  split at h
  · cases h; rfl
  · cases h

theorem itemsAt_rel (f : Bytes) (n : Nat) : ∀ (rem pos : Nat) {a a' : List Ape.Item}, known a = known a' →
    Rel (fun x y => known x.1 = known y.1 ∧ x.2 = y.2) (readItemsAt true f n rem pos a) (readItemsAt false f n rem pos a') := by
  induction n with
  | zero => intro rem pos a a' h; exact Rel.ok ⟨h, rfl⟩
  | succ n ih =>
    intro rem pos a a' h
    unfold readItemsAt
    refine Rel.ite (fun _ => Rel.ok ⟨h, rfl⟩) fun _ => ?_
    refine Rel.same ?_
    rintro ⟨size, r⟩
    refine Rel.ite (fun _ => Rel.error) fun _ => ?_
    refine Rel.same ?_
    rintro ⟨flags, r⟩
    refine Rel.same ?_
    rintro ⟨kb, r⟩
    refine Rel.same ?_
    intro key
    cases hk : Picture.apePictureTypes.contains key with
    | false =>
      simp only [Bool.false_and, Bool.false_eq_true, if_false]
      refine Rel.same ?_
      rintro ⟨i, r⟩
      refine ih _ _ ?_
      rw [insert_known, insert_known, h]
    | true =>
      simp only [Bool.not_true, Bool.and_false, Bool.false_eq_true, if_false, Bool.not_false, Bool.and_true, if_true]
      intro c hc
      obtain ⟨⟨i, r⟩, h1, hc⟩ := bind_ok hc
      refine ih _ _ ?_ c hc
      have hi : i.key = key := by
        unfold Ape.parseItem at h1
        obtain ⟨⟨v, r1⟩, -, h1⟩ := bind_ok h1
        obtain ⟨val, -, h1⟩ := bind_ok h1
        obtain ⟨j, h2, h1⟩ := bind_ok h1
        cases h1
        exact (new_key h2 : j.key = key)
      rw [insert_unknown, h]
      rw [hi]
      exact picture_unknown key (by simpa using hk)

theorem apeWith_rel (o : Opts) (f : Bytes) (h : Ape.Header) (pos : Nat) :
    Rel (fun x y => RApe x.1 y.1 ∧ x.2 = y.2) (readApeWith (fullF o) f h pos) (readApeWith (bareF o) f h pos) := by
  unfold readApeWith
  refine (itemsAt_rel f h.count h.size pos rfl).bind ?_
  rintro ⟨a, p⟩ ⟨b, q⟩ ⟨h1, h2⟩
  cases h2
  exact Rel.ok ⟨h1, rfl⟩

theorem ape_rel (o : Opts) (f : Bytes) (pos : Nat) (footer : Bool) :
    Rel (fun x y => ROpt RApe x.1 y.1 ∧ x.2 = y.2) (readApe (fullF o) f pos footer) (readApe (bareF o) f pos footer) := by
  unfold readApe
  refine Rel.same fun p => ?_
  refine Rel.ite (fun _ => Rel.ok ⟨trivial, rfl⟩) fun _ => ?_
  refine Rel.same ?_
  rintro ⟨h, next⟩
  have e1 : (fullF o).readTags = o.readTags := rfl
  have e2 : (bareF o).readTags = o.readTags := rfl
  rw [e1, e2]
  refine Rel.ite (fun _ => ?_) fun _ => Rel.ok ⟨trivial, rfl⟩
  refine (apeWith_rel o f h next).bind ?_
  rintro ⟨a, p⟩ ⟨b, q⟩ ⟨h1, h2⟩
  cases h2
  exact Rel.ok ⟨h1, rfl⟩

/-- What is found at the end. -/
def RTail (t t' : Tail) : Prop := t.hasV1 = t'.hasV1 ∧ t.v1 = t'.v1 ∧ ROpt RApe t.ape t'.ape ∧ t.header = t'.header ∧ t.pos = t'.pos

theorem tail_rel (o : Opts) (f : Bytes) : Rel RTail (tail (fullF o) f) (tail (bareF o) f) := by
  unfold tail
  refine Rel.same ?_
  rintro ⟨found, v1, q⟩
  refine Rel.ite (fun _ => Rel.error) fun _ => ?_
  refine Rel.ite (fun _ => Rel.error) fun _ => ?_
  refine (ape_rel o f _ _).bind ?_
  rintro ⟨a, h, p⟩ ⟨b, h', p'⟩ ⟨h1, h2⟩
  cases h2
  exact Rel.ok ⟨rfl, rfl, h1, rfl, rfl⟩

/-! ## MPEG -/

/-- What is found in front. -/
def RFront (d : Bool) (t t' : Front) : Prop := ROpt (RId3 d) t.id3v2 t'.id3v2 ∧ ROpt RApe t.ape t'.ape

theorem ROpt.isNone {α : Type} {R : α → α → Prop} {a b : Option α} (h : ROpt R a b) : a.isNone = b.isNone := by
  cases a <;> cases b <;> first | rfl | exact h.elim

theorem junk_rel (o : Opts) (f : Bytes) (off : Nat) {st st' : Front} (h : RFront o.id3.implicit st st') :
    Rel (RFront o.id3.implicit) (junkTag (fullF o) f off st) (junkTag (bareF o) f off st') := by
  unfold junkTag
  rw [h.1.isNone]
  refine Rel.ite (fun _ => ?_) fun _ => Rel.ok h
  refine Rel.same ?_
  rintro ⟨r, p⟩
  simp only
  split
  · refine (parseId3_rel o _ _).bind fun a b hab => ?_
    exact Rel.ok ⟨hab, h.2⟩
  · exact Rel.ok h

theorem front_rel (o : Opts) (f : Bytes) (n : Nat) : ∀ (pos : Nat) {st st' : Front}, RFront o.id3.implicit st st' →
    Rel (fun x y => RFront o.id3.implicit x.1 y.1 ∧ x.2 = y.2) (front (fullF o) f n pos st) (front (bareF o) f n pos st') := by
  induction n with
  | zero => intro pos st st' h; exact Rel.error
  | succ n ih =>
    intro pos st st' h
    unfold front
    split
    · exact Rel.ok ⟨h, rfl⟩
    · refine Rel.ite (fun _ => ?_) fun _ => Rel.ite (fun _ => ?_) fun _ => ?_
      · split
        · exact Rel.error
        · rename_i hh p _
          dsimp only
          have e1 : (fullF o).readTags = o.readTags := rfl
          have e2 : (bareF o).readTags = o.readTags := rfl
          rw [e1, e2]
          refine Rel.ite (fun _ => ?_) fun _ => ih _ h
          refine (parseId3_rel o _ _).bind fun a b hab => ?_
          obtain ⟨h1, h2⟩ := h
          revert h1
          cases st.id3v2 with
          | none =>
            cases st'.id3v2 with
            | none => intro h1; exact ih _ ⟨hab, h2⟩
            | some _ => intro h1; exact h1.elim
          | some old =>
            cases st'.id3v2 with
            | none => intro h1; exact h1.elim
            | some old' => intro h1; exact ih _ ⟨add_rel h1 hab, h2⟩
      · refine Rel.same fun r => ?_
        refine Rel.ite (fun _ => ?_) fun _ => Rel.error
        refine Rel.same ?_
        rintro ⟨hh, next⟩
        have e1 : (fullF o).readTags = o.readTags := rfl
        have e2 : (bareF o).readTags = o.readTags := rfl
        rw [e1, e2]
        refine Rel.ite (fun _ => ?_) fun _ => ih _ h
        refine (apeWith_rel o f hh next).bind ?_
        rintro ⟨a, p⟩ ⟨b, q⟩ ⟨h1, h2⟩
        cases h2
        exact ih _ ⟨h.1, h1⟩
      · refine Rel.same fun r => ?_
        split
        · exact Rel.ok ⟨h, rfl⟩
        · refine (junk_rel o f _ h).bind fun a b hab => ?_
          exact Rel.ok ⟨hab, rfl⟩

theorem mpegEnd_rel {t t' : Tail} (h : RTail t t') {a a' : Option Ape.Tag} (ha : ROpt RApe a a') :
    Rel (fun x y => ROpt RApe x.1 y.1 ∧ x.2 = y.2) (mpegEnd t a) (mpegEnd t' a') := by
  unfold mpegEnd
  obtain ⟨-, -, h1, h2, h3⟩ := h
  rw [h2, h3]
  split
  · exact Rel.ite (fun _ => Rel.error) fun _ => Rel.ok ⟨h1, rfl⟩
  · exact Rel.ok ⟨ha, rfl⟩

theorem mpeg_rel (o : Opts) (f : Bytes) :
    Rel (fun x y => ROpt (RId3 o.id3.implicit) x.id3v2 y.id3v2 ∧ x.id3v1 = y.id3v1 ∧ ROpt RApe x.ape y.ape ∧ x.props = y.props)
      (readMpeg (fullF o) f) (readMpeg (bareF o) f) := by
  unfold readMpeg
  dsimp only
  refine Rel.ite (fun _ => Rel.error) fun _ => ?_
  refine (front_rel o f _ _ (st := ⟨none, none⟩) (st' := ⟨none, none⟩) ⟨trivial, trivial⟩).bind ?_
  rintro ⟨st, first⟩ ⟨st', first'⟩ ⟨h1, h2⟩
  cases h2
  refine (tail_rel o f).bind fun t t' ht => ?_
  refine (mpegEnd_rel ht h1.2).bind ?_
  rintro ⟨a, last⟩ ⟨b, last'⟩ ⟨h3, h4⟩
  cases h4
  have e1 : (fullF o).readProps = o.readProps := rfl
  have e2 : (bareF o).readProps = o.readProps := rfl
  rw [e1, e2]
  refine Rel.ite (fun _ => ?_) fun _ => Rel.ok ⟨h1.1, ht.2.1, h3, rfl⟩
  refine Rel.same fun p => ?_
  exact Rel.ok ⟨h1.1, ht.2.1, h3, rfl⟩

/-! ## Monkey's Audio, WavPack, Musepack -/

/-- The tags around the audio. -/
def RTags (d : Bool) (x y : TagsOf) : Prop := ROpt (RId3 d) x.id3v2 y.id3v2 ∧ x.id3v1 = y.id3v1 ∧ ROpt RApe x.ape y.ape ∧ x.stream = y.stream

theorem v1_rel {t t' : Tail} (h : RTail t t') (n : Nat) : withoutV1 t n = withoutV1 t' n := by
  unfold withoutV1
  rw [h.1]

theorem mac_loop_rel (o : Opts) (f header : Bytes) (n : Nat) : ∀ (pos stream : Nat) {a a' : Option Ape.Tag}, ROpt RApe a a' →
    Rel (fun x y => ROpt RApe x.1 y.1 ∧ x.2 = y.2) (macLoop (fullF o) f header n pos stream a) (macLoop (bareF o) f header n pos stream a') := by
  induction n with
  | zero => intro pos stream a a' h; exact Rel.error
  | succ n ih =>
    intro pos stream a a' h
    unfold macLoop
    refine Rel.ite (fun _ => Rel.ok ⟨h, rfl⟩) fun _ => Rel.ite (fun _ => ?_) fun _ => Rel.error
    refine Rel.same fun r => ?_
    refine Rel.ite (fun _ => Rel.error) fun _ => ?_
    refine Rel.same ?_
    rintro ⟨hh, next⟩
    refine Rel.same fun stream => ?_
    have e1 : (fullF o).readTags = o.readTags := rfl
    have e2 : (bareF o).readTags = o.readTags := rfl
    rw [e1, e2]
    refine Rel.ite (fun _ => ?_) fun _ => ih _ _ h
    refine (apeWith_rel o f hh next).bind ?_
    rintro ⟨a, p⟩ ⟨b, q⟩ ⟨h1, h2⟩
    cases h2
    exact ih _ _ h1

theorem mac_rel (o : Opts) (f : Bytes) : Rel (RTags o.id3.implicit) (readMac (fullF o) f) (readMac (bareF o) f) := by
  unfold readMac
  refine Rel.same ?_
  rintro ⟨r, p⟩
  refine Rel.same fun stream => ?_
  refine (contentOf_rel o r).bind fun id3 id3' hid => ?_
  refine Rel.same fun header => ?_
  refine (mac_loop_rel o f header _ _ _ (a := none) (a' := none) trivial).bind ?_
  rintro ⟨a, s⟩ ⟨b, s'⟩ ⟨h1, h2⟩
  cases h2
  refine (tail_rel o f).bind fun t t' ht => ?_
  rw [v1_rel ht]
  refine Rel.same fun stream => ?_
  rw [ht.2.2.2.1]
  split
  · refine Rel.same fun stream => ?_
    exact Rel.ok ⟨hid, ht.2.1, ht.2.2.1, rfl⟩
  · exact Rel.ok ⟨hid, ht.2.1, h1, rfl⟩

theorem wavPack_rel (o : Opts) (f : Bytes) : Rel (RTags o.id3.implicit) (readWavPack (fullF o) f) (readWavPack (bareF o) f) := by
  unfold readWavPack
  refine (tail_rel o f).bind fun t t' ht => ?_
  rw [v1_rel ht]
  refine Rel.same fun stream => ?_
  rw [ht.2.2.2.1]
  split
  · refine Rel.same fun stream => ?_
    exact Rel.ok ⟨trivial, ht.2.1, ht.2.2.1, rfl⟩
  · exact Rel.ok ⟨trivial, ht.2.1, trivial, rfl⟩

theorem mpc_rel (o : Opts) (f : Bytes) : Rel (RTags o.id3.implicit) (readMpc (fullF o) f) (readMpc (bareF o) f) := by
  unfold readMpc
  refine Rel.same ?_
  rintro ⟨r, p⟩
  refine Rel.same fun stream => ?_
  refine (contentOf_rel o r).bind fun id3 id3' hid => ?_
  refine (tail_rel o f).bind fun t t' ht => ?_
  rw [v1_rel ht]
  refine Rel.same fun stream => ?_
  rw [ht.2.2.2.1, ht.2.2.2.2]
  refine Rel.same fun stream => ?_
  refine Rel.same fun _ => ?_
  exact Rel.ok ⟨hid, ht.2.1, ht.2.2.1, rfl⟩

/-! ## AAC -/

theorem aacFront_rel (o : Opts) (f : Bytes) (n : Nat) : ∀ (pos stream : Nat) {a a' : Option Id3Tag}, ROpt (RId3 o.id3.implicit) a a' →
    Rel (fun x y => ROpt (RId3 o.id3.implicit) x.id3v2 y.id3v2 ∧ x.stream = y.stream ∧ x.first = y.first)
      (aacFront (fullF o) f n pos stream a) (aacFront (bareF o) f n pos stream a') := by
  induction n with
  | zero => intro pos stream a a' h; exact Rel.error
  | succ n ih =>
    intro pos stream a a' h
    unfold aacFront
    split
    · exact Rel.ok ⟨h, rfl, rfl⟩
    · refine Rel.ite (fun _ => ?_) fun _ => ?_
      · split
        · exact Rel.error
        · refine Rel.same fun stream => ?_
          have e1 : (fullF o).readTags = o.readTags := rfl
          have e2 : (bareF o).readTags = o.readTags := rfl
          rw [e1, e2]
          refine Rel.ite (fun _ => ?_) fun _ => ?_
          · refine (parseId3_rel o _ _).bind fun x y hxy => ?_
            dsimp only
            revert h
            cases a with
            | none =>
              cases a' with
              | none =>
                intro h
                refine Rel.ite (fun _ => Rel.same fun stream => ih _ _ hxy) fun _ => ih _ _ hxy
              | some _ => intro h; exact h.elim
            | some old =>
              cases a' with
              | none => intro h; exact h.elim
              | some old' => intro h; exact ih _ _ (add_rel h hxy)
          · refine Rel.ite (fun _ => Rel.same fun stream => ih _ _ h) fun _ => ih _ _ h
      · refine Rel.same fun first => ?_
        exact Rel.ok ⟨h, rfl, rfl⟩

theorem aac_rel (o : Opts) (f : Bytes) :
    Rel (fun x y => ROpt (RId3 o.id3.implicit) x.id3v2 y.id3v2 ∧ x.id3v1 = y.id3v1 ∧ x.props = y.props) (readAac (fullF o) f) (readAac (bareF o) f) := by
  unfold readAac
  dsimp only
  refine Rel.ite (fun _ => Rel.error) fun _ => ?_
  refine (aacFront_rel o f _ _ _ (a := none) (a' := none) trivial).bind fun st st' hst => ?_
  refine Rel.same ?_
  rintro ⟨found, v1, q⟩
  simp only
  rw [hst.2.1, hst.2.2]
  refine Rel.same fun stream => ?_
  have e1 : (fullF o).readProps = o.readProps := rfl
  have e2 : (bareF o).readProps = o.readProps := rfl
  rw [e1, e2]
  refine Rel.ite (fun _ => ?_) fun _ => Rel.ok ⟨hst.1, rfl, rfl⟩
  split
  · exact Rel.error
  · refine Rel.same fun p => ?_
    exact Rel.ok ⟨hst.1, rfl, rfl⟩

/-! ## WAV and AIFF -/

theorem id3Chunk_rel (o : Opts) (b : Bytes) : Rel (ROpt (RId3 o.id3.implicit)) (IffFiles.id3Chunk (fullF o) b) (IffFiles.id3Chunk (bareF o) b) := by
  unfold IffFiles.id3Chunk
  refine Rel.ite (fun _ => ?_) fun _ => ?_
  · exact Rel.ite (fun _ => Rel.error) fun _ => Rel.ok trivial
  · split
    · exact Rel.error
    · refine (parseId3_rel o _ _).bind fun x y hxy => ?_
      exact Rel.ok hxy

theorem addTag_rel {d : Bool} {a a' b b' : Option Id3Tag} (h : ROpt (RId3 d) a a') (h2 : ROpt (RId3 d) b b') :
    ROpt (RId3 d) (IffFiles.addTag a b) (IffFiles.addTag a' b') := by
  cases b with
  | none =>
    cases b' with
    | none => cases a <;> cases a' <;> first | exact h | exact h.elim
    | some _ => exact h2.elim
  | some b =>
    cases b' with
    | none => exact h2.elim
    | some b' =>
      cases a with
      | none =>
        cases a' with
        | none => exact h2
        | some _ => exact h.elim
      | some a =>
        cases a' with
        | none => exact h.elim
        | some a' => exact add_rel h h2

theorem chunkLoop_rel {α : Type} {R : α → α → Prop} (be strict : Bool) {fn fn' : Iff.Hdr → Iff.Chunks → α → Except Err (Iff.Chunks × α)}
    (hf : ∀ h c a a', R a a' → Rel (fun x y => x.1 = y.1 ∧ R x.2 y.2) (fn h c a) (fn' h c a')) (n : Nat) : ∀ (c : Iff.Chunks) {a a' : α}, R a a' →
    Rel (fun x y => R x.1 y.1 ∧ x.2 = y.2) (IffFiles.chunkLoop be strict fn n c a) (IffFiles.chunkLoop be strict fn' n c a') := by
  induction n with
  | zero => intro c a a' h; exact Rel.error
  | succ n ih =>
    intro c a a' h
    unfold IffFiles.chunkLoop
    refine Rel.same ?_
    rintro ⟨hd, c⟩
    simp only
    split
    · exact Rel.ok ⟨h, rfl⟩
    · refine (hf _ _ _ _ h).bind ?_
      rintro ⟨c, x⟩ ⟨c', y⟩ ⟨h1, h2⟩
      cases h1
      exact ih _ h2

/-- What the WAV reader has. -/
def RWav (d : Bool) (a b : IffFiles.WavAcc) : Prop := a.audio = b.audio ∧ a.items = b.items ∧ ROpt (RId3 d) a.id3v2 b.id3v2

theorem wavChunk_rel (o : Opts) (len : Nat) (h : Iff.Hdr) (c : Iff.Chunks) (a a' : IffFiles.WavAcc) (ha : RWav o.id3.implicit a a') :
    Rel (fun x y => x.1 = y.1 ∧ RWav o.id3.implicit x.2 y.2) (IffFiles.wavChunk (fullF o) len h c a) (IffFiles.wavChunk (bareF o) len h c a') := by
  obtain ⟨au, it, ia⟩ := a
  obtain ⟨au', it', ia'⟩ := a'
  obtain ⟨h1, h2, h3⟩ := ha
  cases h1
  cases h2
  unfold IffFiles.wavChunk
  refine Rel.ite (fun _ => ?_) fun _ => Rel.ite (fun _ => ?_) fun _ => Rel.ite (fun _ => ?_) fun _ => Rel.ite (fun _ => ?_) fun _ =>
    Rel.ite (fun _ => ?_) fun _ => ?_
  · refine Rel.same ?_
    rintro ⟨b, c⟩
    exact Rel.ok ⟨rfl, rfl, rfl, h3⟩
  · refine Rel.same ?_
    rintro ⟨b, c⟩
    exact Rel.ok ⟨rfl, rfl, rfl, h3⟩
  · exact Rel.ok ⟨rfl, rfl, rfl, h3⟩
  · refine Rel.ite (fun _ => ?_) fun _ => Rel.ite (fun _ => Rel.error) fun _ => ?_
    · refine Rel.same ?_
      rintro ⟨c, items⟩
      exact Rel.ok ⟨rfl, rfl, rfl, h3⟩
    · refine Rel.same ?_
      rintro ⟨_, c⟩
      exact Rel.ok ⟨rfl, rfl, rfl, h3⟩
  · refine Rel.same ?_
    rintro ⟨b, c⟩
    refine (id3Chunk_rel o b).bind fun x y hxy => ?_
    exact Rel.ok ⟨rfl, rfl, rfl, addTag_rel h3 hxy⟩
  · exact Rel.ok ⟨rfl, rfl, rfl, h3⟩

theorem wav_rel (o : Opts) (f : Bytes) :
    Rel (fun x y => x.props = y.props ∧ x.info = y.info ∧ ROpt (RId3 o.id3.implicit) x.id3v2 y.id3v2) (IffFiles.readWav (fullF o) f)
      (IffFiles.readWav (bareF o) f) := by
  unfold IffFiles.readWav
  refine Rel.same fun _ => ?_
  dsimp only
  refine (chunkLoop_rel false _ (wavChunk_rel o (f.length - 12)) _ _ (a := ⟨⟨0, 0, []⟩, [], none⟩) (a' := ⟨⟨0, 0, []⟩, [], none⟩) ⟨rfl, rfl, trivial⟩).bind ?_
  rintro ⟨a, pos⟩ ⟨b, pos'⟩ ⟨⟨h1, h2, h3⟩, h4⟩
  cases h4
  simp only
  rw [h1]
  refine Rel.ite (fun _ => ?_) fun _ => Rel.ok ⟨rfl, h2, h3⟩
  refine Rel.same fun p => ?_
  exact Rel.ok ⟨rfl, h2, h3⟩

/-- What the AIFF reader has. -/
def RAiff (d : Bool) (a b : IffFiles.AiffAcc) : Prop := a.audio = b.audio ∧ a.text = b.text ∧ ROpt (RId3 d) a.id3v2 b.id3v2

theorem aiffChunk_rel (o : Opts) (h : Iff.Hdr) (c : Iff.Chunks) (a a' : IffFiles.AiffAcc) (ha : RAiff o.id3.implicit a a') :
    Rel (fun x y => x.1 = y.1 ∧ RAiff o.id3.implicit x.2 y.2) (IffFiles.aiffChunk (fullF o) h c a) (IffFiles.aiffChunk (bareF o) h c a') := by
  obtain ⟨au, it, ia⟩ := a
  obtain ⟨au', it', ia'⟩ := a'
  obtain ⟨h1, h2, h3⟩ := ha
  cases h1
  cases h2
  unfold IffFiles.aiffChunk
  refine Rel.ite (fun _ => ?_) fun _ => Rel.ite (fun _ => ?_) fun _ => Rel.ite (fun _ => ?_) fun _ => Rel.ite (fun _ => ?_) fun _ => ?_
  · refine Rel.same ?_
    rintro ⟨b, c⟩
    refine (id3Chunk_rel o b).bind fun x y hxy => ?_
    exact Rel.ok ⟨rfl, rfl, rfl, addTag_rel h3 hxy⟩
  · refine Rel.ite (fun _ => Rel.error) fun _ => ?_
    refine Rel.same ?_
    rintro ⟨b, c⟩
    exact Rel.ok ⟨rfl, rfl, rfl, h3⟩
  · exact Rel.ok ⟨rfl, rfl, rfl, h3⟩
  · refine Rel.same ?_
    rintro ⟨c, t⟩
    exact Rel.ok ⟨rfl, rfl, rfl, h3⟩
  · exact Rel.ok ⟨rfl, rfl, rfl, h3⟩

theorem aiff_rel (o : Opts) (f : Bytes) :
    Rel (fun x y => x.props = y.props ∧ x.text = y.text ∧ ROpt (RId3 o.id3.implicit) x.id3v2 y.id3v2) (IffFiles.readAiff (fullF o) f)
      (IffFiles.readAiff (bareF o) f) := by
  unfold IffFiles.readAiff
  refine Rel.same fun _ => ?_
  dsimp only
  refine (chunkLoop_rel true _ (aiffChunk_rel o) _ _ (a := ⟨⟨none, 0⟩, ⟨none, none, none, [], []⟩, none⟩) (a' := ⟨⟨none, 0⟩, ⟨none, none, none, [], []⟩, none⟩) ⟨rfl, rfl, trivial⟩).bind ?_
  rintro ⟨a, pos⟩ ⟨b, pos'⟩ ⟨⟨h1, h2, h3⟩, h4⟩
  cases h4
  simp only
  rw [h1, h2]
  refine Rel.ite (fun _ => ?_) fun _ => Rel.ok ⟨rfl, rfl, h3⟩
  refine Rel.same fun p => ?_
  exact Rel.ok ⟨rfl, rfl, h3⟩

/-! ## Vorbis comments -/

/-- The options without pictures. -/
def bareV (o : Vorbis.Opts) : Vorbis.Opts := { o with readCoverArt := false }
/-- The options with pictures. -/
def fullV (o : Vorbis.Opts) : Vorbis.Opts := { o with readCoverArt := true }

/-- Vorbis comments. -/
def RVorbis (t t' : Vorbis.Tag) : Prop := t' = { t with pictures := [] }

theorem push_pictures (b : Bool) (t : Vorbis.Tag) (v : Str) : Vorbis.pushNumber b { t with pictures := [] } v = { Vorbis.pushNumber b t v with pictures := [] } := by
  have ins : ∀ (t : Vorbis.Tag) (k v : Str), Vorbis.insert { t with pictures := [] } k v = { Vorbis.insert t k v with pictures := [] } := by
    intro t k v
    unfold Vorbis.insert
    split <;> rfl
  have rem : ∀ (t : Vorbis.Tag) (k : Str), (Vorbis.remove { t with pictures := [] } k).2 = { (Vorbis.remove t k).2 with pictures := [] } := fun _ _ => rfl
  have s1 : ∀ (t : Vorbis.Tag) n, Vorbis.setTrack { t with pictures := [] } n = { Vorbis.setTrack t n with pictures := [] } := by
    intro t n
    unfold Vorbis.setTrack
    rw [rem, rem, ins]
  have s2 : ∀ (t : Vorbis.Tag) n, Vorbis.setTrackTotal { t with pictures := [] } n = { Vorbis.setTrackTotal t n with pictures := [] } := by
    intro t n
    unfold Vorbis.setTrackTotal
    rw [ins, rem]
  have s3 : ∀ (t : Vorbis.Tag) n, Vorbis.setDisk { t with pictures := [] } n = { Vorbis.setDisk t n with pictures := [] } := by
    intro t n
    unfold Vorbis.setDisk
    rw [ins]
  have s4 : ∀ (t : Vorbis.Tag) n, Vorbis.setDiskTotal { t with pictures := [] } n = { Vorbis.setDiskTotal t n with pictures := [] } := by
    intro t n
    unfold Vorbis.setDiskTotal
    rw [ins, rem]
  unfold Vorbis.pushNumber
  generalize split2 '/' v = x
  obtain ⟨a, c⟩ := x
  dsimp only
  generalize c.bind parseU32 = total
  generalize parseU32 a = current
  cases total with
  | none =>
    cases current with
    | none => rfl
    | some n => cases b <;> simp only [if_true, if_false, Bool.false_eq_true] <;> first | exact s1 _ _ | exact s3 _ _
  | some m =>
    cases b <;> simp only [if_true, if_false, Bool.false_eq_true]
    · rw [s4]
      cases current with
      | none => rfl
      | some n => exact s3 _ _
    · rw [s2]
      cases current with
      | none => rfl
      | some n => exact s1 _ _

theorem readItem_rel (o : Vorbis.Opts) (c : Bytes) {t t' : Vorbis.Tag} (h : RVorbis t t') :
    Rel RVorbis (Vorbis.readItem (fullV o) t c) (Vorbis.readItem (bareV o) t' c) := by
  cases h
  unfold Vorbis.readItem
  split
  · exact Rel.ok rfl
  · refine Rel.ite (fun _ => ?_) fun _ => Rel.ite (fun _ => ?_) fun _ => Rel.ite (fun _ => ?_) fun _ => Rel.ite (fun _ => ?_) fun _ => ?_
    · intro x hx
      refine ⟨_, rfl, ?_⟩
      rw [if_neg (show ¬ (!(fullV o).readCoverArt) = true by simp [fullV])] at hx
      split at hx
      · cases hx; rfl
      · cases hx
      · by_cases hm : (fullV o).mode = .strict
        · rw [if_pos hm] at hx; cases hx
        · rw [if_neg hm] at hx; cases hx; rfl
    · intro x hx
      refine ⟨_, rfl, ?_⟩
      rw [if_neg (show ¬ (!(fullV o).readCoverArt) = true by simp [fullV])] at hx
      split at hx
      · split at hx
        · cases hx
        · cases hx; rfl
        · cases hx; rfl
      · by_cases hm : (fullV o).mode = .strict
        · rw [if_pos hm] at hx; cases hx
        · rw [if_neg hm] at hx; cases hx; rfl
    · split
      · dsimp only
        refine Rel.ite (fun _ => Rel.ok rfl) fun _ => Rel.ok ?_
        exact push_pictures _ _ _
      · exact Rel.ite (fun _ => Rel.error) fun _ => Rel.ok rfl
    · split
      · exact Rel.ok rfl
      · exact Rel.ite (fun _ => Rel.error) fun _ => Rel.ok rfl
    · exact Rel.ite (fun _ => Rel.error) fun _ => Rel.ok rfl

theorem readItems_rel (o : Vorbis.Opts) (n : Nat) : ∀ (len : Nat) (d : Bytes) {t t' : Vorbis.Tag}, RVorbis t t' →
    Rel (fun x y => RVorbis x.1 y.1 ∧ x.2 = y.2) (Vorbis.readItems (fullV o) n len t d) (Vorbis.readItems (bareV o) n len t' d) := by
  induction n with
  | zero => intro len d t t' h; exact Rel.ok ⟨h, rfl⟩
  | succ n ih =>
    intro len d t t' h
    unfold Vorbis.readItems
    refine Rel.same ?_
    rintro ⟨cl, d⟩
    refine Rel.ite (fun _ => Rel.error) fun _ => ?_
    refine Rel.same ?_
    rintro ⟨c, d⟩
    refine (readItem_rel o c h).bind fun x y hxy => ?_
    exact ih _ _ hxy

theorem comments_rel (o : Vorbis.Opts) (d : Bytes) (len : Nat) :
    Rel (fun x y => RVorbis x.1 y.1 ∧ x.2 = y.2) (Vorbis.readComments (fullV o) d len) (Vorbis.readComments (bareV o) d len) := by
  unfold Vorbis.readComments
  refine Rel.same ?_
  rintro ⟨vl, d⟩
  refine Rel.ite (fun _ => Rel.error) fun _ => ?_
  refine Rel.same ?_
  rintro ⟨raw, d⟩
  dsimp only
  refine Rel.same fun vendor => ?_
  refine Rel.same ?_
  rintro ⟨n, d⟩
  refine Rel.ite (fun _ => Rel.error) fun _ => ?_
  exact readItems_rel o n _ d rfl

theorem ogg_rel (fmt : OggWrite.Format) (o : Vorbis.Opts) (f : Bytes) : Rel RVorbis (OggWrite.read fmt (fullV o) f) (OggWrite.read fmt (bareV o) f) := by
  unfold OggWrite.read
  refine Rel.same fun h => ?_
  dsimp only
  refine (comments_rel o _ _).bind ?_
  rintro ⟨a, x⟩ ⟨b, y⟩ ⟨h1, -⟩
  exact Rel.ok h1

/-- What is found in a FLAC file. -/
def RFound (r r' : Flac.Found) : Prop := ROpt RVorbis r.comments r'.comments ∧ r'.pictures = []

theorem block_rel (o : Vorbis.Opts) (f : Bytes) (pos : Nat) :
    Rel (fun x y => x.ty = y.ty ∧ x.last = y.last ∧ x.stop = y.stop ∧ (x.ty = 4 → x.content = y.content) ∧ (x.ty ≠ 4 → y.content = []))
      (Flac.readBlock f pos fun ty => ty == 4 || (ty == 6 && (fullV o).readCoverArt)) (Flac.readBlock f pos fun ty => ty == 4 || (ty == 6 && (bareV o).readCoverArt)) := by
  unfold Flac.readBlock
  refine Rel.same fun hd => ?_
  dsimp only
  by_cases h4 : (hd.getD 0 0 &&& 0x7F) = 4
  · simp only [h4, beq_self_eq_true, Bool.true_or, if_true]
    refine Rel.same fun c => Rel.ok ⟨rfl, rfl, rfl, fun _ => rfl, fun h => absurd rfl h⟩
  · have e : ((hd.getD 0 0 &&& 0x7F) == 4) = false := by simpa using h4
    simp only [e, Bool.false_or, bareV, Bool.and_false, Bool.false_eq_true, if_false]
    intro b hb
    obtain ⟨c, -, hb⟩ := bind_ok hb
    cases hb
    exact ⟨_, rfl, rfl, rfl, rfl, fun h => absurd h h4, fun _ => rfl⟩

theorem step_rel (o : Vorbis.Opts) {b b' : Flac.Block} {r r' : Flac.Found} (h : RFound r r') (ht : b.ty = b'.ty) (h4 : b.ty = 4 → b.content = b'.content)
    (hn : b.ty ≠ 4 → b'.content = []) : Rel RFound (Flac.readStep (fullV o) b r) (Flac.readStep (bareV o) b' r') := by
  unfold Flac.readStep
  by_cases hb : b.ty = 4
  · rw [← h4 hb, ← ht, if_pos hb, if_pos hb]
    refine Rel.ite (fun _ => Rel.ok h) fun _ => ?_
    have e : r.comments.isSome = r'.comments.isSome := by
      have := h.1
      revert this
      cases r.comments <;> cases r'.comments <;> intro this <;> first | rfl | exact this.elim
    rw [e]
    refine Rel.ite (fun _ => Rel.error) fun _ => ?_
    refine (comments_rel o _ _).bind ?_
    rintro ⟨x, a⟩ ⟨y, c⟩ ⟨h1, -⟩
    exact Rel.ok ⟨h1, h.2⟩
  · rw [hn hb]
    intro x hx
    refine ⟨r', rfl, ?_⟩
    rw [if_neg hb] at hx
    split at hx
    · cases hx; exact h
    · split at hx
      · split at hx
        · cases hx; exact h
        · cases hx
        · split at hx
          · cases hx
          · cases hx; exact h
      · cases hx; exact h

theorem loop_rel (o : Vorbis.Opts) (f : Bytes) (n : Nat) : ∀ (last : Bool) (pos : Nat) {r r' : Flac.Found}, RFound r r' →
    Rel RFound (Flac.readLoop (fullV o) f n last pos r) (Flac.readLoop (bareV o) f n last pos r') := by
  induction n with
  | zero =>
    intro last pos r r' h
    cases last with
    | true => exact Rel.ok h
    | false => exact Rel.error
  | succ n ih =>
    intro last pos r r' h
    cases last with
    | true => exact Rel.ok h
    | false =>
      unfold Flac.readLoop
      refine (block_rel o f pos).bind ?_
      rintro b b' ⟨h1, h2, h3, h4, h5⟩
      refine (step_rel o h h1 h4 h5).bind fun x y hxy => ?_
      rw [h2, h3]
      exact ih _ _ hxy

theorem flac_rel (o : Vorbis.Opts) (f : Bytes) : Rel RFound (Flac.readFrom (fullV o) f) (Flac.readFrom (bareV o) f) := by
  unfold Flac.readFrom
  refine Rel.same ?_
  rintro ⟨_, pos⟩
  refine Rel.same fun si => ?_
  refine Rel.ite (fun _ => Rel.error) fun _ => ?_
  exact loop_rel o f _ _ _ ⟨trivial, rfl⟩

end Lofty.Covers
