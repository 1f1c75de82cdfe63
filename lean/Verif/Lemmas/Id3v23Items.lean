import Verif.Lemmas.Id3v23
/-!
# What is written for a tag saved as ID3v2.3, piece by piece
-/
namespace Lofty.Id3v2
open Lofty.Text

/-! ## The replacements of a frame -/

/-- Written for this content, this frame is read. -/
def Becomes (rc : Bytes → Except Err (List Frame × Bytes)) (o : WriteOpts) (po : ParseOpts) (flags : FrameFlags) (x : Content × Frame) : Prop :=
  ∀ v w, x.1.asBytes o = .ok v → writeFrame o x.1.id.asStr flags v = .ok w → w.length < 2 ^ 32 → Piece rc o po (w, x.2)

theorem leaf_becomes (rc : Bytes → Except Err (List Frame × Bytes)) {o : WriteOpts} {po : ParseOpts} {flags : FrameFlags} (hf : PlainFlags flags)
    (c c0 : Content) (s : Str) (hb : c.asBytes o = c0.asBytes o) (hok : ContentOk o po c0) (hi : c0.id = .valid s)
    (hn : IdOk c.id.asStr) (hs : IdOk s) (hu : upId o.v23 po.implicit c.id.asStr = s) (hne : s ∉ [str "APIC", str "CHAP", str "CTOC"]) :
    Becomes rc o po flags (c, .leaf flags (c0.reencode o)) := by
  intro v w hv hw hl
  have hvl : v.length ≤ w.length := writeFrame_le hf hw
  rw [hb] at hv
  have hp := content_rt o po c0 hok hv
  rw [hi] at hp
  exact leaf_piece rc hn hs hu hf (content_nonempty o po c0 hok hv) (by omega) hne hp hw

theorem leaves_pieces (rc : Bytes → Except Err (List Frame × Bytes)) (o : WriteOpts) (po : ParseOpts) (flags : FrameFlags) (xs : List (Content × Frame))
    (h : ∀ x ∈ xs, Becomes rc o po flags x) : ∀ b, writeLeaves o flags (xs.map (·.1)) = .ok b → b.length < 2 ^ 32 →
      ∃ ps : List (Bytes × Frame), b = ps.flatMap (·.1) ∧ (∀ y ∈ ps, Piece rc o po y) ∧ ps.map (·.2) = xs.map (·.2) := by
  induction xs with
  | nil =>
    intro b hb _
    cases hb
    exact ⟨[], rfl, by simp, rfl⟩
  | cons x xs ih =>
    intro b hb hl
    rw [List.map_cons, writeLeaves] at hb
    obtain ⟨v, h1, hb2⟩ := bind_ok hb
    obtain ⟨w, h2, hb3⟩ := bind_ok hb2
    obtain ⟨r, h3, hb4⟩ := bind_ok hb3
    simp only [Except.ok.injEq] at hb4
    subst hb4
    rw [List.length_append] at hl
    obtain ⟨ps, e, hp, hm⟩ := ih (fun y hy => h y (by simp [hy])) r h3 (by omega)
    refine ⟨(w, x.2) :: ps, by rw [List.flatMap_cons, e], ?_, by simp [hm]⟩
    intro y hy
    rcases List.mem_cons.mp hy with rfl | hy
    · exact h x (by simp) v w h1 h2 (by omega)
    · exact hp y hy

/-! ## Dates -/

theorem decVal_lt (s : Str) (h : AllDigits s) : ∀ a, decVal a s < (a + 1) * 10 ^ s.length := by
  induction s with
  | nil => intro a; simp [decVal]
  | cons c s ih =>
    intro a
    have hc := h c (by simp)
    have := ih (fun x hx => h x (by simp [hx])) (a * 10 + (c.toNat - 48))
    rw [decVal, List.length_cons, Nat.pow_succ]
    refine Nat.lt_of_lt_of_le this ?_
    rw [Nat.mul_comm (10 ^ s.length) 10, ← Nat.mul_assoc]
    exact Nat.mul_le_mul_right _ (by omega)

theorem pad_year {y : Nat} (h : 1000 ≤ y) : Timestamp.pad 4 y = toDec y := by
  have h1 := decVal_lt (toDec y) (toDec_digits y) 0
  rw [toDec_val] at h1
  have : 4 ≤ (toDec y).length := by
    rcases Nat.lt_or_ge (toDec y).length 4 with hl | hl
    · have : 10 ^ (toDec y).length ≤ 10 ^ 3 := Nat.pow_le_pow_right (by decide) (by omega)
      omega
    · exact hl
  rw [Timestamp.pad, Nat.sub_eq_zero_of_le this]
  rfl

theorem pad_two {n : Nat} (h : n < 100) : (Timestamp.pad 2 n).length = 2 ∧ parseUInt 256 (Timestamp.pad 2 n) = some n := by
  have : ∀ k : Fin 100, (Timestamp.pad 2 k.val).length = 2 ∧ parseUInt 256 (Timestamp.pad 2 k.val) = some k.val := by decide +kernel
  exact this ⟨n, h⟩

theorem final_pads (e : Encoding) (a b : Nat) : Final e (Timestamp.pad 2 a ++ Timestamp.pad 2 b) := by
  have hm : ∀ c ∈ Timestamp.pad 2 a ++ Timestamp.pad 2 b, 45 ≤ c.toNat ∧ c.toNat ≤ 127 := by
    intro c hc
    rcases List.mem_append.mp hc with h | h <;> exact mem_pad h
  refine ⟨representable_ascii fun c hc => (hm c hc).2, getLast?_of_no_nul _ fun hc => ?_⟩
  exact absurd (hm _ hc).1 (by decide)

theorem twoNumbers_pads {a b : Nat} (ha : a < 100) (hb : b < 100) : twoNumbers (Timestamp.pad 2 a ++ Timestamp.pad 2 b) = some (a, b) := by
  obtain ⟨a1, a2⟩ := pad_two ha
  obtain ⟨b1, b2⟩ := pad_two hb
  have hm : ∀ c ∈ Timestamp.pad 2 a ++ Timestamp.pad 2 b, c.toNat ≤ 127 := by
    intro c hc
    rcases List.mem_append.mp hc with h | h <;> exact (mem_pad h).2
  unfold twoNumbers
  rw [if_neg, List.take_left' a1, List.drop_left' a1, a2, b2]
  rintro (h | h)
  · rw [utf8_ascii _ hm, List.length_map, List.length_append, a1, b1] at h
    exact h rfl
  · obtain ⟨c, hc, h⟩ := List.any_eq_true.mp h
    have := hm c hc
    simp only [decide_eq_true_eq] at h
    omega

/-- The year alone. -/
def yearOnly (y : Nat) : Timestamp := ⟨y, none, none, none, none, none⟩

theorem yearOnly_range {y : Nat} (h : y ≤ 9999) : Timestamp.InRange (yearOnly y) := by
  constructor <;> simp [yearOnly, h]

/-- What is read for a recording date before it is put together. -/
def dateFrames (o : WriteOpts) (flags : FrameFlags) (t : TimeF) : List Frame :=
  .leaf flags (.time ⟨.valid (str "TDRC"), o.enc t.enc, yearOnly t.time.year⟩) ::
    (splitTdrc.date t ++ splitTdrc.time t).map fun x => .leaf flags (.text x)

theorem date_pieces (rc : Bytes → Except Err (List Frame × Bytes)) {o : WriteOpts} {po : ParseOpts} (h23 : o.v23 = true) (himp : po.implicit = true)
    {flags : FrameFlags} (hf : PlainFlags flags) {t : TimeF} (hy : 1000 ≤ t.time.year) (hy' : t.time.year ≤ 9999) {b : Bytes}
    (hb : writeLeaves o flags ((splitTdrc t).map .text) = .ok b) (hl : b.length < 2 ^ 32) :
    ∃ ps : List (Bytes × Frame), b = ps.flatMap (·.1) ∧ (∀ y ∈ ps, Piece rc o po y) ∧ ps.map (·.2) = dateFrames o flags t := by
  have text : ∀ x ∈ splitTdrc.date t ++ splitTdrc.time t, Becomes rc o po flags (.text x, .leaf flags (.text x)) := by
    have one : ∀ s v, (s = str "TDAT" ∨ s = str "TIME") → Final (o.enc t.enc) v →
        Becomes rc o po flags (.text ⟨.valid s, t.enc.toId3v23, v⟩, .leaf flags (.text ⟨.valid s, t.enc.toId3v23, v⟩)) := by
      intro s v hs hv
      have he := enc_v23 h23 t.enc
      have k : s ∉ takenIds ∧ IdOk s ∧ upId true true s = s ∧ s ∉ [str "APIC", str "CHAP", str "CTOC"] ∧ s.head? = some 'T' := by
        rcases hs with rfl | rfl <;> decide
      have := leaf_becomes rc hf (.text ⟨.valid s, t.enc.toId3v23, v⟩) (.text ⟨.valid s, t.enc.toId3v23, v⟩) s rfl (po := po) (o := o)
        ⟨.inl ⟨k.2.2.2.2, k.1⟩, by rw [he.1]; exact hv⟩ rfl k.2.1 k.2.1 (by rw [h23, himp]; exact k.2.2.1) k.2.2.2.1
      rw [Content.reencode, he.1, he.2] at this
      exact this
    intro x hx
    rcases List.mem_append.mp hx with hx | hx
    · unfold splitTdrc.date at hx
      split at hx
      · simp only [List.mem_cons, List.not_mem_nil, or_false] at hx
        subst hx
        exact one _ _ (.inl rfl) (final_pads _ _ _)
      · cases hx
    · unfold splitTdrc.time at hx
      split at hx
      · simp only [List.mem_cons, List.not_mem_nil, or_false] at hx
        subst hx
        exact one _ _ (.inr rfl) (final_pads _ _ _)
      · cases hx
  have year : Becomes rc o po flags (.text ⟨.valid (str "TYER"), t.enc.toId3v23, toDec t.time.year⟩,
      .leaf flags (.time ⟨.valid (str "TDRC"), o.enc t.enc, yearOnly t.time.year⟩)) := by
    have := leaf_becomes rc hf (o := o) (po := po) (.text ⟨.valid (str "TYER"), t.enc.toId3v23, toDec t.time.year⟩)
      (.time ⟨.valid (str "TDRC"), t.enc.toId3v23, yearOnly t.time.year⟩) (str "TDRC") (by
        simp only [Content.asBytes, TextF.asBytes, TimeF.asBytes]
        rw [if_neg (by rw [(Timestamp.verify_iff _).mpr (yearOnly_range hy')]; simp)]
        rw [show (yearOnly t.time.year).fmt = toDec t.time.year from by
          rw [← pad_year hy]; simp [Timestamp.fmt, yearOnly, Timestamp.fmtField]])
      ⟨by show str "TDRC" ∈ _; decide, yearOnly_range hy'⟩ rfl (by show IdOk (str "TYER"); decide) (by decide)
      (by rw [h23, himp]; show upId true true (str "TYER") = _; decide) (by decide)
    rw [Content.reencode, (enc_v23 h23 t.enc).1] at this
    exact this
  have e : (splitTdrc t).map Content.text =
      (((Content.text ⟨.valid (str "TYER"), t.enc.toId3v23, toDec t.time.year⟩,
        Frame.leaf flags (.time ⟨.valid (str "TDRC"), o.enc t.enc, yearOnly t.time.year⟩)) ::
        (splitTdrc.date t ++ splitTdrc.time t).map fun x => (Content.text x, Frame.leaf flags (.text x))).map (·.1)) := by
    rw [splitTdrc, List.map_cons, List.map_cons, List.map_map]
    rfl
  rw [e] at hb
  obtain ⟨ps, h1, h2, h3⟩ := leaves_pieces rc o po flags _ (by
    intro x hx
    rcases List.mem_cons.mp hx with rfl | hx
    · exact year
    · obtain ⟨y, hy, rfl⟩ := List.mem_map.mp hx
      exact text y hy) b hb hl
  refine ⟨ps, h1, h2, ?_⟩
  rw [h3, List.map_cons, List.map_map, dateFrames]
  rfl

/-! ## People -/

/-- People collected from two parts of a tag. -/
def mergeP : Option (Encoding × List (Str × Str)) → Option (Encoding × List (Str × Str)) → Option (Encoding × List (Str × Str))
  | none, x => x
  | some a, none => some a
  | some a, some b => some (a.1, a.2 ++ b.2)

theorem mergeP_none (a : Option (Encoding × List (Str × Str))) : mergeP a none = a := by cases a <;> rfl

theorem mergeP_assoc (a b c : Option (Encoding × List (Str × Str))) : mergeP (mergeP a b) c = mergeP a (mergeP b c) := by
  cases a <;> cases b <;> cases c <;> simp [mergeP]

theorem peopleOf_none {o : WriteOpts} {f : Frame} (h : kvOf f = none) (fs : List Frame) : peopleOf o (f :: fs) = peopleOf o fs := by
  rw [peopleOf, List.filterMap_cons_none h, peopleOf]

theorem peopleOf_some {o : WriteOpts} {f : Frame} {k : KvF} (h : kvOf f = some k) (fs : List Frame) :
    peopleOf o (f :: fs) = mergeP (some (o.enc k.enc, k.pairs)) (peopleOf o fs) := by
  rw [peopleOf, List.filterMap_cons_some h, peopleOf]
  cases fs.filterMap kvOf with
  | nil => simp [mergeP]
  | cons k' ks => simp [mergeP]

/-- The pending `IPLS` frame. -/
def iplsOf (x : Encoding × List (Str × Str)) : TextF := ⟨.valid (str "IPLS"), x.1, x.2.foldl addPair []⟩

theorem addPeople_merge (st : Option (Encoding × List (Str × Str))) (e : Encoding) (l : List (Str × Str)) :
    some (addPeople (st.map iplsOf) e l) = (mergeP st (some (e, l))).map iplsOf := by
  cases st with
  | none => rfl
  | some a => simp [addPeople, iplsOf, mergeP, List.foldl_append]

theorem people_piece (rc : Bytes → Except Err (List Frame × Bytes)) {o : WriteOpts} {po : ParseOpts} (h23 : o.v23 = true) (himp : po.implicit = true)
    {x : Encoding × List (Str × Str)} (he : o.enc x.1 = x.1) (hx : PeopleOk x) {b : Bytes} (hb : writePeople o (some (iplsOf x)) = .ok b)
    (hl : b.length < 2 ^ 32) : Piece rc o po (b, .leaf {} (.keyValue ⟨.valid (str "TIPL"), x.1, x.2⟩)) := by
  obtain ⟨h1, h2, h3⟩ := hx
  obtain ⟨v, hv, hw⟩ := bind_ok hb
  obtain ⟨w, k1, k2⟩ := kvPairs_joined o x.1 x.2 h2 h1 h3
  rw [TextF.asBytes, iplsOf] at hv
  simp only [he, k1, ok_bind, Except.ok.injEq] at hv
  subst hv
  have hvl := writeFrame_le (o := o) (name := str "IPLS") (flags := {}) (by decide) hw
  refine leaf_piece rc (name := str "IPLS") (s := str "TIPL") (by decide) (by decide) (by rw [h23, himp]; decide) (by decide) (by simp)
    (by omega) (by decide) ?_ hw
  show wrap .keyValue (KvF.parse (.valid (str "TIPL")) o.version _) = _
  rw [KvF.parse, verifyEncoding_toByte _ o.version_ne]
  simp only [ok_bind, k2]
  rfl

/-! ## All frames -/

/-- What is read for a frame, before dates are put together. -/
def read1 (o : WriteOpts) (f : Frame) : List Frame :=
  match f with
  | .leaf flags (.time t) => if t.id = .valid (str "TDRC") then dateFrames o flags t else placed o f
  | f => placed o f

theorem v4Only_eq : v4Only = onlyV24.map String.toList := rfl

theorem dropped_none {o : WriteOpts} {f : Frame} (h : f.id.isValid = false ∨ f.id.asStr ∈ onlyV24.map String.toList) :
    placed o f = [] ∧ read1 o f = [] ∧ kvOf f = none ∧ dateOf o f = none := by
  have hp : placed o f = [] := by unfold placed; rw [if_pos h]
  have ne : ∀ s, IdOk s → s ∉ onlyV24.map String.toList → f.id ≠ .valid s := by
    intro s _ hs he
    rw [he] at h
    rcases h with h | h
    · cases h
    · exact hs h
  have n1 := ne (str "TDRC") (by decide) (by decide)
  have n2 := ne (str "TIPL") (by decide) (by decide)
  have n3 := ne (str "TMCL") (by decide) (by decide)
  refine ⟨hp, ?_, ?_, ?_⟩
  · unfold read1
    split
    · rename_i flags t
      exact (if_neg n1).trans hp
    · exact hp
  · unfold kvOf
    split
    · rename_i fl k
      exact if_neg (by rintro (h | h); exact n2 h; exact n3 h)
    · rfl
  · unfold dateOf
    split
    · exact if_neg n1
    · rfl

theorem plain_none {o : WriteOpts} {po : ParseOpts} (h23 : o.v23 = true) {f : Frame} (h : FrameOk o po f) :
    placed o f = [f.reencode o] ∧ read1 o f = [f.reencode o] ∧ kvOf f = none ∧ dateOf o f = none ∧ f.id.asStr ∉ idsV23 false := by
  have hid : f.id.isValid = true ∧ f.id.asStr ∉ idsV23 false := by
    cases h with
    | leaf flags c s hf hi hs hv hc =>
      refine ⟨by rw [Frame.id, hi]; rfl, ?_⟩
      rw [Frame.id, hi, FrameId.asStr]
      intro hm
      refine hv h23 ?_
      unfold idsV23 at hm ⊢
      simp only [Bool.false_eq_true, if_false, List.append_nil] at hm
      exact List.mem_append_left _ hm
    | chapter => exact ⟨rfl, (by decide : str "CHAP" ∉ _)⟩
    | toc => exact ⟨rfl, (by decide : str "CTOC" ∉ _)⟩
  have hnot : ¬ (f.id.isValid = false ∨ f.id.asStr ∈ onlyV24.map String.toList) := by
    rintro (h' | h')
    · rw [hid.1] at h'; cases h'
    · have : ∀ t ∈ onlyV24.map String.toList, t ∈ idsV23 false := by decide
      exact hid.2 (this _ h')
  have ne : ∀ s ∈ idsV23 false, f.id ≠ .valid s := fun s hs he => hid.2 (by rw [he]; exact hs)
  cases h with
  | leaf flags c s hf hi hs hv hc =>
    cases c with
    | time t =>
      exfalso
      have h1 := hc.1
      have : t.id.asStr ∉ idsV23 false := hid.2
      revert this h1
      generalize t.id.asStr = s
      intro h1 h2
      have : ∀ x ∈ [str "TDEN", str "TDOR", str "TDRC", str "TDRL", str "TDTG"], x ∈ idsV23 false := by decide
      exact h2 (this s h1)
    | keyValue k =>
      exfalso
      have h1 := hc.1
      have h2 : k.id.asStr ∉ idsV23 false := hid.2
      rcases h1 with h1 | h1 <;> rw [h1] at h2 <;> exact h2 (by decide)
    | text t =>
      have n1 : t.id ≠ .valid (str "TCON") := ne (str "TCON") (by decide)
      have hp : placed o (.leaf flags (.text t)) = [Frame.reencode o (.leaf flags (.text t))] := by
        unfold placed
        rw [if_neg hnot]
        exact if_neg n1
      exact ⟨hp, hp, rfl, rfl, hid.2⟩
    | _ =>
      exact ⟨if_neg (t := []) hnot, if_neg (t := []) hnot, rfl, rfl, hid.2⟩
  | chapter =>
    exact ⟨if_neg (t := []) hnot, if_neg (t := []) hnot, rfl, rfl, hid.2⟩
  | toc =>
    exact ⟨if_neg (t := []) hnot, if_neg (t := []) hnot, rfl, rfl, hid.2⟩

theorem items_pieces (rc : Bytes → Except Err (List Frame × Bytes)) {o : WriteOpts} {po : ParseOpts} (h23 : o.v23 = true) (himp : po.implicit = true)
    (fs : List Frame) : ∀ (root : Bool) (st : Option (Encoding × List (Str × Str))) (b : Bytes),
      (∀ f ∈ fs, V23Ok o po f ∧ (FrameOk o po f → ReadBack o po rc f)) →
      (if root then 1 else 0) + (fs.filter Frame.isRoot).length ≤ 1 →
      (∀ x, st = some x → o.enc x.1 = x.1) → (∀ x, mergeP st (peopleOf o fs) = some x → PeopleOk x) →
      itemsFrom o root (st.map iplsOf) fs = .ok b → b.length < 2 ^ 32 →
      ∃ ps : List (Bytes × Frame), b = ps.flatMap (·.1) ∧ (∀ x ∈ ps, Piece rc o po x) ∧
        ps.map (·.2) = fs.flatMap (read1 o) ++ peopleFrames (mergeP st (peopleOf o fs)) := by
  induction fs with
  | nil =>
    intro root st b _ _ hst hp hb hl
    have e : mergeP st (peopleOf o []) = st := mergeP_none st
    rw [e] at hp ⊢
    rw [itemsFrom] at hb
    cases st with
    | none =>
      cases hb
      exact ⟨[], rfl, by simp, rfl⟩
    | some x =>
      refine ⟨[(b, .leaf {} (.keyValue ⟨.valid (str "TIPL"), x.1, x.2⟩))], by simp, ?_, rfl⟩
      intro y hy
      simp only [List.mem_cons, List.not_mem_nil, or_false] at hy
      subst hy
      exact people_piece rc h23 himp (hst x rfl) (hp x rfl) hb hl
  | cons f fs ih =>
    intro root st b hf hr hst hp hb hl
    have hrest : ∀ g ∈ fs, V23Ok o po g ∧ (FrameOk o po g → ReadBack o po rc g) := fun g hg => hf g (by simp [hg])
    have hr' : (if root then 1 else 0) + (fs.filter Frame.isRoot).length ≤ 1 := by
      refine Nat.le_trans (Nat.add_le_add_left ?_ _) hr
      exact (List.Sublist.filter _ (List.sublist_cons_self f fs)).length_le
    have replaced : ∀ (l : List Content) (gs : List Frame), kvOf f = none → read1 o f = gs → prepare o f = .replace l →
        (∀ c, writeLeaves o f.flags l = .ok c → c.length < 2 ^ 32 →
          ∃ ps : List (Bytes × Frame), c = ps.flatMap (·.1) ∧ (∀ x ∈ ps, Piece rc o po x) ∧ ps.map (·.2) = gs) →
        ∃ ps : List (Bytes × Frame), b = ps.flatMap (·.1) ∧ (∀ x ∈ ps, Piece rc o po x) ∧
          ps.map (·.2) = (f :: fs).flatMap (read1 o) ++ peopleFrames (mergeP st (peopleOf o (f :: fs))) := by
      intro l gs hk hg hpr hw
      rw [itemsFrom, hpr] at hb
      simp only at hb
      obtain ⟨c, h1, hb2⟩ := bind_ok hb
      obtain ⟨r, h2, hb3⟩ := bind_ok hb2
      simp only [Except.ok.injEq] at hb3
      subst hb3
      rw [List.length_append] at hl
      rw [peopleOf_none hk] at hp ⊢
      obtain ⟨ps1, a1, a2, a3⟩ := hw c h1 (by omega)
      obtain ⟨ps2, b1, b2, b3⟩ := ih root st r hrest hr' hst hp h2 (by omega)
      refine ⟨ps1 ++ ps2, by rw [List.flatMap_append, a1, b1], ?_, ?_⟩
      · intro x hx
        rcases List.mem_append.mp hx with h | h
        · exact a2 x h
        · exact b2 x h
      · rw [List.map_append, a3, b3, List.flatMap_cons, hg, List.append_assoc]
    obtain ⟨hok, hback⟩ := hf f (by simp)
    have prep : ∀ flags c s, f = .leaf flags c → c.id = .valid s → s ∉ v4Only → verifyContent c = true → prepare o f = stepV3 f := by
      intro flags c s h1 h2 h3 h4
      subst h1
      unfold prepare
      have hc4 : v4Only.contains s = false := by
        rw [← Bool.not_eq_true, List.contains_iff_mem]; exact h3
      simp only [Frame.id, h2, FrameId.isValid, FrameId.asStr, verifyFrame, h4, h23, hc4, Bool.and_false, Bool.false_eq_true, if_false,
        Bool.true_eq_false, if_true]
    cases hok with
    | plain _ h h1 h2 =>
      obtain ⟨s, hs⟩ := h.readable
      obtain ⟨_, hr1, hk, _, _⟩ := plain_none h23 h
      rw [itemsFrom, hs.write] at hb
      simp only at hb
      have hroot : (f.isRoot && root) = false := by
        cases h1 : f.isRoot with
        | false => rfl
        | true =>
          cases h2 : root with
          | false => rfl
          | true =>
            rw [List.filter_cons_of_pos h1, h2] at hr
            simp at hr
      rw [hroot] at hb
      simp only [Bool.false_eq_true, if_false] at hb
      obtain ⟨v, c1, hb2⟩ := bind_ok hb
      obtain ⟨w, c2, hb3⟩ := bind_ok hb2
      obtain ⟨r, c3, hb4⟩ := bind_ok hb3
      simp only [Except.ok.injEq] at hb4
      subst hb4
      rw [hs.id, FrameId.asStr] at c2
      rw [List.length_append] at hl
      rw [peopleOf_none hk] at hp ⊢
      obtain ⟨ps, b1, b2, b3⟩ := ih (root || f.isRoot) st r hrest (by
        cases h1 : f.isRoot with
        | false => simpa using hr'
        | true =>
          rw [List.filter_cons_of_pos h1] at hr
          simp only [Bool.or_true, if_true]
          simp only [List.length_cons] at hr
          omega) hst hp c3 (by omega)
      refine ⟨(w, f.reencode o) :: ps, by rw [List.flatMap_cons, b1], ?_, ?_⟩
      · intro x hx
        rcases List.mem_cons.mp hx with rfl | hx
        · exact plain_piece rc hs (hback h) c1 c2 (by omega)
        · exact b2 x hx
      · rw [List.map_cons, b3, List.flatMap_cons, hr1]
        rfl
    | dropped _ h =>
      obtain ⟨_, hr1, hk, _⟩ := dropped_none (o := o) h
      have hpr : prepare o f = .skip := by
        unfold prepare
        rcases h with h | h
        · rw [if_pos h]
        · split
          · rfl
          · rw [if_pos]
            rw [h23, v4Only_eq]
            simpa using h
      rw [itemsFrom, hpr] at hb
      rw [peopleOf_none hk] at hp ⊢
      obtain ⟨ps, b1, b2, b3⟩ := ih root st b hrest hr' hst hp hb hl
      exact ⟨ps, b1, b2, by rw [b3, List.flatMap_cons, hr1]; rfl⟩
    | original flags t hfl hi ht =>
      have hv := (Timestamp.verify_iff _).mpr ht
      have hpl : placed o (.leaf flags (.time t)) = [.leaf flags (.time ⟨.valid (str "TDOR"), o.enc t.enc, yearOnly t.time.year⟩)] := by
        unfold placed
        rw [if_neg]
        · exact if_pos hi
        · simp only [Frame.id, Content.id, hi]
          decide
      refine replaced [.time ⟨.valid (str "TORY"), t.enc, { year := t.time.year }⟩]
        [.leaf flags (.time ⟨.valid (str "TDOR"), o.enc t.enc, yearOnly t.time.year⟩)] rfl ?_ ?_ ?_
      · rw [read1, if_neg (by rw [hi]; decide), hpl]
      · rw [prep flags _ (str "TDOR") rfl hi (by decide) (by simp only [verifyContent, Content.id, hi]; decide), stepV3]
        simp only [Content.id, hi, FrameId.asStr, if_true, hv]
      · intro c hc hcl
        refine leaves_pieces rc o po flags [(.time ⟨.valid (str "TORY"), t.enc, { year := t.time.year }⟩,
          .leaf flags (.time ⟨.valid (str "TDOR"), o.enc t.enc, yearOnly t.time.year⟩))] ?_ c hc hcl
        intro x hx
        simp only [List.mem_cons, List.not_mem_nil, or_false] at hx
        subst hx
        exact leaf_becomes rc hfl (.time ⟨.valid (str "TORY"), t.enc, yearOnly t.time.year⟩)
          (.time ⟨.valid (str "TDOR"), t.enc, yearOnly t.time.year⟩) (str "TDOR") rfl
          ⟨by show str "TDOR" ∈ _; decide, yearOnly_range ht.year⟩ rfl (by show IdOk (str "TORY"); decide) (by decide)
          (by rw [h23, himp]; show upId true true (str "TORY") = _; decide) (by decide)
    | date flags t hfl hi ht hy =>
      have hv := (Timestamp.verify_iff _).mpr ht
      refine replaced ((splitTdrc t).map .text) (dateFrames o flags t) rfl ?_ ?_ ?_
      · rw [read1, if_pos hi]
      · rw [prep flags _ (str "TDRC") rfl hi (by decide) (by simp only [verifyContent, Content.id, hi]; decide), stepV3]
        simp only [Content.id, hi, FrameId.asStr]
        rw [if_neg (by decide)]
        simp only [if_true, hv]
      · intro c hc hcl
        exact date_pieces rc h23 himp hfl hy ht.year hc hcl
    | genre flags t gs hfl hi hval hg hrep =>
      have hsp : splitOn '\x00' t.value = gs := by
        rw [hval]; exact splitOn_join gs (fun g hg' => (hg.2.1 g hg').2) hg.1
      have hpl : placed o (.leaf flags (.text t)) = [.leaf flags (.text ⟨.valid (str "TCON"), o.enc t.enc, genreText gs⟩)] := by
        unfold placed
        rw [if_neg]
        · simp only
          rw [if_pos hi, hsp]
        · simp only [Frame.id, Content.id, hi]
          decide
      refine replaced [.text ⟨t.id, t.enc, genresV3 t.value⟩] [.leaf flags (.text ⟨.valid (str "TCON"), o.enc t.enc, genreText gs⟩)] rfl hpl ?_ ?_
      · rw [prep flags _ (str "TCON") rfl hi (by decide) (by simp only [verifyContent, Content.id, hi]; decide), stepV3]
        simp only [Content.id, hi, FrameId.asStr]
        rw [if_neg (by decide), if_neg (by decide)]
        simp only [if_true]
      · intro c hc hcl
        refine leaves_pieces rc o po flags [(.text ⟨t.id, t.enc, genresV3 t.value⟩,
          .leaf flags (.text ⟨.valid (str "TCON"), o.enc t.enc, genreText gs⟩))] ?_ c hc hcl
        intro x hx
        simp only [List.mem_cons, List.not_mem_nil, or_false] at hx
        subst hx
        rw [hi, hval, genresV3_join hg]
        rw [hval] at hrep
        exact leaf_becomes rc hfl (.text ⟨.valid (str "TCON"), t.enc, genreText gs⟩)
          (.text ⟨.valid (str "TCON"), t.enc, genreText gs⟩) (str "TCON") rfl
          ⟨.inl ⟨rfl, (by decide : str "TCON" ∉ _)⟩, final_genreText hg hrep⟩ rfl (by show IdOk (str "TCON"); decide) (by decide)
          (by rw [h23, himp]; show upId true true (str "TCON") = _; decide) (by decide)
    | people flags k hi =>
      have hk : kvOf (.leaf flags (.keyValue k)) = some k := if_pos hi
      have hpr : prepare o (.leaf flags (.keyValue k)) = .people k.enc.toId3v23 k.pairs := by
        rcases hi with hi | hi
        · rw [prep flags _ (str "TIPL") rfl hi (by decide) (by simp only [verifyContent, Content.id, hi]; decide), stepV3]
          simp only [Content.id, hi, FrameId.asStr]
          rw [if_neg (by decide), if_neg (by decide), if_neg (by decide), if_pos (by decide)]
        · rw [prep flags _ (str "TMCL") rfl hi (by decide) (by simp only [verifyContent, Content.id, hi]; decide), stepV3]
          simp only [Content.id, hi, FrameId.asStr]
          rw [if_neg (by decide), if_neg (by decide), if_neg (by decide), if_pos (by decide)]
      have hr1 : read1 o (.leaf flags (.keyValue k)) = [] := by
        show placed o _ = []
        unfold placed
        split <;> rfl
      rw [itemsFrom, hpr] at hb
      simp only at hb
      rw [addPeople_merge, ← (enc_v23 h23 k.enc).2] at hb
      rw [peopleOf_some hk, ← mergeP_assoc] at hp ⊢
      obtain ⟨ps, b1, b2, b3⟩ := ih root (mergeP st (some (o.enc k.enc, k.pairs))) b hrest hr' (by
        intro x hx
        cases st with
        | none => cases hx; exact enc_enc o _
        | some a => cases hx; exact hst a rfl) hp hb hl
      exact ⟨ps, b1, b2, by rw [b3, List.flatMap_cons, hr1]; rfl⟩

end Lofty.Id3v2
