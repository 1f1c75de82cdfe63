import Verif.Model.Mp4Write
import Verif.Spec.Mp4Write
import Verif.Lemmas.Mp4
import Verif.Lemmas.Ilst
import Verif.Lemmas.File
/-! Helper lemmas for writing MP4 files. -/
namespace Lofty.Mp4Write
open Lofty.Mp4 Lofty.Ilst

/-! ## Forests -/

theorem append_bytes (f g : Forest) : (f.append g).bytes = f.bytes ++ g.bytes := by
  induction f with
  | nil => rfl
  | leaf id c rest ih => simp [Forest.append, Forest.bytes, ih]
  | node id kids rest _ ih => simp [Forest.append, Forest.bytes, ih]

theorem append_mapOffsets (s : Nat → Nat) (f g : Forest) :
    (f.append g).mapOffsets s = (f.mapOffsets s).append (g.mapOffsets s) := by
  induction f with
  | nil => rfl
  | leaf id c rest ih => simp [Forest.append, Forest.mapOffsets, ih]
  | node id kids rest _ ih => simp [Forest.append, Forest.mapOffsets, ih]

theorem mapEntries_length (s : Nat → Nat) (n : Nat) (b : Bytes) (h : 4 * n ≤ b.length) :
    (mapEntries s n b).length = b.length := by
  induction n generalizing b with
  | zero => rfl
  | succ n ih =>
    rw [mapEntries, List.length_append, beBytes_length, ih _ (by simp; omega)]
    simp; omega

theorem mapTable_length (s : Nat → Nat) (c : Bytes) (h : 8 + 4 * tableCount c ≤ c.length) :
    (mapTable s c).length = c.length := by
  rw [mapTable, List.length_append, mapEntries_length _ _ _ (by simp; omega)]
  simp; omega

theorem mapOffsets_length (s : Nat → Nat) (f : Forest) (ht : f.Tables) :
    (f.mapOffsets s).bytes.length = f.bytes.length := by
  induction f with
  | nil => rfl
  | leaf id c rest ih =>
    obtain ⟨h1, h2⟩ := ht
    simp only [Forest.mapOffsets, Forest.bytes, List.length_append, ih h2, box, beBytes_length]
    by_cases hs : id = ascii "stco"
    · rw [if_pos hs, mapTable_length s c (h1 hs)]
    · rw [if_neg hs]
  | node id kids rest ih1 ih2 =>
    obtain ⟨h1, h2⟩ := ht
    simp only [Forest.mapOffsets, Forest.bytes, List.length_append, ih1 h1, ih2 h2, box, beBytes_length]

/-- The atoms with their positions. -/
def ctx : Nat → Forest → List CAtom
  | _, .nil => []
  | p, .leaf id c rest => .mk ⟨p, 8 + c.length, false, .fourcc id⟩ [] :: ctx (p + (8 + c.length)) rest
  | p, .node id kids rest =>
    .mk ⟨p, 8 + kids.bytes.length, false, .fourcc id⟩ (ctx (p + 8) kids) :: ctx (p + (8 + kids.bytes.length)) rest

theorem ctx_append {f : Forest} (h : f.Ok) (p : Nat) (g : Forest) :
    ctx p (f.append g) = ctx p f ++ ctx (p + f.bytes.length) g := by
  induction f generalizing p with
  | nil => rfl
  | leaf id c rest ih =>
    obtain ⟨h1, _, h3⟩ := h
    simp only [Forest.append, ctx, ih h3, Forest.bytes, List.length_append, box_length _ _ h1.1, List.cons_append]
    rw [Nat.add_assoc]
  | node id kids rest _ ih =>
    obtain ⟨h1, _, _, h3⟩ := h
    simp only [Forest.append, ctx, ih h3, Forest.bytes, List.length_append, box_length _ _ h1.1, List.cons_append]
    rw [Nat.add_assoc p]

theorem important_iff {id : Bytes} : important (.fourcc id) = true ↔ IsContainer id := by
  simp [important, containers, IsContainer]

theorem skip_ok {r : Rd} {L : Nat} (h8 : 8 ≤ L) (hL : L < 2 ^ 32) : skipAtom r false L = .ok (r.skip (L - 8)) := by
  unfold skipAtom
  simp only [Bool.not_false, if_true, Nat.mod_eq_of_lt hL]
  rw [if_pos h8]

/-- Reading the atoms of a file. -/
theorem readAtoms_ok {mode : Mode} (f : Forest) (hf : f.Ok) : ∀ (fuel : Nat) (r : Rd) (rest : Bytes),
    f.bytes.length < fuel → At r (f.bytes ++ rest) → f.bytes.length < 2 ^ 32 →
    readAtoms mode fuel r f.bytes.length = .ok (ctx r.pos f, 0, r.skip f.bytes.length) := by
  induction f with
  | nil =>
    intro fuel r rest hk _ _
    cases fuel with
    | zero => simp at hk
    | succ k => rfl
  | leaf id c g ih =>
    intro fuel r rest hk hr hl
    obtain ⟨h1, h2, h3⟩ := hf
    have hb : (box id c).length = 8 + c.length := box_length _ _ h1.1
    have hlen : (Forest.leaf id c g).bytes.length = 8 + c.length + g.bytes.length := by
      simp only [Forest.bytes, List.length_append, hb]
    rw [hlen] at hk hl ⊢
    cases fuel with
    | zero => omega
    | succ k =>
      have hr' : At r (beBytes 4 (8 + c.length) ++ (id ++ (c ++ (g.bytes ++ rest)))) := by
        have := hr
        simp only [Forest.bytes, box, List.append_assoc] at this
        exact this
      have hr2 : At (r.skip (8 + c.length)) (g.bytes ++ rest) := by
        have := hr
        simp only [Forest.bytes, List.append_assoc] at this
        exact this.skip hb
      have himp : ¬ important (.fourcc id) = true := fun h => h2 (important_iff.mp h)
      rw [readAtoms, if_neg (by omega), readInfo_box hr' (by omega) (by omega) h1.1 h1.2.1 (by omega) h1.2.2, ok_bind]
      simp only
      rw [if_neg himp, skip_ok (by omega) (by omega), ok_bind, skip_skip]
      have e1 : 8 + (8 + c.length - 8) = 8 + c.length := by omega
      have e2 : 8 + c.length + g.bytes.length - (8 + c.length) = g.bytes.length := by omega
      rw [e1, e2, ih h3 k _ rest (by omega) hr2 (by omega), ok_bind]
      simp only [skip_pos, skip_skip, ctx]
  | node id kids g ihk ih =>
    intro fuel r rest hk hr hl
    obtain ⟨h1, h2, hk3, h3⟩ := hf
    have hb : (box id kids.bytes).length = 8 + kids.bytes.length := box_length _ _ h1.1
    have hlen : (Forest.node id kids g).bytes.length = 8 + kids.bytes.length + g.bytes.length := by
      simp only [Forest.bytes, List.length_append, hb]
    rw [hlen] at hk hl ⊢
    cases fuel with
    | zero => omega
    | succ k =>
      have hr' : At r (beBytes 4 (8 + kids.bytes.length) ++ (id ++ (kids.bytes ++ (g.bytes ++ rest)))) := by
        have := hr
        simp only [Forest.bytes, box, List.append_assoc] at this
        exact this
      have hr1 : At (r.skip 8) (kids.bytes ++ (g.bytes ++ rest)) := by
        have := hr'
        rw [← List.append_assoc] at this
        exact this.skip (by simp [h1.1])
      have hr2 : At (r.skip (8 + kids.bytes.length)) (g.bytes ++ rest) := by
        have := hr
        simp only [Forest.bytes, List.append_assoc] at this
        exact this.skip hb
      have himp : important (.fourcc id) = true := important_iff.mpr h2
      rw [readAtoms, if_neg (by omega), readInfo_box hr' (by omega) (by omega) h1.1 h1.2.1 (by omega) h1.2.2, ok_bind]
      simp only [Info.headerSize, Bool.false_eq_true, if_false]
      rw [if_pos himp, if_neg (by omega)]
      have e1 : 8 + kids.bytes.length - 8 = kids.bytes.length := by omega
      have e2 : 8 + kids.bytes.length + g.bytes.length - (8 + kids.bytes.length) = g.bytes.length := by omega
      rw [e1, ihk hk3 k _ _ (by omega) hr1 (by omega), ok_bind]
      simp only [ne_eq, not_true_eq_false, if_false, skip_skip]
      rw [e2, ih h3 k _ rest (by omega) hr2 (by omega), ok_bind]
      simp only [skip_pos, skip_skip, ctx]

theorem findTop_append_none {f : Forest} {id : Bytes} (h : id ∉ f.top) (p : Nat) (l : List CAtom) :
    findTop (ctx p f ++ l) id = findTop l id := by
  induction f generalizing p with
  | nil => rfl
  | leaf i c rest ih =>
    simp only [Forest.top, List.mem_cons, not_or] at h
    have hne : ¬ (i = id) := fun e => h.1 e.symm
    have := ih h.2
    simp only [ctx, List.cons_append, findTop, List.find?_cons, CAtom.info, Ident.fourcc.injEq, hne, decide_false] at this ⊢
    exact this _
  | node i kids rest _ ih =>
    simp only [Forest.top, List.mem_cons, not_or] at h
    have hne : ¬ (i = id) := fun e => h.1 e.symm
    have := ih h.2
    simp only [ctx, List.cons_append, findTop, List.find?_cons, CAtom.info, Ident.fourcc.injEq, hne, decide_false] at this ⊢
    exact this _

theorem findTop_none {f : Forest} {id : Bytes} (h : id ∉ f.top) (p : Nat) : findTop (ctx p f) id = none := by
  have := findTop_append_none h p []
  rwa [List.append_nil] at this

theorem findAll_append (id : Bytes) (a b : List CAtom) : findAll id (a ++ b) = findAll id a ++ findAll id b := by
  induction a with
  | nil => rw [List.nil_append, findAll, List.nil_append]
  | cons c a ih => rw [List.cons_append, findAll, findAll, ih, List.append_assoc]

theorem findAll_none {f : Forest} {id : Bytes} (h : id ∉ f.names) (p : Nat) : findAll id (ctx p f) = [] := by
  induction f generalizing p with
  | nil => simp [ctx, findAll]
  | leaf i c rest ih =>
    simp only [Forest.names, List.mem_cons, not_or] at h
    simp only [ctx, findAll, CAtom.findAll]
    rw [if_neg (fun e => h.1 e.symm), ih h.2]
    rfl
  | node i kids rest ihk ih =>
    simp only [Forest.names, List.mem_cons, List.mem_append, not_or] at h
    simp only [ctx, findAll, CAtom.findAll]
    rw [if_neg (fun e => h.1 e.symm), ih h.2.2, ihk h.2.1]
    rfl

/-! ## Searching children -/

/-- The first child with a name. -/
theorem findChild_some {mode : Mode} {id : Bytes} (hid : IdOk id) (c rest : Bytes) (f : Forest) (hf : f.Ok) (hn : id ∉ f.top) :
    ∀ (fuel : Nat) (r : Rd) (len : Nat), f.bytes.length < fuel → At r (f.bytes ++ (box id c ++ rest)) →
    f.bytes.length + (8 + c.length) < len → f.bytes.length + (8 + c.length) < 2 ^ 32 →
    findChild fuel r len id mode =
      .ok (some ⟨r.pos + f.bytes.length, 8 + c.length, false, .fourcc id⟩, r.skip (f.bytes.length + 8)) := by
  have main : ∀ (i x : Bytes) (g : Forest), IdOk i → ∀ (fuel : Nat) (r : Rd) (len : Nat),
      i ≠ id → At r (box i x ++ g.bytes ++ (box id c ++ rest)) → 8 + x.length + g.bytes.length < fuel + 1 →
      8 + x.length + g.bytes.length + (8 + c.length) < len → 8 + x.length + g.bytes.length + (8 + c.length) < 2 ^ 32 →
      (∀ (fuel : Nat) (r : Rd) (len : Nat), g.bytes.length < fuel → At r (g.bytes ++ (box id c ++ rest)) →
        g.bytes.length + (8 + c.length) < len → g.bytes.length + (8 + c.length) < 2 ^ 32 →
        findChild fuel r len id mode =
          .ok (some ⟨r.pos + g.bytes.length, 8 + c.length, false, .fourcc id⟩, r.skip (g.bytes.length + 8))) →
      findChild (fuel + 1) r len id mode =
        .ok (some ⟨r.pos + (8 + x.length + g.bytes.length), 8 + c.length, false, .fourcc id⟩,
          r.skip (8 + x.length + g.bytes.length + 8)) := by
    intro i x g h1 fuel r len hne hr hk hlen hl ih
    have hb : (box i x).length = 8 + x.length := box_length _ _ h1.1
    have hr' : At r (beBytes 4 (8 + x.length) ++ (i ++ (x ++ (g.bytes ++ (box id c ++ rest))))) := by
      have := hr
      simp only [List.append_assoc] at this
      rw [box] at this
      simp only [List.append_assoc] at this
      exact this
    have hr2 : At (r.skip (8 + x.length)) (g.bytes ++ (box id c ++ rest)) := by
      have := hr
      simp only [List.append_assoc] at this
      exact this.skip hb
    rw [findChild, if_neg (by omega), readInfo_box hr' (by omega) (by omega) h1.1 h1.2.1 (by omega) h1.2.2, ok_bind]
    simp only
    rw [if_neg (by intro e; injection e with e; exact hne e), skip_ok (by omega) (by omega), ok_bind, skip_skip]
    have e1 : 8 + (8 + x.length - 8) = 8 + x.length := by omega
    rw [e1, ih fuel _ _ (by omega) hr2 (by omega) (by omega)]
    simp only [skip_pos, skip_skip, Nat.add_assoc]
  induction f with
  | nil =>
    intro fuel r len hk hr hlen hl
    cases fuel with
    | zero => simp at hk
    | succ k =>
      have hr' : At r (beBytes 4 (8 + c.length) ++ (id ++ (c ++ rest))) := by
        have := hr
        simp only [Forest.bytes, box, List.append_assoc, List.nil_append] at this
        exact this
      simp only [Forest.bytes, List.length_nil] at hlen hl
      rw [findChild, if_neg (by omega), readInfo_box hr' (by omega) (by omega) hid.1 hid.2.1 (by omega) hid.2.2, ok_bind]
      simp [Forest.bytes]
  | leaf i x g ih =>
    intro fuel r len hk hr hlen hl
    obtain ⟨h1, _, h3⟩ := hf
    simp only [Forest.top, List.mem_cons, not_or] at hn
    have hb : (Forest.leaf i x g).bytes.length = 8 + x.length + g.bytes.length := by
      simp only [Forest.bytes, List.length_append, box_length _ _ h1.1]
    rw [hb] at hk hlen hl ⊢
    cases fuel with
    | zero => omega
    | succ k => exact main i x g h1 k r len (fun e => hn.1 e.symm) hr hk hlen hl (ih h3 hn.2)
  | node i kids g _ ih =>
    intro fuel r len hk hr hlen hl
    obtain ⟨h1, _, _, h3⟩ := hf
    simp only [Forest.top, List.mem_cons, not_or] at hn
    have hb : (Forest.node i kids g).bytes.length = 8 + kids.bytes.length + g.bytes.length := by
      simp only [Forest.bytes, List.length_append, box_length _ _ h1.1]
    rw [hb] at hk hlen hl ⊢
    cases fuel with
    | zero => omega
    | succ k => exact main i kids.bytes g h1 k r len (fun e => hn.1 e.symm) hr hk hlen hl (ih h3 hn.2)

/-- No child with a name. -/
theorem findChild_none {mode : Mode} {id : Bytes} (rest : Bytes) (e : Nat) (he : e ≤ 8) (f : Forest) (hf : f.Ok) (hn : id ∉ f.top) :
    ∀ (fuel : Nat) (r : Rd), f.bytes.length < fuel → At r (f.bytes ++ rest) → f.bytes.length < 2 ^ 32 →
    ∃ r', findChild fuel r (f.bytes.length + e) id mode = .ok (none, r') := by
  have main : ∀ (i x : Bytes) (g : Forest), IdOk i → ∀ (fuel : Nat) (r : Rd), i ≠ id →
      At r (box i x ++ g.bytes ++ rest) → 8 + x.length + g.bytes.length < fuel + 1 →
      8 + x.length + g.bytes.length < 2 ^ 32 →
      (∀ (fuel : Nat) (r : Rd), g.bytes.length < fuel → At r (g.bytes ++ rest) → g.bytes.length < 2 ^ 32 →
        ∃ r', findChild fuel r (g.bytes.length + e) id mode = .ok (none, r')) →
      ∃ r', findChild (fuel + 1) r (8 + x.length + g.bytes.length + e) id mode = .ok (none, r') := by
    intro i x g h1 fuel r hne hr hk hl ih
    have hb : (box i x).length = 8 + x.length := box_length _ _ h1.1
    have hr' : At r (beBytes 4 (8 + x.length) ++ (i ++ (x ++ (g.bytes ++ rest)))) := by
      have := hr
      simp only [List.append_assoc] at this
      rw [box] at this
      simp only [List.append_assoc] at this
      exact this
    have hr2 : At (r.skip (8 + x.length)) (g.bytes ++ rest) := by
      have := hr
      simp only [List.append_assoc] at this
      exact this.skip hb
    rw [findChild]
    by_cases h8 : 8 + x.length + g.bytes.length + e ≤ 8
    · rw [if_pos h8]; exact ⟨_, rfl⟩
    · rw [if_neg h8, readInfo_box hr' (by omega) (by omega) h1.1 h1.2.1 (by omega) h1.2.2, ok_bind]
      simp only
      rw [if_neg (by intro e; injection e with e; exact hne e), skip_ok (by omega) (by omega), ok_bind, skip_skip]
      have e1 : 8 + (8 + x.length - 8) = 8 + x.length := by omega
      have e2 : 8 + x.length + g.bytes.length + e - (8 + x.length) = g.bytes.length + e := by omega
      rw [e1, e2]
      exact ih fuel _ (by omega) hr2 (by omega)
  induction f with
  | nil =>
    intro fuel r hk hr hl
    cases fuel with
    | zero => simp at hk
    | succ k =>
      rw [findChild, if_pos (by simp [Forest.bytes]; exact he)]
      exact ⟨_, rfl⟩
  | leaf i x g ih =>
    intro fuel r hk hr hl
    obtain ⟨h1, _, h3⟩ := hf
    simp only [Forest.top, List.mem_cons, not_or] at hn
    have hb : (Forest.leaf i x g).bytes.length = 8 + x.length + g.bytes.length := by
      simp only [Forest.bytes, List.length_append, box_length _ _ h1.1]
    rw [hb] at hk hl ⊢
    cases fuel with
    | zero => omega
    | succ k => exact main i x g h1 k r (fun e => hn.1 e.symm) hr hk hl (ih h3 hn.2)
  | node i kids g _ ih =>
    intro fuel r hk hr hl
    obtain ⟨h1, _, _, h3⟩ := hf
    simp only [Forest.top, List.mem_cons, not_or] at hn
    have hb : (Forest.node i kids g).bytes.length = 8 + kids.bytes.length + g.bytes.length := by
      simp only [Forest.bytes, List.length_append, box_length _ _ h1.1]
    rw [hb] at hk hl ⊢
    cases fuel with
    | zero => omega
    | succ k => exact main i kids.bytes g h1 k r (fun e => hn.1 e.symm) hr hk hl (ih h3 hn.2)

/-! ## The atoms of `meta` -/

/-- The atoms with their positions. -/
def infos : Nat → List (Bytes × Bytes) → List Info
  | _, [] => []
  | p, x :: l => ⟨p, 8 + x.2.length, false, .fourcc x.1⟩ :: infos (p + (8 + x.2.length)) l

theorem boxes_cons (x : Bytes × Bytes) (l : List (Bytes × Bytes)) : boxes (x :: l) = box x.1 x.2 ++ boxes l := by
  simp [boxes]

theorem boxes_append (a b : List (Bytes × Bytes)) : boxes (a ++ b) = boxes a ++ boxes b := by
  simp [boxes]

/-- The index kept by the loop: the last atom with the name. -/
def lastIdx (upTo : Bytes) : Nat → Nat → List (Bytes × Bytes) → Nat
  | found, _, [] => found
  | found, i, x :: l => lastIdx upTo (if x.1 = upTo then i + 1 else found) (i + 1) l

theorem treeLoop_ok {mode : Mode} {upTo rest : Bytes} {e : Nat} (he : e ≤ 8) (l : List (Bytes × Bytes)) (h : ∀ x ∈ l, IdOk x.1) :
    ∀ (fuel : Nat) (r : Rd) (found i : Nat) (buf : List Info), (boxes l).length < fuel → At r (boxes l ++ rest) →
    (boxes l).length < 2 ^ 32 → (e = 0 → l.getLast?.map Prod.snd ≠ some []) →
    ∃ r', treeLoop fuel r ((boxes l).length + e) upTo mode found i buf =
      .ok (lastIdx upTo found i l, buf ++ infos r.pos l, r') := by
  induction l with
  | nil =>
    intro fuel r found i buf hk hr hl _
    cases fuel with
    | zero => simp at hk
    | succ k =>
      rw [treeLoop, if_pos (by simp [boxes]; exact he)]
      exact ⟨r, by simp [lastIdx, infos]⟩
  | cons x l ih =>
    intro fuel r found i buf hk hr hl h0
    have h1 := h x (by simp)
    have hb : (box x.1 x.2).length = 8 + x.2.length := box_length _ _ h1.1
    rw [boxes_cons] at hr
    have hlen : (boxes (x :: l)).length = 8 + x.2.length + (boxes l).length := by
      rw [boxes_cons, List.length_append, hb]
    rw [hlen] at hk hl ⊢
    have h0' : e = 0 → l.getLast?.map Prod.snd ≠ some [] := by
      intro e0
      cases l with
      | nil => simp
      | cons y l => have := h0 e0; rwa [List.getLast?_cons_cons] at this
    have hp : 8 + x.2.length + (boxes l).length + e > 8 := by
      cases l with
      | nil =>
        by_cases e0 : e = 0
        · have := h0 e0
          simp only [List.getLast?_singleton, Option.map_some, ne_eq, Option.some.injEq] at this
          have := List.length_pos_iff.mpr this
          omega
        · omega
      | cons y l =>
        rw [boxes_cons, List.length_append, box_length _ _ (h y (by simp)).1]
        omega
    cases fuel with
    | zero => omega
    | succ k =>
      have hr' : At r (beBytes 4 (8 + x.2.length) ++ (x.1 ++ (x.2 ++ (boxes l ++ rest)))) := by
        have := hr
        simp only [List.append_assoc] at this
        rw [box] at this
        simp only [List.append_assoc] at this
        exact this
      have hr2 : At (r.skip (8 + x.2.length)) (boxes l ++ rest) := by
        have := hr
        simp only [List.append_assoc] at this
        exact this.skip hb
      have e1 : 8 + (8 + x.2.length - 8) = 8 + x.2.length := by omega
      have e2 : 8 + x.2.length + (boxes l).length + e - (8 + x.2.length) = (boxes l).length + e := by omega
      rw [treeLoop, if_neg (by omega), readInfo_box hr' (by omega) (by omega) h1.1 h1.2.1 (by omega) h1.2.2, ok_bind]
      simp only
      rw [skip_ok (by omega) (by omega), ok_bind, skip_skip, e1, e2]
      obtain ⟨r', ih⟩ := ih (fun y hy => h y (by simp [hy])) k _ (if x.1 = upTo then i + 1 else found) (i + 1)
        (buf ++ [⟨r.pos, 8 + x.2.length, false, .fourcc x.1⟩]) (by omega) hr2 (by omega) h0'
      refine ⟨r', ih.trans ?_⟩
      simp only [lastIdx, infos, skip_pos, List.append_assoc, List.cons_append, List.nil_append]

theorem lastIdx_append (upTo : Bytes) (a b : List (Bytes × Bytes)) (found i : Nat) :
    lastIdx upTo found i (a ++ b) = lastIdx upTo (lastIdx upTo found i a) (i + a.length) b := by
  induction a generalizing found i with
  | nil => rfl
  | cons x a ih =>
    simp only [List.cons_append, lastIdx, ih, List.length_cons]
    rw [Nat.add_assoc, Nat.add_comm 1]

theorem lastIdx_none {upTo : Bytes} {l : List (Bytes × Bytes)} (h : ∀ x ∈ l, x.1 ≠ upTo) (found i : Nat) :
    lastIdx upTo found i l = found := by
  induction l generalizing i with
  | nil => rfl
  | cons x l ih => rw [lastIdx, if_neg (h x (by simp)), ih (fun y hy => h y (by simp [hy]))]

theorem infos_append {a : List (Bytes × Bytes)} (h : ∀ x ∈ a, IdOk x.1) (b : List (Bytes × Bytes)) (p : Nat) :
    infos p (a ++ b) = infos p a ++ infos (p + (boxes a).length) b := by
  induction a generalizing p with
  | nil => simp [infos, boxes]
  | cons x a ih =>
    simp only [List.cons_append, infos, ih (fun y hy => h y (by simp [hy])), boxes_cons, List.length_append,
      box_length _ _ (h x (by simp)).1]
    rw [Nat.add_assoc p]

theorem infos_length (p : Nat) (l : List (Bytes × Bytes)) : (infos p l).length = l.length := by
  induction l generalizing p with
  | nil => rfl
  | cons x l ih => simp [infos, ih]

/-! ## Offsets -/

theorem readBytes_mid (a x r : Bytes) (n : Nat) (h : x.length = n) : readBytes (a ++ (x ++ r)) a.length n = .ok x := by
  unfold readBytes
  rw [if_pos (by simp; omega), List.drop_left' rfl, List.take_left' h]

theorem beBytes_four {b : Bytes} (h : b.length = 4) : beBytes 4 (fromBE b) = b := by
  have := beBytes_fromBE b
  rwa [h] at this

/-- The entries of a table. -/
theorem shiftEntries_ok (d : Int) (off n : Nat) : ∀ (pre b post : Bytes), 4 * n ≤ b.length →
    shiftEntries 4 d off n pre.length (pre ++ (b ++ post)) = .ok (pre ++ (mapEntries (moved off d) n b ++ post)) := by
  induction n with
  | zero => intro pre b post _; rfl
  | succ n ih =>
    intro pre b post h
    have hl : (b.take 4).length = 4 := by simp; omega
    have e : pre ++ (b ++ post) = pre ++ (b.take 4 ++ (b.drop 4 ++ post)) := by
      rw [← List.append_assoc (b.take 4), List.take_append_drop]
    rw [shiftEntries, e, readBytes_mid _ _ _ _ hl, ok_bind]
    have hf : (if fromBE (b.take 4) < off then pre ++ (b.take 4 ++ (b.drop 4 ++ post))
        else writeAt (pre ++ (b.take 4 ++ (b.drop 4 ++ post))) pre.length (beBytes 4 (shifted 4 (fromBE (b.take 4)) d)))
        = (pre ++ beBytes 4 (moved off d (fromBE (b.take 4)))) ++ (b.drop 4 ++ post) := by
      unfold moved
      by_cases hlt : fromBE (b.take 4) < off
      · rw [if_pos hlt, if_pos hlt, beBytes_four hl, List.append_assoc]
      · rw [if_neg hlt, if_neg hlt, Ilst.writeAt_mid _ _ _ _ (by rw [hl, beBytes_length]), List.append_assoc]
        rfl
    simp only
    rw [hf]
    have hp : pre.length + 4 = (pre ++ beBytes 4 (moved off d (fromBE (b.take 4)))).length := by simp
    rw [hp, ih _ _ _ (by simp; omega), mapEntries]
    simp only [List.append_assoc]

theorem container_ne_stco {id : Bytes} (h : IsContainer id) : id ≠ ascii "stco" := by
  rintro rfl
  revert h
  unfold IsContainer
  decide

/-- One table. -/
theorem shiftStco_ok (d : Int) (off : Nat) (pre c post id : Bytes) (hid : id.length = 4) (h : 8 + 4 * tableCount c ≤ c.length) :
    shiftStco d off (pre ++ (box id c ++ post)) ⟨pre.length, 8 + c.length, false, .fourcc id⟩
      = .ok (pre ++ (box id (mapTable (moved off d) c) ++ post)) := by
  have h4 : (c.take 4).length = 4 := by simp; omega
  have h44 : ((c.drop 4).take 4).length = 4 := by simp; omega
  have e0 : c = c.take 4 ++ ((c.drop 4).take 4 ++ c.drop 8) := by
    have h1 := (List.take_append_drop 4 (c.drop 4)).symm
    rw [List.drop_drop] at h1
    rw [← h1, List.take_append_drop]
  have e1 : pre ++ (box id c ++ post) =
      (pre ++ (beBytes 4 (8 + c.length) ++ (id ++ c.take 4))) ++ ((c.drop 4).take 4 ++ (c.drop 8 ++ post)) := by
    conv => lhs; rw [box]; rw [show id ++ c = id ++ (c.take 4 ++ ((c.drop 4).take 4 ++ c.drop 8)) by rw [← e0]]
    simp only [List.append_assoc]
  have l1 : (pre ++ (beBytes 4 (8 + c.length) ++ (id ++ c.take 4))).length = pre.length + 12 := by
    simp only [List.length_append, beBytes_length, hid, h4]
  unfold shiftStco
  simp only [Bool.false_eq_true, if_false]
  rw [e1, ← l1, readBytes_mid _ _ _ _ h44, ok_bind]
  have e2 : (pre ++ (beBytes 4 (8 + c.length) ++ (id ++ c.take 4))) ++ ((c.drop 4).take 4 ++ (c.drop 8 ++ post)) =
      (pre ++ (beBytes 4 (8 + c.length) ++ (id ++ c.take 8))) ++ (c.drop 8 ++ post) := by
    have : c.take 8 = c.take 4 ++ (c.drop 4).take 4 := by
      rw [show (8 : Nat) = 4 + 4 by rfl, List.take_add]
    rw [this]
    simp only [List.append_assoc]
  have l2 : pre.length + 16 = (pre ++ (beBytes 4 (8 + c.length) ++ (id ++ c.take 8))).length := by
    simp only [List.length_append, beBytes_length, hid, List.length_take]
    omega
  rw [e2, l2, show fromBE ((c.drop 4).take 4) = tableCount c from rfl, shiftEntries_ok _ _ _ _ _ _ (by simp; omega), box,
    mapTable_length _ _ h, mapTable]
  simp only [List.append_assoc]

theorem foldlM_append_ok {α : Type} (g : Bytes → α → Except Err Bytes) (a b : List α) (s m : Bytes)
    (h : a.foldlM g s = .ok m) : (a ++ b).foldlM g s = b.foldlM g m := by
  rw [List.foldlM_append, h]
  rfl

/-- All tables of a list of atoms. -/
theorem fold_stco (d : Int) (off : Nat) (f : Forest) (hf : f.Ok) (ht : f.Tables) : ∀ (pre post : Bytes),
    (findAll (ascii "stco") (ctx pre.length f)).foldlM (shiftStco d off) (pre ++ (f.bytes ++ post))
      = .ok (pre ++ ((f.mapOffsets (moved off d)).bytes ++ post)) := by
  induction f with
  | nil => intro pre post; rw [ctx, findAll]; rfl
  | leaf id c g ih =>
    intro pre post
    obtain ⟨h1, _, h3⟩ := hf
    obtain ⟨t1, t2⟩ := ht
    have hb : ∀ x : Bytes, (box id x).length = 8 + x.length := fun x => box_length _ _ h1.1
    rw [ctx, findAll]
    by_cases hs : id = ascii "stco"
    · have hm := mapTable_length (moved off d) c (t1 hs)
      have h0 : (CAtom.findAll (ascii "stco") (.mk ⟨pre.length, 8 + c.length, false, .fourcc id⟩ [])).foldlM (shiftStco d off)
          (pre ++ ((Forest.leaf id c g).bytes ++ post))
          = .ok ((pre ++ box id (mapTable (moved off d) c)) ++ (g.bytes ++ post)) := by
        simp only [CAtom.findAll, hs, if_true, List.foldlM_cons, List.foldlM_nil]
        rw [Forest.bytes, List.append_assoc, shiftStco_ok d off pre c (g.bytes ++ post) _ rfl (t1 hs), ok_bind, List.append_assoc]
        rfl
      rw [foldlM_append_ok _ _ _ _ _ h0]
      have hp : pre.length + (8 + c.length) = (pre ++ box id (mapTable (moved off d) c)).length := by
        rw [List.length_append, hb, hm]
      rw [hp, ih h3 t2]
      simp only [Forest.mapOffsets, Forest.bytes, if_pos hs, List.append_assoc]
    · have h0 : (CAtom.findAll (ascii "stco") (.mk ⟨pre.length, 8 + c.length, false, .fourcc id⟩ [])) = [] := by
        simp only [CAtom.findAll, if_neg hs, findAll]
      rw [h0, List.nil_append]
      have hp : pre.length + (8 + c.length) = (pre ++ box id c).length := by
        rw [List.length_append, hb]
      have e : pre ++ ((Forest.leaf id c g).bytes ++ post) = (pre ++ box id c) ++ (g.bytes ++ post) := by
        simp only [Forest.bytes, List.append_assoc]
      rw [hp, e, ih h3 t2]
      simp only [Forest.mapOffsets, Forest.bytes, if_neg hs, List.append_assoc]
  | node id kids g ihk ih =>
    intro pre post
    obtain ⟨h1, h2, hk3, h3⟩ := hf
    obtain ⟨t1, t2⟩ := ht
    have hb : ∀ x : Bytes, (box id x).length = 8 + x.length := fun x => box_length _ _ h1.1
    have hm := mapOffsets_length (moved off d) kids t1
    rw [ctx, findAll]
    have h0 : (CAtom.findAll (ascii "stco") (.mk ⟨pre.length, 8 + kids.bytes.length, false, .fourcc id⟩ (ctx (pre.length + 8) kids)))
        = findAll (ascii "stco") (ctx (pre.length + 8) kids) := by
      simp only [CAtom.findAll, if_neg (container_ne_stco h2)]
    have hq : pre.length + 8 = (pre ++ (beBytes 4 (8 + kids.bytes.length) ++ id)).length := by
      simp only [List.length_append, beBytes_length, h1.1]
    have e0 : pre ++ ((Forest.node id kids g).bytes ++ post) =
        (pre ++ (beBytes 4 (8 + kids.bytes.length) ++ id)) ++ (kids.bytes ++ (g.bytes ++ post)) := by
      simp only [Forest.bytes, box, List.append_assoc]
    have e1 : (pre ++ (beBytes 4 (8 + kids.bytes.length) ++ id)) ++ ((kids.mapOffsets (moved off d)).bytes ++ (g.bytes ++ post)) =
        (pre ++ box id (kids.mapOffsets (moved off d)).bytes) ++ (g.bytes ++ post) := by
      simp only [box, hm, List.append_assoc]
    have hk := ihk hk3 t1 (pre ++ (beBytes 4 (8 + kids.bytes.length) ++ id)) (g.bytes ++ post)
    rw [h0, hq, e0, foldlM_append_ok _ _ _ _ _ hk, e1]
    have hp : pre.length + (8 + kids.bytes.length) = (pre ++ box id (kids.mapOffsets (moved off d)).bytes).length := by
      rw [List.length_append, hb, hm]
    rw [hp, ih h3 t2]
    simp only [Forest.mapOffsets, Forest.bytes, List.append_assoc]

theorem mapEntries_same {s : Nat → Nat} (h : ∀ o, o < 2 ^ 32 → s o = o) (n : Nat) (b : Bytes) (hb : 4 * n ≤ b.length) :
    mapEntries s n b = b := by
  induction n generalizing b with
  | zero => rfl
  | succ n ih =>
    have hl : (b.take 4).length = 4 := by simp; omega
    have hlt := fromBE_lt (b.take 4)
    rw [hl] at hlt
    rw [mapEntries, h _ (by omega), beBytes_four hl, ih _ (by simp; omega), List.take_append_drop]

theorem mapOffsets_same {s : Nat → Nat} (h : ∀ o, o < 2 ^ 32 → s o = o) (f : Forest) (ht : f.Tables) : f.mapOffsets s = f := by
  induction f with
  | nil => rfl
  | leaf id c rest ih =>
    obtain ⟨h1, h2⟩ := ht
    rw [Forest.mapOffsets, ih h2]
    by_cases hs : id = ascii "stco"
    · rw [if_pos hs, mapTable, mapEntries_same h _ _ (by have := h1 hs; simp; omega), List.take_append_drop]
    · rw [if_neg hs]
  | node id kids rest ih1 ih2 => rw [Forest.mapOffsets, ih1 ht.1, ih2 ht.2]

theorem moved_zero (off o : Nat) (h : o < 2 ^ 32) : moved off 0 o = o := by
  unfold moved
  split
  · rfl
  · omega

/-! ## Sizes -/

theorem setSize_mid (a z : Bytes) (old size : Nat) (ext : Bool) (h : size < 2 ^ 32) :
    setSize (a ++ (beBytes 4 old ++ z)) a.length size ext = a ++ (beBytes 4 size ++ z) := by
  unfold setSize
  rw [Ilst.size_fin a z _ size rfl h (beBytes 4 old) (by simp)]

theorem splice_mid (a x y z : Bytes) : splice (a ++ (x ++ z)) a.length (a.length + x.length) y = .ok (a ++ (y ++ z)) := by
  unfold splice
  rw [if_pos (by simp), List.take_left' rfl, ← List.length_append, ← List.append_assoc a x z, List.drop_left' rfl,
    List.append_assoc]

theorem freeAtom_ok {n : Nat} (h : 8 ≤ n) : freeAtom n = .ok (padding n) := by
  unfold freeAtom padding box
  rw [if_neg (by omega), List.length_replicate, show 8 + (n - 8) = n by omega, List.append_assoc]

theorem padding_length {n : Nat} (h : 8 ≤ n) : (padding n).length = n := by
  unfold padding
  rw [box_length _ _ rfl, List.length_replicate]
  omega

theorem isFree_frees (p : Nat) (l : List Bytes) : ∀ a ∈ infos p (l.map fun c => (ascii "free", c)), isFree a = true := by
  induction l generalizing p with
  | nil => intro a h; simp [infos] at h
  | cons c l ih =>
    intro a h
    simp only [List.map_cons, infos, List.mem_cons] at h
    rcases h with rfl | h
    · simp [isFree]
    · exact ih _ a h

theorem infos_sum {l : List (Bytes × Bytes)} (h : ∀ x ∈ l, IdOk x.1) (p : Nat) :
    ((infos p l).map Info.len).sum = (boxes l).length := by
  induction l generalizing p with
  | nil => rfl
  | cons x l ih =>
    rw [infos, List.map_cons, List.sum_cons, ih (fun y hy => h y (by simp [hy])), boxes_cons, List.length_append,
      box_length _ _ (h x (by simp)).1]

theorem free_ok : IdOk (ascii "free") := by unfold IdOk; decide
theorem ilst_ok : IdOk (ascii "ilst") := by unfold IdOk; decide
theorem moov_ok : IdOk (ascii "moov") := by unfold IdOk; decide
theorem udta_ok : IdOk (ascii "udta") := by unfold IdOk; decide
theorem meta_ok : IdOk (ascii "meta") := by unfold IdOk; decide

theorem infos_head {p : Nat} {l : List (Bytes × Bytes)} : (infos p l).head?.map Info.start = l.head?.map fun _ => p := by
  cases l <;> rfl

theorem infos_getLast {p : Nat} {l : List (Bytes × Bytes)} :
    (infos p l).getLast?.map Info.ident = l.getLast?.map fun x => .fourcc x.1 := by
  induction l generalizing p with
  | nil => rfl
  | cons x l ih =>
    cases l with
    | nil => rfl
    | cons y l =>
      have := @ih (p + (8 + x.2.length))
      simp only [infos, List.getLast?_cons_cons] at this ⊢
      exact this

theorem takeWhile_append_stop {α : Type} {q : α → Bool} {a b : List α} (ha : ∀ x ∈ a, q x = true)
    (hb : ∀ x, b.head? = some x → q x = false) : (a ++ b).takeWhile q = a := by
  induction a with
  | nil =>
    cases b with
    | nil => rfl
    | cons x b => rw [List.nil_append, List.takeWhile_cons_of_neg (by simp [hb x rfl])]
  | cons x a ih =>
    rw [List.cons_append, List.takeWhile_cons_of_pos (ha x (by simp)), ih (fun y hy => ha y (by simp [hy]))]

end Lofty.Mp4Write
