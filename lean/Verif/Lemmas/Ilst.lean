import Verif.Lemmas.Mp4
/-! Helper lemmas about `ilst` tags. -/
namespace Lofty.Ilst
open Lofty.Text Lofty.Mp4
open Lofty.Picture (Pic Mime PicType)

/-! ## Writing -/

/-- A writer at the end of its buffer. -/
def fin (b : Bytes) : Wr := ⟨b, b.length⟩

theorem put_fin (b x : Bytes) : (fin b).put x = fin (b ++ x) := by
  simp [fin, Wr.put, writeAt_end]

theorem writeAt_mid (a x y z : Bytes) (h : x.length = y.length) :
    writeAt (a ++ (x ++ z)) a.length y = a ++ (y ++ z) := by
  rw [writeAt_eq (by simp)]
  rw [List.take_left' rfl, ← h, ← List.length_append, ← List.append_assoc a x z, List.drop_left' rfl,
    List.append_assoc]

/-- Filling in a size field. -/
theorem size_fin (a z : Bytes) (p n : Nat) (hp : p = a.length) (hn : n < 2 ^ 32) (x : Bytes) (hx : x.length = 4) (st : Nat)
    (ext : Bool) :
    Wr.size ⟨a ++ (x ++ z), p⟩ st n ext = ⟨a ++ (beBytes 4 n ++ z), a.length + 8⟩ := by
  unfold Wr.size
  subst hp
  rw [if_pos hn]
  simp only [Wr.put, Wr.seek]
  rw [writeAt_mid a x _ z (by simp [hx])]
  simp

theorem ascii_data : (ascii "data").length = 4 ∧ (ascii "data").all validByte = true := by decide

theorem writeData_fin (b : Bytes) (code : Nat) (d : Bytes) (hc : code < 2 ^ 24) (hd : 16 + d.length < 2 ^ 32) :
    writeData code d (fin b) = .ok (fin (b ++ dataBox (code, d))) := by
  have hdata := ascii_data.1
  unfold writeData
  rw [if_neg (by omega), put_fin]
  simp only
  have e : (Wr.seek (fin (b ++ ([0, 0, 0, 0] ++ ascii "data"))) ((fin (b ++ ([0, 0, 0, 0] ++ ascii "data"))).pos - 8))
      = ⟨b ++ ([0, 0, 0, 0] ++ ascii "data"), b.length⟩ := by
    simp [Wr.seek, fin, hdata]
  rw [e, size_fin b (ascii "data") _ _ rfl hd _ rfl]
  have e2 : (⟨b ++ (beBytes 4 (16 + d.length) ++ ascii "data"), b.length + 8⟩ : Wr)
      = fin (b ++ (beBytes 4 (16 + d.length) ++ ascii "data")) := by
    simp [fin, hdata]
  rw [e2, put_fin, put_fin, put_fin, put_fin]
  congr 2
  have e3 : 8 + ([0] ++ (beBytes 3 code ++ ([0, 0, 0, 0] ++ d)) : Bytes).length = 16 + d.length := by
    simp; omega
  unfold dataBox box
  simp only [e3, List.append_assoc]

theorem pictureCode_ok {m : Option Mime} (h : m ∈ [none, some .gif, some .jpeg, some .png, some .bmp]) :
    pictureCode m = .ok (imageCode m) ∧ imageCode m < 2 ^ 24 := by
  simp only [List.mem_cons, List.not_mem_nil, or_false] at h
  rcases h with h | h | h | h | h <;> subst h <;> exact ⟨rfl, by decide⟩

theorem leBytes_take (k j n : Nat) (h : j ≤ k) : (leBytes k n).take j = leBytes j n := by
  induction j generalizing k n with
  | zero => simp [leBytes]
  | succ j ih =>
    cases k with
    | zero => omega
    | succ k => simp [leBytes, ih k (n / 256) (by omega)]

theorem beBytes_drop (k j n : Nat) (h : j ≤ k) : (beBytes k n).drop (k - j) = beBytes j n := by
  unfold beBytes
  rw [List.drop_reverse, leBytes_length]
  rw [show k - (k - j) = j by omega, leBytes_take k j n h]

theorem uint_stored (n : UInt32) :
    (beBytes 4 n.toNat).drop (4 - uintWidth n)
      = beBytes (if n.toNat < 256 then 1 else if n.toNat < 65536 then 2 else 4) n.toNat := by
  have e : uintWidth n = if n.toNat < 256 then 1 else if n.toNat < 65536 then 2 else 4 := by
    unfold uintWidth
    by_cases h0 : n.toNat = 0
    · simp [h0]
    · rw [if_neg h0]
  have h4 : uintWidth n ≤ 4 := by unfold uintWidth; split <;> (try split) <;> (try split) <;> omega
  rw [← e]
  exact beBytes_drop 4 _ _ h4

theorem writeValue_fin (b : Bytes) (d : Data) (h : Writable d) (hl : 16 + (stored d).2.length < 2 ^ 32) :
    writeValue d (fin b) = .ok (fin (b ++ dataBox (stored d))) := by
  cases d with
  | utf8 s => exact writeData_fin b _ _ (by decide) hl
  | utf16 s => exact writeData_fin b _ _ (by decide) hl
  | picture p =>
    obtain ⟨h1, h2⟩ := pictureCode_ok h
    show (do let code ← pictureCode p.mime; writeData code p.data (fin b)) = _
    rw [h1, ok_bind]
    exact writeData_fin b _ _ h2 hl
  | signed i => exact writeData_fin b _ _ (by decide) hl
  | unsigned n =>
    show writeData 22 ((beBytes 4 n.toNat).drop (4 - uintWidth n)) (fin b) = _
    rw [uint_stored]
    exact writeData_fin b _ _ (by decide) hl
  | bool v => exact writeData_fin b _ _ (by decide) hl
  | unknown c d => exact writeData_fin b _ _ h hl

/-- The values of an atom. -/
def values (l : List Data) : Bytes := l.flatMap fun d => dataBox (stored d)

theorem dataBox_length (v : Nat × Bytes) : (dataBox v).length = 16 + v.2.length := by
  unfold dataBox
  rw [box_length _ _ ascii_data.1]
  simp; omega

theorem values_cons (d : Data) (l : List Data) : values (d :: l) = dataBox (stored d) ++ values l := by
  simp [values]

theorem writeValues_fin (l : List Data) (b : Bytes) (h : ∀ d ∈ l, Writable d)
    (hl : (values l).length < 2 ^ 32) :
    writeValues l (fin b) = .ok (fin (b ++ values l)) := by
  induction l generalizing b with
  | nil => simp [writeValues, values]
  | cons d l ih =>
    rw [values_cons, List.length_append, dataBox_length] at hl
    rw [writeValues, writeValue_fin b d (h d (by simp)) (by omega), ok_bind,
      ih _ (fun x hx => h x (by simp [hx])) (by omega), values_cons, List.append_assoc]

theorem writeIdent_fin (i : Ident) (b : Bytes) :
    writeIdent i (fin b) = fin (b ++ (Ident.header i ++ Ident.names i)) := by
  cases i with
  | fourcc x => simp [writeIdent, put_fin, Ident.header, Ident.names]
  | freeform m n =>
    have e1 : 8 + ([0, 0, 0, 0] ++ utf8 m : Bytes).length = 12 + (utf8 m).length := by simp; omega
    have e2 : 8 + ([0, 0, 0, 0] ++ utf8 n : Bytes).length = 12 + (utf8 n).length := by simp; omega
    unfold writeIdent writeFreeform Ident.header Ident.names
    simp only [put_fin]
    unfold box
    simp only [e1, e2, List.append_assoc]

theorem writeAtom_fin (a : Atom) (b : Bytes) (h : ∀ d ∈ a.data.toList, Writable d)
    (hi : (Ident.header a.ident).length = 4) (hl : (atomBox a).length < 2 ^ 32) :
    writeAtom a (fin b) = .ok (fin (b ++ atomBox a)) := by
  have hlen : (atomBox a).length = 8 + (Ident.names a.ident ++ values a.data.toList).length :=
    box_length _ _ hi
  have hv : (values a.data.toList).length < 2 ^ 32 := by
    rw [hlen, List.length_append] at hl; omega
  unfold writeAtom
  simp only
  rw [put_fin, writeIdent_fin, writeValues_fin _ _ h hv, ok_bind]
  have e1 : (fin (b ++ [0, 0, 0, 0] ++ (Ident.header a.ident ++ Ident.names a.ident) ++ values a.data.toList)).pos
      - (fin b).pos = (atomBox a).length := by
    rw [hlen]
    simp [fin, hi]; omega
  rw [e1]
  have e2 : Wr.seek (fin (b ++ [0, 0, 0, 0] ++ (Ident.header a.ident ++ Ident.names a.ident) ++ values a.data.toList)) (fin b).pos
      = ⟨b ++ ([0, 0, 0, 0] ++ (Ident.header a.ident ++ (Ident.names a.ident ++ values a.data.toList))), b.length⟩ := by
    simp [fin, Wr.seek]
  rw [e2, size_fin b _ _ _ rfl hl _ rfl]
  have e3 : b ++ (beBytes 4 (atomBox a).length ++ (Ident.header a.ident ++ (Ident.names a.ident ++ values a.data.toList)))
      = b ++ atomBox a := by
    rw [hlen]
    rfl
  rw [e3]
  simp only [Wr.seek, fin]
  congr 2
  simp [hlen, hi]; omega

theorem atomBox_length (a : Atom) (hi : (Ident.header a.ident).length = 4) :
    (atomBox a).length = 8 + (Ident.names a.ident ++ values a.data.toList).length := box_length _ _ hi

theorem writeAtoms_fin (t : Tag) (b : Bytes) (h : ∀ a ∈ t, (∀ d ∈ a.data.toList, Writable d) ∧ (Ident.header a.ident).length = 4)
    (hl : (t.flatMap atomBox).length < 2 ^ 32) :
    writeAtoms t (fin b) = .ok (fin (b ++ t.flatMap atomBox)) := by
  induction t generalizing b with
  | nil => simp [writeAtoms]
  | cons a t ih =>
    rw [List.flatMap_cons, List.length_append] at hl
    obtain ⟨h1, h2⟩ := h a (by simp)
    rw [writeAtoms, writeAtom_fin a b h1 h2 (by omega), ok_bind,
      ih _ (fun x hx => h x (by simp [hx])) (by omega), List.flatMap_cons, List.append_assoc]

/-! ## Reading -/

theorem interpret_stored {d : Data} (h : PlainOk d) : interpret (stored d).1 (stored d).2 = .ok d := by
  cases d with
  | utf8 s =>
    show (do let x ← utf8Decode (utf8 s); Except.ok (Data.utf8 x)) = _
    have hd : utf8Decode (utf8 s) = .ok s := by
      unfold utf8Decode
      rw [fromUtf8_utf8]
      simp only
      rw [trimEndNulls_eq s h.2]
    rw [hd, ok_bind]
  | signed i =>
    show (do let x ← parseInt (beBytes 4 i.toUInt32.toNat); Except.ok (Data.signed x)) = _
    have hp : parseInt (beBytes 4 i.toUInt32.toNat) = .ok i := by
      unfold parseInt
      simp only [beBytes_length]
      rw [if_neg (by decide), if_neg (by decide), if_neg (by decide), if_pos trivial,
        fromBE_beBytes_of_lt (by have := i.toUInt32.toNat_lt; omega)]
      simp
    rw [hp, ok_bind]
  | unsigned n =>
    show (do let x ← parseUint (stored (.unsigned n)).2; Except.ok (Data.unsigned x)) = _
    have hp : parseUint (stored (.unsigned n)).2 = .ok n := by
      have hn := n.toNat_lt
      have key : ∀ k, 1 ≤ k → k ≤ 4 → n.toNat < 256 ^ k → parseUint (beBytes k n.toNat) = .ok n := by
        intro k h1 h4 hk
        unfold parseUint
        rw [beBytes_length, if_pos ⟨h1, h4⟩, fromBE_beBytes_of_lt hk]
        simp
      show parseUint (beBytes (if n.toNat < 256 then 1 else if n.toNat < 65536 then 2 else 4) n.toNat) = .ok n
      by_cases c1 : n.toNat < 256
      · rw [if_pos c1]; exact key 1 (by omega) (by omega) (by omega)
      · rw [if_neg c1]
        by_cases c2 : n.toNat < 65536
        · rw [if_pos c2]; exact key 2 (by omega) (by omega) (by omega)
        · rw [if_neg c2]; exact key 4 (by omega) (by omega) (by omega)
    rw [hp, ok_bind]
  | unknown c d =>
    obtain ⟨_, h2, _⟩ := h
    simp only [List.mem_cons, List.not_mem_nil, or_false, not_or] at h2
    show interpret c d = _
    unfold interpret
    rw [if_neg h2.1, if_neg h2.2.1, if_neg h2.2.2.1, if_neg h2.2.2.2]
  | utf16 s => exact h.elim
  | picture p => exact h.elim
  | bool b => exact h.elim

theorem interpretAll_stored {l : List Data} (h : ∀ d ∈ l, PlainOk d) :
    interpretAll (l.map stored) = .ok l := by
  induction l with
  | nil => rfl
  | cons d l ih =>
    show (do let x ← interpret (stored d).1 (stored d).2; let ds ← interpretAll (l.map stored); .ok (x :: ds)) = _
    rw [interpret_stored (h d (by simp)), ok_bind, ih fun x hx => h x (by simp [hx]), ok_bind]

theorem coverData_stored {l : List Data} (h : ∀ d ∈ l, CoverOk d) : coverData (l.map stored) = some l := by
  induction l with
  | nil => rfl
  | cons d l ih =>
    have ih' := ih fun x hx => h x (by simp [hx])
    have hd := h d (by simp)
    cases d with
    | picture p =>
      obtain ⟨ty, mime, desc, data⟩ := p
      obtain ⟨h1, h2, _, h4⟩ := hd
      simp only at h1 h2 h4
      subst h1 h2
      have hm : pictureMime (imageCode mime) = some mime := by
        simp only [List.mem_cons, List.not_mem_nil, or_false] at h4
        rcases h4 with h | h | h | h | h <;> subst h <;> rfl
      simp only [List.map_cons, stored, coverData, hm, ih', Option.map_some]
    | utf8 s => exact hd.elim
    | signed i => exact hd.elim
    | unsigned n => exact hd.elim
    | unknown c d => exact hd.elim
    | utf16 s => exact hd.elim
    | bool b => exact hd.elim

/-- A `data` atom read by the loop. -/
theorem dataLoop_boxes (mode : Mode) (vs : List (Nat × Bytes)) : ∀ (fuel toRead pos : Nat) (acc : List (Nat × Bytes))
    (r : Rd) (rest : Bytes), vs.length < fuel → At r (vs.flatMap dataBox ++ rest) →
    toRead = pos + (vs.flatMap dataBox).length → (∀ v ∈ vs, v.1 < 2 ^ 24 ∧ v.2 ≠ []) →
    (vs.flatMap dataBox).length < 2 ^ 32 →
    dataLoop mode toRead fuel pos acc r = .ok (acc ++ vs, r.skip (vs.flatMap dataBox).length) := by
  induction vs with
  | nil =>
    intro fuel toRead pos acc r rest hf _ ht _ _
    cases fuel with
    | zero => omega
    | succ k =>
      rw [dataLoop, if_pos (by simp at ht; omega)]
      simp
  | cons v vs ih =>
    intro fuel toRead pos acc r rest hf hr ht hv hl
    obtain ⟨code, c⟩ := v
    obtain ⟨hc, hne⟩ := hv (code, c) (by simp)
    simp only at hc hne
    have hcl : 0 < c.length := List.length_pos_iff.mpr hne
    cases fuel with
    | zero => omega
    | succ k =>
      have hbl := dataBox_length (code, c)
      simp only at hbl
      have hvb : (((code, c) :: vs).flatMap dataBox).length = (16 + c.length) + (vs.flatMap dataBox).length := by
        rw [List.flatMap_cons, List.length_append, hbl]
      rw [hvb] at ht hl
      rw [dataLoop, if_neg (by omega)]
      have e3 : 8 + ([0] ++ (beBytes 3 code ++ ([0, 0, 0, 0] ++ c)) : Bytes).length = 16 + c.length := by
        simp; omega
      have h1 : At r (beBytes 4 (16 + c.length) ++ (ascii "data" ++ ([0] ++ (beBytes 3 code ++ ([0, 0, 0, 0] ++ (c ++ (vs.flatMap dataBox ++ rest))))))) := by
        have := hr
        rw [List.flatMap_cons, dataBox, box, e3] at this
        simpa only [List.append_assoc] using this
      have hrem : r.rem = 16 + c.length + ((vs.flatMap dataBox) ++ rest).length := by
        have := h1.2.1
        rw [this]
        simp only [List.length_append, beBytes_length, ascii_data.1, List.length_cons, List.length_nil]
        omega
      have hnext : r.next mode = .ok (some ⟨r.pos, 16 + c.length, false, .fourcc (ascii "data")⟩, r.skip 8) := by
        unfold Rd.next
        rw [if_neg (by omega), if_neg (by omega)]
        exact readInfo_box h1 (by omega) (by omega) ascii_data.1 ascii_data.2 (by omega) (by decide)
      rw [hnext, ok_bind]
      simp only
      rw [if_neg (by omega), if_neg (by simp)]
      have h2 : At (r.skip 8) ([0] ++ (beBytes 3 code ++ ([0, 0, 0, 0] ++ (c ++ (vs.flatMap dataBox ++ rest))))) := by
        have := (h1.skip (beBytes_length _ _)).skip ascii_data.1
        rwa [skip_skip] at this
      have h3 := h2.skip (n := 1) rfl
      have hti : typeIndicator (r.skip 8) mode = .ok (some code, r.skip 12) := by
        unfold typeIndicator
        rw [h2.raw (n := 1) rfl, ok_bind]
        simp only
        rw [if_neg (by simp), h3.raw (beBytes_length 3 code), ok_bind]
        simp only [skip_skip]
        rw [fromBE_beBytes_of_lt (by omega)]
      rw [hti, ok_bind]
      simp only
      have h4 : At (r.skip 16) (c ++ (vs.flatMap dataBox ++ rest)) := by
        have := (h3.skip (beBytes_length 3 code)).skip (n := 4) (a := [0, 0, 0, 0]) rfl
        simpa only [skip_skip] using this
      have hdc : dataContent ((r.skip 12).skip 4) code (16 + c.length) acc = .ok (acc ++ [(code, c)], r.skip (16 + c.length)) := by
        unfold dataContent
        rw [if_pos (by omega), skip_skip, h4.take (n := 16 + c.length - 16) (by omega), ok_bind]
        simp only [skip_skip]
        rw [show 12 + 4 + (16 + c.length - 16) = 16 + c.length by omega]
      rw [hdc, ok_bind]
      simp only
      have h5 : At (r.skip (16 + c.length)) (vs.flatMap dataBox ++ rest) := by
        have := h4.skip rfl
        rwa [skip_skip] at this
      rw [ih k toRead (pos + (16 + c.length)) (acc ++ [(code, c)]) _ rest (by simp at hf; omega) h5
        (by omega) (fun v hv' => hv v (by simp [hv'])) (by omega)]
      rw [skip_skip, hvb]
      simp

theorem parseDataInner_boxes {mode : Mode} {vs : List (Nat × Bytes)} {r : Rd} {rest : Bytes} {a : Info}
    (hr : At r (vs.flatMap dataBox ++ rest)) (ha : a.start + a.len = r.pos + (vs.flatMap dataBox).length)
    (hv : ∀ v ∈ vs, v.1 < 2 ^ 24 ∧ v.2 ≠ []) (hl : (vs.flatMap dataBox).length < 2 ^ 32) :
    parseDataInner r mode a = .ok (vs, r.skip (vs.flatMap dataBox).length) := by
  have hlen : vs.length ≤ (vs.flatMap dataBox).length := by
    clear hr ha hv hl
    induction vs with
    | nil => simp
    | cons v vs ih =>
      rw [List.flatMap_cons, List.length_append, dataBox_length, List.length_cons]; omega
  have h3 := hr.2.2
  rw [List.length_append] at h3
  unfold parseDataInner
  rw [if_neg (by omega)]
  rw [dataLoop_boxes mode vs _ _ _ _ r rest (by omega) hr (by omega) hv hl]
  simp

end Lofty.Ilst
