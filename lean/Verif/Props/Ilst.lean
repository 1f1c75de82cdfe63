import Verif.Lemmas.Ilst
/-!
# C36: what is written to an `ilst` is read back

`Spec/Ilst.lean` says what an atom looks like (`box`: size, identifier, content) and which
atoms an `ilst` can hold (`AtomOk`).
-/
namespace Lofty.Ilst
open Lofty.Text Lofty.Mp4
open Lofty.Picture (Pic Mime PicType)

/-! ## The layout -/

/-- **C36.** A tag is written as one atom `ilst` holding one atom for every item in order,
each holding one `data` atom per value; every size field (they are all filled in after the
fact) is the number of bytes of its atom. -/
theorem build_layout (t : Tag) (hne : t ≠ [])
    (h : ∀ a ∈ t, (∀ d ∈ a.data.toList, Writable d) ∧ (Ident.header a.ident).length = 4)
    (hl : (t.flatMap atomBox).length + 8 < 2 ^ 32) :
    build t = .ok (box (ascii "ilst") (t.flatMap atomBox)) := by
  unfold build
  split
  · exact absurd rfl hne
  · have h0 : (⟨[0, 0, 0, 0] ++ ascii "ilst", 8⟩ : Wr) = fin ([0, 0, 0, 0] ++ ascii "ilst") := rfl
    rw [h0, writeAtoms_fin _ _ h (by omega), ok_bind]
    have hlen : (fin ([0, 0, 0, 0] ++ ascii "ilst" ++ t.flatMap atomBox)).buf.length
        = 8 + (t.flatMap atomBox).length := by
      have : (ascii "ilst").length = 4 := by decide
      simp [fin, this]; omega
    rw [hlen]
    have e : Wr.seek (fin ([0, 0, 0, 0] ++ ascii "ilst" ++ t.flatMap atomBox)) 0
        = ⟨[] ++ ([0, 0, 0, 0] ++ (ascii "ilst" ++ t.flatMap atomBox)), 0⟩ := by
      simp [Wr.seek, fin]
    rw [e, size_fin [] (ascii "ilst" ++ t.flatMap atomBox) 0 _ rfl (by omega) [0, 0, 0, 0] rfl]
    rfl

theorem build_nil : build [] = .ok [] := rfl

theorem writeData_error {c : Nat} {d : Bytes} {w : Wr} {e : Err} (h : writeData c d w = .error e) :
    e = .encode ∧ 2 ^ 24 ≤ c := by
  unfold writeData at h
  split at h
  · rename_i hc
    exact ⟨by injection h with h; exact h.symm, by omega⟩
  · cases h

theorem writeValue_error {d : Data} {w : Wr} {e : Err} (h : writeValue d w = .error e) :
    e = .encode ∧ ¬ Writable d := by
  cases d with
  | utf8 s => exact absurd (writeData_error h).2 (by decide)
  | utf16 s => exact absurd (writeData_error h).2 (by decide)
  | signed i => exact absurd (writeData_error h).2 (by decide)
  | unsigned n => exact absurd (writeData_error h).2 (by decide)
  | bool b => exact absurd (writeData_error h).2 (by decide)
  | unknown c d =>
    obtain ⟨h1, h2⟩ := writeData_error h
    exact ⟨h1, fun hw => absurd hw (Nat.not_lt.mpr h2)⟩
  | picture p =>
    have h' : (do let code ← pictureCode p.mime; writeData code p.data w) = .error e := h
    by_cases hw : p.mime ∈ [none, some Mime.gif, some Mime.jpeg, some Mime.png, some Mime.bmp]
    · obtain ⟨h1, h2⟩ := pictureCode_ok hw
      rw [h1, ok_bind] at h'
      exact absurd (writeData_error h').2 (by omega)
    · refine ⟨?_, hw⟩
      revert h' hw
      rcases p with ⟨ty, mime, desc, data⟩
      rcases mime with _ | m
      · intro _ hw; exact absurd (by simp) hw
      · cases m <;> intro h' hw
        · exact absurd (by simp) hw
        · exact absurd (by simp) hw
        · injection h' with h'; exact h'.symm
        · exact absurd (by simp) hw
        · exact absurd (by simp) hw
        · injection h' with h'; exact h'.symm

theorem writeValue_ok {d : Data} {w w' : Wr} (h : writeValue d w = .ok w') : Writable d := by
  cases d with
  | utf8 s => trivial
  | utf16 s => trivial
  | signed i => trivial
  | unsigned n => trivial
  | bool b => trivial
  | unknown c d =>
    show c < 2 ^ 24
    have h' : writeData c d w = .ok w' := h
    unfold writeData at h'
    split at h'
    · cases h'
    · omega
  | picture p =>
    show p.mime ∈ _
    have h' : (do let code ← pictureCode p.mime; writeData code p.data w) = .ok w' := h
    rcases p with ⟨ty, mime, desc, data⟩
    rcases mime with _ | m
    · simp
    · cases m <;> first | (simp; done) | cases h'

theorem writeValues_iff (l : List Data) (w : Wr) :
    ((∃ w', writeValues l w = .ok w') ↔ ∀ d ∈ l, Writable d) ∧
      ∀ e, writeValues l w = .error e → e = .encode := by
  induction l generalizing w with
  | nil => simp [writeValues]
  | cons d l ih =>
    rw [writeValues]
    cases hd : writeValue d w with
    | error e =>
      obtain ⟨h1, h2⟩ := writeValue_error hd
      refine ⟨⟨?_, fun h => absurd (h d (by simp)) h2⟩, ?_⟩
      · rintro ⟨w', h⟩; cases h
      · intro e' h; cases h; exact h1
    | ok w1 =>
      simp only [ok_bind]
      have hw := writeValue_ok hd
      refine ⟨?_, (ih w1).2⟩
      rw [(ih w1).1]
      simp [hw]

theorem writeAtoms_iff (t : Tag) (w : Wr) :
    ((∃ w', writeAtoms t w = .ok w') ↔ ∀ a ∈ t, ∀ d ∈ a.data.toList, Writable d) ∧
      ∀ e, writeAtoms t w = .error e → e = .encode := by
  induction t generalizing w with
  | nil => simp [writeAtoms]
  | cons a t ih =>
    rw [writeAtoms]
    have hv := writeValues_iff a.data.toList (writeIdent a.ident (w.put [0, 0, 0, 0]))
    cases hw : writeValues a.data.toList (writeIdent a.ident (w.put [0, 0, 0, 0])) with
    | error e =>
      have h1 : writeAtom a w = .error e := by
        unfold writeAtom
        simp only [hw]
        rfl
      have hno : ¬ ∀ d ∈ a.data.toList, Writable d := by
        rw [← hv.1]
        rintro ⟨w', h⟩
        rw [hw] at h
        cases h
      rw [h1]
      refine ⟨⟨?_, fun h => absurd (h a (by simp)) hno⟩, ?_⟩
      · rintro ⟨w', h⟩; cases h
      · intro e' h; cases h; exact hv.2 e hw
    | ok w1 =>
      obtain ⟨w2, h1⟩ : ∃ w2, writeAtom a w = .ok w2 := by
        unfold writeAtom
        simp only [hw, ok_bind]
        exact ⟨_, rfl⟩
      have hyes : ∀ d ∈ a.data.toList, Writable d := hv.1.mp ⟨w1, hw⟩
      rw [h1]
      simp only [ok_bind]
      refine ⟨?_, (ih w2).2⟩
      rw [(ih w2).1]
      constructor
      · intro h x hx
        rcases List.mem_cons.mp hx with e | hx
        · rw [e]; exact hyes
        · exact h x hx
      · intro h x hx; exact h x (by simp [hx])

/-- **C36.** Writing fails exactly when a picture has a format MP4 does not know or a type
number needs more than 24 bits. -/
theorem build_fails_iff (t : Tag) :
    build t = .error .encode ↔ ∃ a ∈ t, ∃ d ∈ a.data.toList, ¬ Writable d := by
  cases t with
  | nil => simp [build]
  | cons a t =>
    have hi := writeAtoms_iff (a :: t) ⟨[0, 0, 0, 0] ++ ascii "ilst", 8⟩
    have hb : build (a :: t) = (do
      let w ← writeAtoms (a :: t) ⟨[0, 0, 0, 0] ++ ascii "ilst", 8⟩
      .ok ((w.seek 0).size 0 w.buf.length false).buf) := rfl
    rw [hb]
    cases hw : writeAtoms (a :: t) ⟨[0, 0, 0, 0] ++ ascii "ilst", 8⟩ with
    | error e =>
      have he := hi.2 e hw
      subst he
      refine ⟨fun _ => ?_, fun _ => rfl⟩
      apply Classical.byContradiction
      intro hno
      have : ¬ ∀ x ∈ a :: t, ∀ d ∈ x.data.toList, Writable d := by
        rw [← hi.1]
        rintro ⟨w', h⟩
        rw [hw] at h
        cases h
      exact this fun x hx d hd => Classical.byContradiction fun hn => hno ⟨x, hx, d, hd, hn⟩
    | ok w =>
      have := hi.1.mp ⟨w, hw⟩
      refine ⟨(fun h => by cases h), ?_⟩
      rintro ⟨x, hx, d, hd, hn⟩
      exact absurd (this x hx d hd) hn

/-! ## The round trip -/

theorem ofList_toList {a : Atom} (h : ShapeOk a) : Storage.ofList a.data.toList = some a.data := by
  unfold ShapeOk at h
  rcases hd : a.data with d | l
  · rfl
  · rw [hd] at h
    obtain ⟨h, _⟩ := h
    match l, h with
    | x :: y :: l, _ => rfl

theorem flag_iff (id : Bytes) :
    id ∈ flagAtoms ↔ ∃ f ∈ ["cpil", "hdvd", "pcst", "pgap", "shwm"], Ident.fourcc id = .fourcc (ascii f) := by
  simp [flagAtoms]

theorem valueOk_stored {o : Opts} {i : Ident} {d : Data} (h : ValueOk o i d) :
    (stored d).1 < 2 ^ 24 ∧ (stored d).2 ≠ [] := by
  have raw : RawOk d → (stored d).1 < 2 ^ 24 ∧ (stored d).2 ≠ [] := by
    intro h
    cases d <;> first | exact h | exact h.elim
  have plain : PlainOk d → (stored d).1 < 2 ^ 24 ∧ (stored d).2 ≠ [] := by
    intro h
    cases d with
    | utf8 s => exact ⟨by simp [stored], fun e => h.1 (utf8_eq_nil e)⟩
    | signed i => exact ⟨by simp [stored], by simp [stored, ← List.length_eq_zero_iff]⟩
    | unsigned n =>
      refine ⟨by simp [stored], ?_⟩
      show beBytes _ _ ≠ []
      rw [← List.length_pos_iff, beBytes_length]
      split
      · omega
      · split <;> omega
    | unknown c b => exact ⟨h.1, h.2.2⟩
    | utf16 s => exact h.elim
    | picture p => exact h.elim
    | bool b => exact h.elim
  unfold ValueOk at h
  split at h
  · obtain ⟨_, h⟩ := h
    cases d with
    | picture p =>
      obtain ⟨_, _, h1, h2⟩ := h
      exact ⟨(pictureCode_ok h2).2, h1⟩
    | _ => exact h.elim
  · split at h
    · exact raw h.2
    · split at h
      · exact raw h.1
      · split at h
        · obtain ⟨b, h⟩ := h
          subst h
          exact ⟨by simp [stored], by simp [stored]⟩
        · exact plain h

theorem valueOk_writable {o : Opts} {i : Ident} {d : Data} (h : ValueOk o i d) : Writable d := by
  cases d with
  | unknown c b => exact (valueOk_stored h).1
  | picture p =>
    unfold ValueOk at h
    split at h
    · exact h.2.2.2.2
    · split at h
      · exact h.2.elim
      · split at h
        · exact h.1.elim
        · split at h
          · obtain ⟨b, h⟩ := h; cases h
          · exact h.elim
  | _ => trivial

theorem map_stored (l : List Data) : (l.map stored).flatMap dataBox = values l := by
  simp [values, List.flatMap_map]

/-- The body of the loop on an admissible atom. -/
theorem ilstStep_ok {o : Opts} {a : Atom} (h : AtomOk o a) {r : Rd} {rest : Bytes} {i : Info}
    (hi : i.ident = a.ident) (hr : At r (values a.data.toList ++ rest))
    (hp : i.start + i.len = r.pos + (values a.data.toList).length)
    (hl : (values a.data.toList).length < 2 ^ 32) (t : Tag) (g : List Data) :
    ilstStep o r i t g = .ok (t ++ [a], g, r.skip (values a.data.toList).length) := by
  obtain ⟨hid, hsh, hv⟩ := h
  have hof := ofList_toList hsh
  have hst : ∀ v ∈ a.data.toList.map stored, v.1 < 2 ^ 24 ∧ v.2 ≠ [] := by
    intro v hv'
    obtain ⟨d, hd, rfl⟩ := List.mem_map.mp hv'
    exact valueOk_stored (hv d hd)
  have hpd : ∀ mode, parseDataInner r mode i = .ok (a.data.toList.map stored, r.skip (values a.data.toList).length) := by
    intro mode
    rw [← map_stored] at hr hp hl ⊢
    exact parseDataInner_boxes hr hp hst hl
  have hplain : (∀ d ∈ a.data.toList, PlainOk d) →
      parseData r o.mode t i = .ok (t ++ [a], r.skip (values a.data.toList).length) := by
    intro hp
    unfold parseData
    rw [hpd, ok_bind]
    simp only
    rw [interpretAll_stored hp]
    simp only [hof, hi]
  unfold ilstStep
  rw [hi]
  rcases ha : a.ident with id | ⟨m, n⟩
  · rw [ha] at hid hv
    obtain ⟨_, _, _, hfree, hskip⟩ := hid
    simp only
    rw [if_neg (by simp [hfree, hskip])]
    by_cases hc : id = ascii "covr"
    · rw [if_pos hc]
      subst hc
      have hv' : ∀ d ∈ a.data.toList, o.coverArt = true ∧ CoverOk d := by
        intro d hd
        have := hv d hd
        rwa [ValueOk, if_pos rfl] at this
      have hca : o.coverArt = true := by
        cases hdl : a.data.toList with
        | nil => rw [hdl] at hof; cases hof
        | cons d l => exact (hv' d (by rw [hdl]; simp)).1
      rw [if_pos hca]
      unfold handleCovr
      rw [hpd, ok_bind]
      simp only
      rw [coverData_stored fun d hd => (hv' d hd).2]
      simp only [hof, ok_bind]
      rw [show covr = a.ident from ha.symm]
    · rw [if_neg hc]
      have hc' : Ident.fourcc id ≠ .fourcc (ascii "covr") := fun e => hc (by injection e)
      by_cases hg : id = ascii "gnre"
      · rw [if_pos hg]
        subst hg
        have hv' : ∀ d ∈ a.data.toList, o.implicit = false ∧ RawOk d := by
          intro d hd
          have := hv d hd
          rwa [ValueOk, if_neg hc', if_pos rfl] at this
        have him : o.implicit = false := by
          cases hdl : a.data.toList with
          | nil => rw [hdl] at hof; cases hof
          | cons d l => exact (hv' d (by rw [hdl]; simp)).1
        rw [hpd, ok_bind]
        simp only [him, Bool.false_eq_true, if_false]
        have hm : (a.data.toList.map stored).map (fun d => Data.unknown d.1 d.2) = a.data.toList := by
          rw [List.map_map]
          conv => rhs; rw [← List.map_id a.data.toList]
          apply List.map_congr_left
          intro d hd
          have := (hv' d hd).2
          cases d <;> first | rfl | exact this.elim
        rw [hm, addAtom, hof, ← ha]
      · rw [if_neg hg]
        have hg' : Ident.fourcc id ≠ .fourcc (ascii "gnre") := fun e => hg (by injection e)
        by_cases hpl : id = ascii "plID"
        · rw [if_pos hpl]
          subst hpl
          have hv' : ∀ d ∈ a.data.toList, RawOk d ∧ ∃ c b, d = .unknown c b ∧ b.length = 8 := by
            intro d hd
            have := hv d hd
            rwa [ValueOk, if_neg hc', if_neg hg', if_pos rfl] at this
          rw [hpd, ok_bind]
          simp only
          have hf : (a.data.toList.map stored).filter (fun d => decide (d.2.length = 8)) = a.data.toList.map stored := by
            rw [List.filter_eq_self]
            intro v hv2
            obtain ⟨d, hd, rfl⟩ := List.mem_map.mp hv2
            obtain ⟨c, b, rfl, hb⟩ := (hv' d hd).2
            exact decide_eq_true hb
          have hm : (a.data.toList.map stored).map (fun d => Data.unknown d.1 d.2) = a.data.toList := by
            rw [List.map_map]
            conv => rhs; rw [← List.map_id a.data.toList]
            apply List.map_congr_left
            intro d hd
            have := (hv' d hd).1
            cases d <;> first | rfl | exact this.elim
          rw [hf, hm, addAtom, hof, ← ha]
        · rw [if_neg hpl]
          have hp' : Ident.fourcc id ≠ .fourcc (ascii "plID") := fun e => hpl (by injection e)
          by_cases hfl : id ∈ flagAtoms
          · rw [if_pos hfl]
            have hfl' := (flag_iff id).mp hfl
            have hv' : ∀ d ∈ a.data.toList, ∃ b, d = .bool b := by
              intro d hd
              have := hv d hd
              rwa [ValueOk, if_neg hc', if_neg hg', if_neg hp', if_pos hfl'] at this
            rw [hpd, ok_bind]
            simp only
            unfold ShapeOk at hsh
            rcases hd : a.data with d | l
            · obtain ⟨b, hb⟩ := hv' d (by rw [hd]; simp [Storage.toList])
              subst hb
              simp only [Storage.toList, List.map_cons, List.map_nil, stored]
              have ea : a = ⟨.fourcc id, .single (.bool b)⟩ := by
                rcases a with ⟨ai, ad⟩
                simp only at ha hd
                rw [ha, hd]
              rw [ea]
              cases b <;> rfl
            · rw [hd] at hsh
              exact absurd (ha ▸ hfl') hsh.2
          · rw [if_neg hfl]
            have hfl' : ¬ ∃ f ∈ ["cpil", "hdvd", "pcst", "pgap", "shwm"], Ident.fourcc id = .fourcc (ascii f) :=
              fun h => hfl ((flag_iff id).mpr h)
            rw [hplain, ok_bind]
            intro d hd
            have := hv d hd
            rwa [ValueOk, if_neg hc', if_neg hg', if_neg hp', if_neg hfl'] at this
  · simp only
    rw [hplain, ok_bind]
    rw [ha] at hv
    intro d hd
    have := hv d hd
    rwa [ValueOk, if_neg (by simp), if_neg (by simp), if_neg (by simp), if_neg (by simp)] at this

theorem header_ok {i : Ident} (h : IdentOk i) : (Ident.header i).length = 4 := by
  cases i with
  | fourcc b => exact h.1
  | freeform m n => exact ascii_free.1

/-- The next atom of the reader. -/
theorem next_atom {o : Opts} {a : Atom} (h : AtomOk o a) {r : Rd} {rest : Bytes}
    (hr : At r (atomBox a ++ rest)) (hl : (atomBox a).length < 2 ^ 32) :
    r.next o.mode = .ok (some ⟨r.pos, (atomBox a).length, false, a.ident⟩, r.skip (8 + (Ident.names a.ident).length)) := by
  have hid := h.1
  have h4 := header_ok hid
  have hlen := atomBox_length a h4
  have hrem := hr.2.1
  rw [List.length_append] at hrem
  unfold Rd.next
  rw [if_neg (by omega), if_neg (by omega)]
  have hr' : At r (beBytes 4 (atomBox a).length ++ (Ident.header a.ident ++ (Ident.names a.ident ++ (values a.data.toList ++ rest)))) := by
    rw [hlen]
    have := hr
    rw [atomBox, box] at this
    simp only [List.append_assoc] at this
    exact this
  rcases ha : a.ident with id | ⟨m, n⟩
  · rw [ha] at hid hr'
    rw [readInfo_box hr' (by omega) hl hid.1 hid.2.1 (by omega) hid.2.2.1]
    rfl
  · rw [ha] at hid hr' hlen
    rw [List.length_append] at hlen
    exact readInfo_freeform hr' (by omega) hl (by omega) hid.1 hid.2

theorem ilstLoop_ok {o : Opts} (t : Tag) (h : ∀ a ∈ t, AtomOk o a) : ∀ (fuel : Nat) (r : Rd) (acc : Tag) (g : List Data),
    t.length < fuel → At r (t.flatMap atomBox) → (t.flatMap atomBox).length < 2 ^ 32 →
    ilstLoop o fuel r acc g = .ok (acc ++ t, g) := by
  induction t with
  | nil =>
    intro fuel r acc g hf hr _
    cases fuel with
    | zero => omega
    | succ k =>
      have : r.rem = 0 := hr.2.1
      rw [ilstLoop]
      unfold Rd.next
      rw [if_pos this]
      simp
  | cons a t ih =>
    intro fuel r acc g hf hr hl
    rw [List.flatMap_cons] at hr hl
    rw [List.length_append] at hl
    cases fuel with
    | zero => omega
    | succ k =>
      have ha := h a (by simp)
      have h4 := header_ok ha.1
      have hlen := atomBox_length a h4
      rw [List.length_append] at hlen
      rw [ilstLoop, next_atom ha hr (by omega)]
      simp only
      have hr2 : At (r.skip (8 + (Ident.names a.ident).length)) (values a.data.toList ++ t.flatMap atomBox) := by
        have : atomBox a ++ t.flatMap atomBox = (beBytes 4 (8 + (Ident.names a.ident ++ values a.data.toList).length) ++ (Ident.header a.ident ++ Ident.names a.ident)) ++ (values a.data.toList ++ t.flatMap atomBox) := by
          rw [atomBox, box]
          simp only [List.append_assoc]
          rfl
        rw [this] at hr
        exact hr.skip (by simp [h4]; omega)
      rw [ilstStep_ok ha rfl hr2 (by simp only [skip_pos]; omega) (by omega), ok_bind]
      simp only [skip_skip]
      have hr3 : At (r.skip (8 + (Ident.names a.ident).length + (values a.data.toList).length)) (t.flatMap atomBox) :=
        hr.skip (by omega)
      rw [ih (fun x hx => h x (by simp [hx])) k _ _ _ (by simp at hf; omega) hr3 (by omega)]
      simp

/-- **C36.** An `ilst` atom holding the admissible atoms `t` is read as exactly `t`: the same
identifiers, the same values, the same order, in every parsing mode. -/
theorem parse_layout_partial {o : Opts} (t : Tag) (h : ∀ a ∈ t, AtomOk o a)
    (hl : (t.flatMap atomBox).length < 2 ^ 32) : parse o (t.flatMap atomBox) = .ok t := by
  have hlen : t.length ≤ (t.flatMap atomBox).length := by
    clear hl
    induction t with
    | nil => simp
    | cons a t ih =>
      have := ih fun x hx => h x (by simp [hx])
      rw [List.flatMap_cons, List.length_append, atomBox_length a (header_ok (h a (by simp)).1), List.length_cons]
      omega
  unfold parse
  rw [ilstLoop_ok t h _ _ _ _ (by omega) (at_new _) hl, ok_bind]
  simp

/-- **C36, the round trip.** Every tag of admissible atoms is written as one `ilst` atom,
and reading the content of that atom gives the tag back.  Partial: the atoms outside
`AtomOk` (see the witnesses below) are written, but something else is read. -/
theorem parse_build_partial {o : Opts} (t : Tag) (hne : t ≠ []) (h : ∀ a ∈ t, AtomOk o a)
    (hl : (t.flatMap atomBox).length + 8 < 2 ^ 32) :
    ∃ content, build t = .ok (box (ascii "ilst") content) ∧ parse o content = .ok t :=
  ⟨t.flatMap atomBox,
    build_layout t hne (fun a ha => ⟨fun d hd => valueOk_writable ((h a ha).2.2 d hd), header_ok (h a ha).1⟩) hl,
    parse_layout_partial t h (by omega)⟩

/-! ## A concrete tag -/

/-- A title with two values, a freeform atom, a track number, a flag, a tempo and a cover. -/
def exTag : Tag :=
  [⟨four 0xA9 "nam", .multiple [.utf8 (str "Tïtle"), .utf8 (str "B")]⟩,
   ⟨.freeform (str "com.apple.iTunes") (str "LABEL"), .single (.utf8 (str "x"))⟩,
   ⟨trkn, .single (.unknown 0 [0, 0, 0, 3, 0, 12, 0, 0])⟩,
   ⟨.fourcc (ascii "cpil"), .single (.bool true)⟩,
   ⟨.fourcc (ascii "tmpo"), .single (.signed (-5))⟩,
   ⟨covr, .single (.picture ⟨.other, some .png, none, [1, 2, 3]⟩)⟩]

theorem exTag_ok (m : Mode) (i : Bool) : ∀ a ∈ exTag, AtomOk ⟨m, true, i⟩ a := by
  intro a ha
  simp only [exTag, List.mem_cons, List.not_mem_nil, or_false] at ha
  rcases ha with rfl | rfl | rfl | rfl | rfl | rfl
  · refine ⟨by simp [IdentOk, four]; decide, by simp [ShapeOk, four]; decide, ?_⟩
    intro d hd
    rw [ValueOk, if_neg (by decide), if_neg (by decide), if_neg (by decide), if_neg (by decide)]
    simp only [Storage.toList, List.mem_cons, List.not_mem_nil, or_false] at hd
    rcases hd with rfl | rfl <;> exact ⟨by decide, by unfold TextOk; decide⟩
  · refine ⟨⟨by unfold TextOk; decide, by unfold TextOk; decide⟩, trivial, ?_⟩
    intro d hd
    rw [ValueOk, if_neg (by decide), if_neg (by decide), if_neg (by decide), if_neg (by decide)]
    simp only [Storage.toList, List.mem_cons, List.not_mem_nil, or_false] at hd
    subst hd; exact ⟨by decide, by unfold TextOk; decide⟩
  · refine ⟨by simp [IdentOk, trkn]; decide, trivial, ?_⟩
    intro d hd
    rw [ValueOk, if_neg (by decide), if_neg (by decide), if_neg (by decide), if_neg (by decide)]
    simp only [Storage.toList, List.mem_cons, List.not_mem_nil, or_false] at hd
    subst hd; exact ⟨by decide, by decide, by decide⟩
  · refine ⟨by simp [IdentOk]; decide, trivial, ?_⟩
    intro d hd
    rw [ValueOk, if_neg (by decide), if_neg (by decide), if_neg (by decide), if_pos (by decide)]
    simp only [Storage.toList, List.mem_cons, List.not_mem_nil, or_false] at hd
    exact ⟨_, hd⟩
  · refine ⟨by simp [IdentOk]; decide, trivial, ?_⟩
    intro d hd
    rw [ValueOk, if_neg (by decide), if_neg (by decide), if_neg (by decide), if_neg (by decide)]
    simp only [Storage.toList, List.mem_cons, List.not_mem_nil, or_false] at hd
    subst hd; trivial
  · refine ⟨by simp [IdentOk, covr]; decide, trivial, ?_⟩
    intro d hd
    rw [ValueOk, if_pos (by decide)]
    simp only [Storage.toList, List.mem_cons, List.not_mem_nil, or_false] at hd
    subst hd
    exact ⟨rfl, rfl, rfl, by decide, by decide⟩

theorem exTag_length : (exTag.flatMap atomBox).length < 1000 := by decide +kernel

/-- The hypotheses of `parse_build_partial` and `parse_layout_partial` hold of a tag with every kind of
value. -/
example (m : Mode) : ∃ content, build exTag = .ok (box (ascii "ilst") content) ∧ parse ⟨m, true, true⟩ content = .ok exTag :=
  parse_build_partial exTag (by decide) (exTag_ok m true) (Nat.lt_trans (Nat.add_lt_add_right exTag_length 8) (by decide))

/-- The hypotheses of `build_layout`. -/
example : build exTag = .ok (box (ascii "ilst") (exTag.flatMap atomBox)) :=
  build_layout exTag (by decide)
    (fun a ha => ⟨fun d hd => valueOk_writable ((exTag_ok .strict true a ha).2.2 d hd), header_ok (exTag_ok .strict true a ha).1⟩)
    (Nat.lt_trans (Nat.add_lt_add_right exTag_length 8) (by decide))

/-- `build_fails_iff`: a TIFF cover. -/
example : build [⟨covr, .single (.picture ⟨.other, some .tiff, none, [1]⟩)⟩] = .error .encode := by decide

/-! ## What is not read back

Each of these is outside `AtomOk`. -/

/-- A value declared as UTF-16 is written as UTF-8 under the type number of UTF-16: `"ab"`
is read back as the single character U+6162. -/
theorem utf16_garbled :
    build [⟨four 0xA9 "nam", .single (.utf16 (str "ab"))⟩] =
      .ok (box (ascii "ilst") (box (0xA9 :: ascii "nam") (dataBox (2, [0x61, 0x62])))) ∧
    parse ⟨.strict, true, true⟩ (box (0xA9 :: ascii "nam") (dataBox (2, [0x61, 0x62]))) =
      .ok [⟨four 0xA9 "nam", .single (.utf16 [Char.ofNat 0x6162])⟩] := by
  constructor <;> decide +kernel

/-- An atom whose only value is an empty text is written, but not read back. -/
theorem empty_text_lost :
    build [⟨four 0xA9 "nam", .single (.utf8 [])⟩] =
      .ok (box (ascii "ilst") (box (0xA9 :: ascii "nam") (dataBox (1, [])))) ∧
    parse ⟨.strict, true, true⟩ (box (0xA9 :: ascii "nam") (dataBox (1, []))) = .ok [] := by
  constructor <;> decide +kernel

/-- A flag under a name other than the five known flags is read back as a number. -/
theorem other_flag_number :
    build [⟨.fourcc (ascii "xyzw"), .single (.bool true)⟩] =
      .ok (box (ascii "ilst") (box (ascii "xyzw") (dataBox (21, [1])))) ∧
    parse ⟨.strict, true, true⟩ (box (ascii "xyzw") (dataBox (21, [1]))) =
      .ok [⟨.fourcc (ascii "xyzw"), .single (.signed 1)⟩] := by
  constructor <;> decide +kernel

/-- A playlist identifier that is not 8 bytes long is written, but not read back. -/
theorem short_playlist_lost :
    build [⟨.fourcc (ascii "plID"), .single (.unknown 21 [1, 2])⟩] =
      .ok (box (ascii "ilst") (box (ascii "plID") (dataBox (21, [1, 2])))) ∧
    parse ⟨.strict, true, true⟩ (box (ascii "plID") (dataBox (21, [1, 2]))) = .ok [] := by
  constructor <;> decide +kernel

/-- A signed integer of one byte is read as unsigned: 0xFF is 255, while 0xFFFF is -1. -/
theorem signed_byte_unsigned : parseInt [0xFF] = .ok 255 ∧ parseInt [0xFF, 0xFF] = .ok (-1) := by
  constructor <;> decide

/-- A `data` atom with an unknown type set makes the reader run past the end of its parent:
the atom that follows (here `©ART`) is swallowed and lost. -/
theorem type_set_swallows :
    parse ⟨.bestAttempt, true, true⟩
      (box (0xA9 :: ascii "nam") (box (ascii "data") [1, 0, 0, 1, 0, 0, 0, 0, 0x61]) ++
        box (0xA9 :: ascii "ART") (dataBox (21, [7]))) = .ok [] ∧
    parse ⟨.bestAttempt, true, true⟩ (box (0xA9 :: ascii "ART") (dataBox (21, [7]))) =
      .ok [⟨four 0xA9 "ART", .single (.signed 7)⟩] := by
  constructor <;> decide +kernel

/-- An atom with a 64-bit length smaller than its own header makes the reader panic, in
every mode. -/
theorem extended_panics (m : Mode) (b c : Bool) :
    parse ⟨m, b, c⟩ ([0, 0, 0, 1, 0xA9] ++ ascii "nam" ++ beBytes 8 8) = .error .panic := by
  cases m <;> cases b <;> cases c <;> decide +kernel

end Lofty.Ilst
