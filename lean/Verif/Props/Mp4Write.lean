import Verif.Lemmas.Mp4WriteFile
import Verif.Props.Ilst
/-!
# Writing tags to MP4 files (C37, C38)
-/
namespace Lofty.Mp4Write
open Lofty.Mp4 Lofty.Ilst

/-- A tag with items is not written as nothing. -/
theorem build_cons_ne (a : Atom) (t : Tag) : build (a :: t) ≠ .ok [] := by
  intro h
  have hb : build (a :: t) = (do
      let w ← writeAtoms (a :: t) ⟨[0, 0, 0, 0] ++ ascii "ilst", 8⟩
      .ok ((w.seek 0).size 0 w.buf.length false).buf) := rfl
  rw [hb] at h
  obtain ⟨w, _, h⟩ := bind_ok h
  injection h with h
  have h := congrArg List.length h
  unfold Wr.size at h
  split at h
  · simp [Wr.put, Wr.seek, writeAt] at h
  · simp [Wr.put, Wr.seek, writeAt] at h

/-- What happens to a file according to plan. -/
def afterPlan (x : File) (new : Bytes) (pad : Option Nat) : Plan → Except Err Bytes
  | .nothing => finish ⟨x.before.bytes.length, 8 + (x.moov x.space).bytes.length, false, .fourcc (ascii "moov")⟩
      x.bytes (8 + x.udtaLen x.space) (8 + x.udtaLen x.space)
  | .inPlace start remaining => do
    let fr ← freeAtom remaining
    finish ⟨x.before.bytes.length, 8 + (x.moov x.space).bytes.length, false, .fourcc (ascii "moov")⟩
      (writeAt x.bytes start (new ++ fr)) (8 + x.udtaLen x.space) (8 + x.udtaLen x.space)
  | .range start stop rep => do
    let (f, usize) ← replaceRange (ctx 0 (x.whole (x.moov x.space))) (ctx (x.before.bytes.length + 8) (x.moov x.space))
      ⟨x.before.bytes.length + 8 + x.moov1.bytes.length + 8 + x.udta1.bytes.length, 8 + x.metaLen x.space, false, .fourcc (ascii "meta")⟩
      ⟨x.before.bytes.length + 8 + x.moov1.bytes.length, 8 + x.udtaLen x.space, false, .fourcc (ascii "udta")⟩
      x.bytes start stop rep pad
    finish ⟨x.before.bytes.length, 8 + (x.moov x.space).bytes.length, false, .fourcc (ascii "moov")⟩ f (8 + x.udtaLen x.space) usize

/-- The steps of writing to a file with an `ilst`. -/
theorem write_steps (x : File) (hx : x.Ok) (t : Tag) (mode : Mode) (pad : Option Nat) (new : Bytes) (hb : build t = .ok new) :
    writeTo x.bytes t mode pad = afterPlan x new pad
      (if new = [] then .range (x.start + (frees x.free1).length) (x.start + x.space1.length) []
        else if x.space.length > new.length + 8 then .inPlace x.start (x.space.length - new.length)
        else .range x.start (x.start + x.space1.length) new) := by
  obtain ⟨y, hy⟩ := verify_ok x hx mode
  obtain ⟨r1, r2, r3, full, rest, h1, h2, h3, h4, h5⟩ := walk x hx mode
  obtain ⟨r', h6⟩ := tree_ok x hx mode h4
  have hp : r3.pos + (boxes x.items1).length = x.start := by rw [h5]; rfl
  unfold writeTo
  rw [hy, ok_bind, atoms_ok x hx mode, ok_bind]
  simp only
  rw [find_moov x hx]
  simp only
  rw [hb, ok_bind]
  unfold writeMoov
  simp only [CAtom.info, CAtom.children, Info.headerSize, Bool.false_eq_true, if_false]
  rw [h1, ok_bind]
  simp only
  rw [h2, ok_bind]
  simp only
  rw [h3, ok_bind]
  simp only
  unfold saveToExisting
  simp only
  rw [h6, ok_bind]
  simp only
  rw [plan_ok x hx new _ hp]
  by_cases hn : new = []
  · simp only [hn, if_true, ok_bind, afterPlan]
  · simp only [if_neg hn]
    by_cases hs : x.space.length > new.length + 8
    · simp only [if_pos hs, ok_bind, afterPlan]
      cases freeAtom (x.space.length - new.length) <;> rfl
    · simp only [if_neg hs, ok_bind, afterPlan]

/-- The padding the library adds. -/
theorem padChanged_ok (x : File) (new : Bytes) (hn : new ≠ []) (pad : Option Nat) (hpad : ∀ k, pad = some k → 8 ≤ k)
    (hs : ¬ x.space.length > new.length + 8) (hlt : x.space1.length < 2 ^ 32) :
    ∃ rep p, padChanged new ((new.length : Int) - x.space1.length) pad = .ok (rep, (x.fit new pad).2, p) ∧
      rep.length = new.length + p ∧ (x.fit new pad).2 = (rep.length : Int) - x.space1.length ∧
      (x.fit new pad).1 = rep ++ frees x.free2 ∧ rep.length ≤ max x.space1.length new.length + pad.getD 0 := by
  unfold padChanged File.fit
  rw [if_neg hs]
  by_cases hd : ((new.length : Int) - x.space1.length) = 0
  · rw [if_neg (by simp [hd]), if_pos (by omega)]
    exact ⟨new, 0, rfl, rfl, rfl, rfl, by omega⟩
  · rw [if_pos ⟨hn, hd⟩]
    unfold padAtom
    by_cases hpos : 0 < (new.length : Int) - x.space1.length
    · rw [if_pos hpos, if_pos (by omega)]
      exact ⟨new, 0, rfl, rfl, rfl, rfl, by omega⟩
    · have ha : ((new.length : Int) - x.space1.length).natAbs = x.space1.length - new.length := by omega
      have hg : ¬ new.length ≥ x.space1.length := by omega
      rw [if_neg hpos, ha, if_neg hg]
      by_cases h8 : 8 ≤ x.space1.length - new.length
      · have hl := padding_length h8
        rw [if_pos h8, if_pos h8, Nat.mod_eq_of_lt (by omega), freeAtom_ok h8, ok_bind]
        refine ⟨new ++ padding (x.space1.length - new.length), x.space1.length - new.length, rfl, ?_, ?_, ?_, ?_⟩
        · rw [List.length_append, hl]
        · rw [List.length_append, hl]; simp only; omega
        · rfl
        · rw [List.length_append, hl]; omega
      · rw [if_neg h8, if_neg h8]
        cases pad with
        | none => exact ⟨new, 0, rfl, rfl, rfl, rfl, by omega⟩
        | some k =>
          have hk := hpad k rfl
          have hl := padding_length hk
          simp only
          rw [freeAtom_ok hk, ok_bind]
          refine ⟨new ++ padding k, k, ?_, ?_, ?_, ?_, ?_⟩
          · rw [show (new.length : Int) - x.space1.length + k = (new.length : Int) + k - x.space1.length by omega]
          · rw [List.length_append, hl]
          · rw [List.length_append, hl]; omega
          · rfl
          · rw [List.length_append, hl]; simp only [Option.getD_some]; omega

theorem space1_lt (x : File) : x.space1.length ≤ x.space.length ∧ x.space.length + 8 ≤ x.bytes.length := by
  have h1 : x.bytes.length = _ := wholeLen_eq x x.space
  have h2 := moovLen_eq x x.space
  have h3 := udtaLen_eq x x.space
  have h4 := metaLen_eq x x.space
  have h5 : x.space.length = x.space1.length + (frees x.free2).length := by rw [File.space, List.length_append]
  omega

/-- **C37, C38.** Writing a tag to a file that has one changes the `ilst`, the padding around
it, and the chunk offsets, and nothing else.  The new atom takes the place of padding and old
atom as said in `File.fit`; the sizes of `meta`, `udta` and `moov` are right afterwards; and
every entry of every `stco` of every track that points behind the start of the changed part is
changed by exactly as much as the data behind moves.  `_partial`: files without fragments,
64-bit offset tables and 64-bit sizes, and preferred padding of no less than 8 bytes. -/
theorem write_partial (x : File) (hx : x.Ok) (t : Tag) (mode : Mode) (pad : Option Nat) (new : Bytes) (hb : build t = .ok new)
    (hn : new ≠ []) (hpad : ∀ k, pad = some k → 8 ≤ k)
    (hsz : 2 * x.bytes.length + new.length + pad.getD 0 < 2 ^ 32) :
    writeTo x.bytes t mode pad =
      .ok (x.whole ((x.moov (x.fit new pad).1).mapOffsets (moved x.start (x.fit new pad).2))).bytes := by
  have hsp := space1_lt x
  rw [write_steps x hx t mode pad new hb, if_neg hn]
  by_cases hs : x.space.length > new.length + 8
  · have h8 : 8 ≤ x.space.length - new.length := by omega
    have hl := padding_length h8
    have hfit : x.fit new pad = (new ++ padding (x.space.length - new.length), 0) := by
      unfold File.fit
      rw [if_pos hs]
    rw [if_pos hs, afterPlan, freeAtom_ok h8, ok_bind, hfit]
    simp only
    have hz := fun o h => moved_zero x.start o h
    rw [mapOffsets_same hz _ (moov_tables x hx _)]
    generalize hR : new ++ padding (x.space.length - new.length) = R
    have hRl : R.length = x.space.length := by
      rw [← hR, List.length_append, hl]
      omega
    have hm : x.metaLen R = x.metaLen x.space := by rw [metaLen_eq, metaLen_eq, hRl]
    have hu : x.udtaLen R = x.udtaLen x.space := by rw [udtaLen_eq, udtaLen_eq, hm]
    have hv : (x.moov R).bytes.length = (x.moov x.space).bytes.length := by rw [moovLen_eq, moovLen_eq, hu]
    have hflat : (x.whole (x.moov R)).bytes =
        flat x.before.bytes (8 + (x.moov x.space).bytes.length) x.moov1.bytes (8 + x.udtaLen x.space)
        x.udta1.bytes (8 + x.metaLen x.space) (x.version ++ boxes x.items1) R
        (boxes x.items2) x.udta2.bytes x.moov2.bytes x.after.bytes := by
      have h := whole_flat' x hx id R
      have hid : ∀ o, o < 2 ^ 32 → id o = o := fun _ _ => rfl
      rw [mapOffsets_same hid _ (moov_tables x hx _), mapOffsets_same hid _ hx.moov1.2.1, mapOffsets_same hid _ hx.moov2.2.1,
        mapOffsets_same hid _ hx.udta1.2.1, mapOffsets_same hid _ hx.udta2.2.1, hm, hu, hv] at h
      exact h
    have hw : writeAt x.bytes x.start R = (x.whole (x.moov R)).bytes := by
      rw [hflat, bytes_flat x hx]
      have h := writeAt_mid (x.before.bytes ++ (beBytes 4 (8 + (x.moov x.space).bytes.length) ++ (ascii "moov" ++ (x.moov1.bytes ++
        (beBytes 4 (8 + x.udtaLen x.space) ++ (ascii "udta" ++ (x.udta1.bytes ++ (beBytes 4 (8 + x.metaLen x.space) ++ (ascii "meta" ++
          (x.version ++ boxes x.items1)))))))))) x.space R (boxes x.items2 ++ (x.udta2.bytes ++ (x.moov2.bytes ++ x.after.bytes))) hRl.symm
      have hlen : (x.before.bytes ++ (beBytes 4 (8 + (x.moov x.space).bytes.length) ++ (ascii "moov" ++ (x.moov1.bytes ++
        (beBytes 4 (8 + x.udtaLen x.space) ++ (ascii "udta" ++ (x.udta1.bytes ++ (beBytes 4 (8 + x.metaLen x.space) ++ (ascii "meta" ++
          (x.version ++ boxes x.items1)))))))))).length = x.start := by
        simp only [File.start, List.length_append, beBytes_length, show (ascii "moov").length = 4 from rfl,
          show (ascii "udta").length = 4 from rfl, show (ascii "meta").length = 4 from rfl]
        omega
      rw [hlen] at h
      simp only [List.append_assoc] at h
      simp only [flat, List.append_assoc]
      exact h
    rw [hw]
    have hv1 := moovLen_eq x x.space
    have hwl : x.bytes.length = _ := wholeLen_eq x x.space
    unfold finish
    simp only
    rw [if_neg (by omega), hflat, setSize_moov _ _ _ _ _ _ _ _ _ _ _ _ _ _ (by omega)]
    rw [show 8 + (x.moov x.space).bytes.length - (8 + x.udtaLen x.space) + (8 + x.udtaLen x.space) = 8 + (x.moov x.space).bytes.length by omega]
  · rw [if_neg hs, afterPlan]
    obtain ⟨rep, p, h1, h2, h3, h4, h5⟩ := padChanged_ok x new hn pad hpad hs (by omega)
    have h := replace_ok x hx [] x.space1 (frees x.free2) new rep (x.fit new pad).2 p pad rfl h1 h2 h3 (by omega)
    rw [h4]
    simp only [List.length_nil, Nat.add_zero, List.nil_append] at h
    exact h

/-- **C37.** Writing an empty tag takes the `ilst` out and leaves padding and everything else
in place; the offsets behind it follow. -/
theorem remove_partial (x : File) (hx : x.Ok) (mode : Mode) (pad : Option Nat) :
    writeTo x.bytes [] mode pad =
      .ok (x.whole ((x.moov (frees x.free1 ++ frees x.free2)).mapOffsets
        (moved (x.start + (frees x.free1).length) (-(8 + x.ilst.length : Nat))))).bytes := by
  have hsp := space1_lt x
  have hl := hx.size
  have hb8 : (box (ascii "ilst") x.ilst).length = 8 + x.ilst.length := box_length _ _ rfl
  have hs1 : x.space1.length = (frees x.free1).length + (8 + x.ilst.length) := by
    rw [File.space1, List.length_append, box_length _ _ rfl]
  rw [write_steps x hx [] mode pad [] build_nil, if_pos rfl, afterPlan]
  have h := replace_ok x hx (frees x.free1) (box (ascii "ilst") x.ilst) (frees x.free2) [] [] (-(8 + x.ilst.length : Nat)) 0 pad
    (by rw [File.space, File.space1, List.append_assoc])
    (by rw [padChanged, if_neg (by simp), hb8]; simp) rfl (by rw [hb8]; simp) (by simp; omega)
  rw [hb8, Nat.add_assoc x.start, ← hs1, List.nil_append] at h
  exact h

/-- **C37.** A tag that fits into padding and old atom is written in place: the file keeps its
length, and every byte outside of padding and old `ilst` keeps its place and value. -/
theorem in_place (x : File) (hx : x.Ok) (t : Tag) (mode : Mode) (pad : Option Nat) (new : Bytes) (hb : build t = .ok new)
    (hn : new ≠ []) (hfits : new.length + 8 < x.space.length) :
    ∃ f, writeTo x.bytes t mode pad = .ok f ∧ f.length = x.bytes.length ∧
      (∀ i, i < x.start ∨ x.start + x.space.length ≤ i → f[i]? = x.bytes[i]?) ∧
      (f.drop x.start).take x.space.length = new ++ padding (x.space.length - new.length) := by
  have h8 : 8 ≤ x.space.length - new.length := by omega
  have hsz := hx.size
  have hpl := padding_length h8
  have hRl : (new ++ padding (x.space.length - new.length)).length = x.space.length := by
    rw [List.length_append, hpl]; omega
  have hst : x.start + x.space.length ≤ x.bytes.length := by
    have h1 : x.bytes.length = _ := wholeLen_eq x x.space
    have h2 := moovLen_eq x x.space
    have h3 := udtaLen_eq x x.space
    have h4 := metaLen_eq x x.space
    simp only [List.length_append] at h4
    have h5 : x.start = x.before.bytes.length + 8 + x.moov1.bytes.length + 8 + x.udta1.bytes.length + 8 + x.version.length + (boxes x.items1).length := rfl
    omega
  refine ⟨writeAt x.bytes x.start (new ++ padding (x.space.length - new.length)), ?_, ?_, ?_, ?_⟩
  · rw [write_steps x hx t mode pad new hb, if_neg hn, if_pos hfits, afterPlan, freeAtom_ok h8, ok_bind]
    unfold finish
    simp only
    have hv1 := moovLen_eq x x.space
    have hwl : x.bytes.length = _ := wholeLen_eq x x.space
    rw [if_neg (by omega)]
    rw [show 8 + (x.moov x.space).bytes.length - (8 + x.udtaLen x.space) + (8 + x.udtaLen x.space) = 8 + (x.moov x.space).bytes.length by omega]
    have hB := bytes_flat x hx
    congr 1
    rw [writeAt_eq (by omega)]
    have ht : x.bytes.take x.start = x.before.bytes ++ (beBytes 4 (8 + (x.moov x.space).bytes.length) ++ (x.bytes.take x.start).drop (x.before.bytes.length + 4)) := by
      have e1 : x.bytes = (x.before.bytes ++ beBytes 4 (8 + (x.moov x.space).bytes.length)) ++ x.bytes.drop (x.before.bytes.length + 4) := by
        have hl : (x.before.bytes ++ beBytes 4 (8 + (x.moov x.space).bytes.length)).length = x.before.bytes.length + 4 := by
          rw [List.length_append, beBytes_length]
        have : x.bytes.take (x.before.bytes.length + 4) = x.before.bytes ++ beBytes 4 (8 + (x.moov x.space).bytes.length) := by
          rw [← hl]
          conv => lhs; rw [hB]; arg 2; rw [flat, ← List.append_assoc]
          exact List.take_left' rfl
        rw [← this, List.take_append_drop]
      have h5 : x.before.bytes.length + 4 ≤ x.start := by unfold File.start; omega
      have hl : (x.before.bytes ++ beBytes 4 (8 + (x.moov x.space).bytes.length)).length = x.before.bytes.length + 4 := by
        rw [List.length_append, beBytes_length]
      have e2 : x.bytes.take x.start = (x.before.bytes ++ beBytes 4 (8 + (x.moov x.space).bytes.length)) ++
          (x.bytes.drop (x.before.bytes.length + 4)).take (x.start - (x.before.bytes.length + 4)) := by
        conv => lhs; rw [e1]
        rw [List.take_append, List.take_of_length_le (by omega), hl]
      have e3 : (x.bytes.take x.start).drop (x.before.bytes.length + 4) =
          (x.bytes.drop (x.before.bytes.length + 4)).take (x.start - (x.before.bytes.length + 4)) := by
        rw [List.drop_take]
      rw [e3, ← List.append_assoc]
      exact e2
    rw [ht]
    simp only [List.append_assoc]
    exact setSize_mid _ _ _ _ _ (by omega)
  · rw [writeAt_length (by rw [hRl]; exact hst)]
  · intro i hi
    rw [getElem?_writeAt (by omega), hRl]
    rcases hi with hi | hi
    · rw [if_pos hi]
    · rw [if_neg (by omega), if_neg (by omega)]
  · rw [writeAt_eq (by omega), List.append_assoc]
    have : (x.bytes.take x.start).length = x.start := by simp; omega
    rw [List.drop_left' this, List.take_left' hRl]

/-- **C38.** Audio data moves with its offset: what lies before `moov` is where it was and the
offsets to it are kept, what lies behind `moov` moves by `d` and the offsets to it with it. -/
theorem data_follows (x : File) (hx : x.Ok) (region : Bytes) (start : Nat) (d : Int)
    (hd : d = (region.length : Int) - x.space.length) (h1 : x.before.bytes.length ≤ start)
    (h2 : start ≤ x.before.bytes.length + 8 + (x.moov x.space).bytes.length)
    (hsz : x.bytes.length + region.length < 2 ^ 32) (o n : Nat)
    (ho : o + n ≤ x.before.bytes.length ∧ 0 < n ∨ x.before.bytes.length + 8 + (x.moov x.space).bytes.length ≤ o ∧ o < x.bytes.length) :
    ((x.whole ((x.moov region).mapOffsets (moved start d))).bytes.drop (moved start d o)).take n = (x.bytes.drop o).take n := by
  have hx1 : x.bytes.length = _ := wholeLen_eq x x.space
  have a1 := moovLen_eq x x.space
  have a2 := udtaLen_eq x x.space
  have a3 := metaLen_eq x x.space
  have b1 := moovLen_eq x region
  have b2 := udtaLen_eq x region
  have b3 := metaLen_eq x region
  have hml : ((x.moov region).mapOffsets (moved start d)).bytes.length = (x.moov region).bytes.length :=
    mapOffsets_length _ _ (moov_tables x hx _)
  rw [whole_bytes, show x.bytes = _ from whole_bytes x (x.moov x.space)]
  rcases ho with ⟨ho, hn⟩ | ⟨ho, hlt⟩
  · have hm : moved start d o = o := by unfold moved; rw [if_pos (by omega)]
    have hf : ∀ b : Bytes, ((x.before.bytes ++ b).drop o).take n = (x.before.bytes.drop o).take n := by
      intro b
      rw [List.drop_append_of_le_length (by omega), List.take_append_of_le_length (by rw [List.length_drop]; omega)]
    rw [hm, List.append_assoc, hf, List.append_assoc, hf]
  · have hm : (moved start d o : Int) = o + d := by
      unfold moved
      rw [if_neg (by omega), Int.emod_eq_of_lt (by omega) (by omega)]
      omega
    have e1 : ∀ k m, (x.before.bytes ++ (beBytes 4 k ++ ascii "moov") ++ (m ++ x.after.bytes) : Bytes) =
        (x.before.bytes ++ (beBytes 4 k ++ (ascii "moov" ++ m))) ++ x.after.bytes := by
      intro k m; simp only [List.append_assoc]
    have e2 : ∀ k m, (x.before.bytes ++ (beBytes 4 k ++ (ascii "moov" ++ m)) : Bytes).length = x.before.bytes.length + 8 + m.length := by
      intro k m
      simp only [List.length_append, beBytes_length, show (ascii "moov").length = 4 from rfl]
      omega
    have hb : ∀ (a : Bytes) (q : Nat), a.length ≤ q → (a ++ x.after.bytes).drop q = x.after.bytes.drop (q - a.length) := by
      intro a q h
      rw [List.drop_append, List.drop_eq_nil_of_le h, List.nil_append]
    rw [e1, e1, hb _ _ (by rw [e2, hml]; omega), hb _ _ (by rw [e2]; omega), e2, e2, hml]
    rw [show moved start d o - (x.before.bytes.length + 8 + (x.moov region).bytes.length) =
      o - (x.before.bytes.length + 8 + (x.moov x.space).bytes.length) by omega]

theorem fit_length (x : File) (new : Bytes) (pad : Option Nat) (hpad : ∀ k, pad = some k → 8 ≤ k) :
    (x.fit new pad).2 = ((x.fit new pad).1.length : Int) - x.space.length := by
  have h5 : x.space.length = x.space1.length + (frees x.free2).length := by rw [File.space, List.length_append]
  unfold File.fit
  by_cases hs : x.space.length > new.length + 8
  · rw [if_pos hs]
    simp only [List.length_append]
    rw [padding_length (by omega)]
    omega
  · rw [if_neg hs]
    by_cases hg : new.length ≥ x.space1.length
    · rw [if_pos hg]
      simp only [List.length_append]
      omega
    · rw [if_neg hg]
      by_cases h8 : x.space1.length - new.length ≥ 8
      · rw [if_pos h8]
        simp only [List.length_append]
        rw [padding_length h8]
        omega
      · rw [if_neg h8]
        cases pad with
        | none => simp only [List.length_append]; omega
        | some k =>
          simp only [List.length_append]
          rw [padding_length (hpad k rfl)]
          omega

theorem fit_le (x : File) (new : Bytes) (pad : Option Nat) (hpad : ∀ k, pad = some k → 8 ≤ k) :
    (x.fit new pad).1.length ≤ x.space.length + new.length + pad.getD 0 := by
  have h5 : x.space.length = x.space1.length + (frees x.free2).length := by rw [File.space, List.length_append]
  unfold File.fit
  by_cases hs : x.space.length > new.length + 8
  · rw [if_pos hs]
    simp only [List.length_append]
    rw [padding_length (by omega)]
    omega
  · rw [if_neg hs]
    by_cases hg : new.length ≥ x.space1.length
    · rw [if_pos hg]
      simp only [List.length_append]
      omega
    · rw [if_neg hg]
      by_cases h8 : x.space1.length - new.length ≥ 8
      · rw [if_pos h8]
        simp only [List.length_append]
        rw [padding_length h8]
        omega
      · rw [if_neg h8]
        cases pad with
        | none => simp only [List.length_append]; omega
        | some k =>
          simp only [List.length_append, Option.getD_some]
          rw [padding_length (hpad k rfl)]
          omega

theorem start_range (x : File) : x.before.bytes.length ≤ x.start ∧
    x.start + x.space.length ≤ x.before.bytes.length + 8 + (x.moov x.space).bytes.length := by
  have h2 := moovLen_eq x x.space
  have h3 := udtaLen_eq x x.space
  have h4 := metaLen_eq x x.space
  simp only [List.length_append] at h4
  have h5 : x.start = x.before.bytes.length + 8 + x.moov1.bytes.length + 8 + x.udta1.bytes.length + 8 + x.version.length + (boxes x.items1).length := rfl
  omega

/-- **C38.** After saving there is one renaming of offsets that was applied to every entry of
every chunk table, and any data outside of `moov` an offset `o` refers to is found at the
renamed offset. -/
theorem offsets_follow_partial (x : File) (hx : x.Ok) (t : Tag) (mode : Mode) (pad : Option Nat) (new : Bytes) (hb : build t = .ok new)
    (hpad : ∀ k, pad = some k → 8 ≤ k) (hsz : 2 * x.bytes.length + new.length + pad.getD 0 < 2 ^ 32) :
    ∃ region s, writeTo x.bytes t mode pad = .ok (x.whole ((x.moov region).mapOffsets s)).bytes ∧
      ∀ o n, (o + n ≤ x.before.bytes.length ∧ 0 < n ∨
          x.before.bytes.length + 8 + (x.moov x.space).bytes.length ≤ o ∧ o < x.bytes.length) →
        ((x.whole ((x.moov region).mapOffsets s)).bytes.drop (s o)).take n = (x.bytes.drop o).take n := by
  have hr := start_range x
  have hsp := space1_lt x
  by_cases hn : new = []
  · have ht : t = [] := by
      cases t with
      | nil => rfl
      | cons a t =>
        exfalso
        subst hn
        exact build_cons_ne a t hb
    subst ht
    have hs : x.space.length = (frees x.free1).length + (8 + x.ilst.length) + (frees x.free2).length := by
      rw [File.space, File.space1, List.length_append, List.length_append, box_length _ _ rfl]
    refine ⟨_, _, remove_partial x hx mode pad, ?_⟩
    intro o n ho
    exact data_follows x hx _ _ _ (by simp only [List.length_append]; omega) (by omega) (by omega)
      (by simp only [List.length_append]; omega) o n ho
  · refine ⟨_, _, write_partial x hx t mode pad new hb hn hpad hsz, ?_⟩
    intro o n ho
    have hl := fit_le x new pad hpad
    exact data_follows x hx _ _ _ (fit_length x new pad hpad) hr.1 (by omega) (by omega) o n ho

/-- What renaming means for a table: version and flags, count, entries. -/
theorem mapTable_table (s : Nat → Nat) (v : Bytes) (hv : v.length = 4) (es : List Nat) (hes : ∀ e ∈ es, e < 2 ^ 32)
    (hc : es.length < 2 ^ 32) (rest : Bytes) :
    mapTable s (v ++ (beBytes 4 es.length ++ (es.flatMap (beBytes 4) ++ rest))) =
      v ++ (beBytes 4 es.length ++ ((es.map s).flatMap (beBytes 4) ++ rest)) := by
  have hcount : tableCount (v ++ (beBytes 4 es.length ++ (es.flatMap (beBytes 4) ++ rest))) = es.length := by
    unfold tableCount
    rw [List.drop_left' hv, List.take_left' (beBytes_length _ _), fromBE_beBytes_of_lt (by omega)]
  have h8 : (v ++ beBytes 4 es.length).length = 8 := by rw [List.length_append, hv, beBytes_length]
  have hmap : ∀ es : List Nat, (∀ e ∈ es, e < 2 ^ 32) →
      mapEntries s es.length (es.flatMap (beBytes 4) ++ rest) = (es.map s).flatMap (beBytes 4) ++ rest := by
    intro es
    induction es with
    | nil => intro _; rfl
    | cons e es ih =>
      intro h
      have he := h e (by simp)
      simp only [List.length_cons, mapEntries, List.flatMap_cons, List.append_assoc, List.map_cons]
      rw [List.take_left' (beBytes_length _ _), List.drop_left' (beBytes_length _ _), fromBE_beBytes_of_lt (by omega),
        ih (fun e' h' => h e' (by simp [h']))]
  unfold mapTable
  rw [hcount, ← List.append_assoc v, List.take_left' h8, List.drop_left' h8, hmap es hes, List.append_assoc]

end Lofty.Mp4Write
