import Verif.Model.Iff
import Verif.Spec.Iff
import Verif.Lemmas.File
import Verif.Lemmas.Vorbis
/-! Helper lemmas for IFF chunks. -/
namespace Lofty.Iff

/-! ### Identifiers -/

theorem validFourccFrom_true (b : Bytes) : validFourccFrom true b = true ↔ ∀ x ∈ b, x = 0x20 := by
  induction b with
  | nil => simp [validFourccFrom]
  | cons x b ih =>
    simp only [validFourccFrom, Bool.true_or, Bool.and_eq_true, ih, List.mem_cons, forall_eq_or_imp]
    constructor
    · rintro ⟨⟨-, h⟩, h'⟩; exact ⟨by simpa using h, h'⟩
    · rintro ⟨rfl, h'⟩; exact ⟨by decide, h'⟩

theorem validFourccFrom_false (b : Bytes) : validFourccFrom false b = true ↔
    (∀ x ∈ b, 0x20 ≤ x ∧ x ≤ 0x7E) ∧ ∃ s t : Bytes, b = s ++ t ∧ 0x20 ∉ s ∧ ∀ x ∈ t, x = 0x20 := by
  induction b with
  | nil => simpa [validFourccFrom] using ⟨[], by simp⟩
  | cons x b ih =>
    by_cases hx : x = 0x20
    · subst hx
      simp only [validFourccFrom, Bool.false_or, beq_self_eq_true, Bool.and_eq_true, validFourccFrom_true]
      constructor
      · rintro ⟨-, h⟩
        refine ⟨?_, [], 0x20 :: b, rfl, by simp, ?_⟩
        · intro x hx
          rcases List.mem_cons.mp hx with rfl | hx
          · decide
          · rw [h x hx]; decide
        · intro x hx
          rcases List.mem_cons.mp hx with rfl | hx
          · rfl
          · exact h x hx
      · rintro ⟨-, s, t, e, hs, ht⟩
        cases s with
        | nil =>
          simp only [List.nil_append] at e
          subst e
          exact ⟨by decide, fun x hx => ht x (by simp [hx])⟩
        | cons y s => simp only [List.cons_append, List.cons.injEq] at e; exact absurd (by simp [e.1]) hs
    · have hb : (x == 0x20) = false := by simpa using hx
      simp only [validFourccFrom, hb, Bool.false_or, Bool.and_eq_true, ih, Bool.not_false, Bool.true_or, and_true,
        decide_eq_true_eq, List.mem_cons, forall_eq_or_imp]
      constructor
      · rintro ⟨h1, h2, s, t, rfl, h3, h4⟩
        exact ⟨⟨h1, h2⟩, x :: s, t, rfl, by simp [h3, Ne.symm hx], h4⟩
      · rintro ⟨⟨h1, h2⟩, s, t, e, h3, h4⟩
        cases s with
        | nil =>
          simp only [List.nil_append] at e
          exact absurd (h4 x (by simp [← e])) hx
        | cons y s =>
          simp only [List.cons_append, List.cons.injEq] at e
          simp only [List.mem_cons, not_or] at h3
          exact ⟨h1, h2, s, t, e.2, h3.2, h4⟩

theorem validFourcc_iff {b : Bytes} (h : b.length = 4) : validFourcc b = true ↔ FourCC b := by
  unfold validFourcc FourCC
  rw [validFourccFrom_false]
  simp [h]

/-! ### Walking over well-formed chunks -/

theorem enc_length (be : Bool) (c : Chunk) :
    (enc be c).length = c.1.length + 4 + c.2.length + c.2.length % 2 := by
  cases be <;> simp [enc] <;> omega

/-- The reader is behind a chunk whose skipping leads to `p` with `r` bytes remaining. -/
def Pend (c : Chunks) (p r : Nat) : Prop :=
  c.skip = .ok { c with pos := p, remaining := r, cs := 0, cr := 0 }

theorem pend_fresh (c : Chunks) (h1 : c.cs = 0) (h2 : c.cr = 0) : Pend c c.pos c.remaining := by
  unfold Pend Chunks.skip
  simp only [h2, Nat.lt_irrefl, gt_iff_lt, if_false]
  unfold Chunks.correctPosition
  rw [if_pos (by simp [h1]), ok_bind]
  cases c; simp_all

/-- Behind the header of a chunk, after reading any part of its content. -/
theorem pend_chunk {be : Bool} {a rest : Bytes} {d : Chunk} {c : Chunks} {R : Nat}
    (hf : c.f = a ++ (enc be d ++ rest)) (hid : d.1.length = 4)
    (hcs : c.cs = d.2.length) (hp : c.pos + c.cr = a.length + 8 + d.2.length)
    (hr : c.remaining = R + c.cr + d.2.length % 2) :
    Pend c (a.length + (enc be d).length) R := by
  unfold Pend Chunks.skip
  have h1 : (if c.cr > 0 then { c with pos := c.pos + c.cr, remaining := c.remaining - c.cr, cr := 0 } else c)
      = { c with pos := a.length + 8 + d.2.length, remaining := R + d.2.length % 2, cr := 0 } := by
    split
    · rw [hp, hr]; congr 1; omega
    · cases c; simp only at *; congr 1 <;> omega
  rw [h1]
  unfold Chunks.correctPosition
  simp only [hcs]
  rw [enc_length, hid]
  by_cases he : d.2.length % 2 = 0
  · rw [if_pos (Or.inl he), ok_bind]
    simp only [he]
    congr 2
    omega
  · have h1' : d.2.length % 2 = 1 := by omega
    rw [if_neg (by omega)]
    have hsplit : c.f = (a ++ (d.1 ++ ((if be then beBytes 4 d.2.length else leBytes 4 d.2.length) ++ d.2)))
        ++ ([0] ++ rest) := by
      rw [hf]; simp [enc, h1']
    have hl : (a ++ (d.1 ++ ((if be then beBytes 4 d.2.length else leBytes 4 d.2.length) ++ d.2))).length
        = a.length + 8 + d.2.length := by
      cases be <;> simp [hid] <;> omega
    rw [← hl, hsplit, readAt_append _ _ _ 1 (by simp), ok_bind, if_neg (by simp), ok_bind, hl, h1', ← hsplit]
    congr 2
    simp only
    omega

theorem header_enc {be strict : Bool} {a rest : Bytes} {d : Chunk} {c : Chunks}
    (hf : c.f = a ++ (enc be d ++ rest)) (hid : FourCC d.1) (hd : d.2.length < 2 ^ 32)
    (hp : c.pos = a.length) (hr : 8 + d.2.length ≤ c.remaining) :
    c.header be strict = .ok (some ⟨d.1, d.2.length, c.total - c.remaining⟩,
      { c with pos := a.length + 8, remaining := c.remaining - 8, cs := d.2.length, cr := d.2.length }) := by
  obtain ⟨id, d⟩ := d
  simp only at *
  unfold Chunks.header
  rw [if_neg (by omega)]
  have hs : c.f = a ++ (id ++ (((if be then beBytes 4 d.length else leBytes 4 d.length))
      ++ (d ++ List.replicate (d.length % 2) 0 ++ rest))) := by
    rw [hf]; simp [enc]
  have hl : (a ++ id).length = a.length + 4 := by simp [hid.1]
  rw [hs, hp, readAt_append _ _ _ 4 hid.1, ok_bind, (validFourcc_iff hid.1).mpr hid]
  simp only [Bool.not_true, Bool.false_eq_true, if_false]
  rw [← List.append_assoc a id, ← hl, readAt_append _ _ _ 4 (by cases be <;> simp), ok_bind]
  have hsz : (if be then fromBE (if be then beBytes 4 d.length else leBytes 4 d.length)
      else fromLE (if be then beBytes 4 d.length else leBytes 4 d.length)) = d.length := by
    cases be
    · exact fromLE_leBytes_of_lt (by simpa using hd)
    · exact fromBE_beBytes_of_lt (by simpa using hd)
  rw [hsz, if_neg (by omega)]

theorem next_pend {be strict : Bool} {a rest : Bytes} {d : Chunk} {c : Chunks} {r : Nat}
    (hpd : Pend c a.length r) (hf : c.f = a ++ (enc be d ++ rest)) (hid : FourCC d.1)
    (hd : d.2.length < 2 ^ 32) (hr : 8 + d.2.length ≤ r) :
    c.next be strict = .ok (some ⟨d.1, d.2.length, c.total - r⟩,
      { c with pos := a.length + 8, remaining := r - 8, cs := d.2.length, cr := d.2.length }) := by
  unfold Chunks.next
  rw [hpd, ok_bind]
  exact header_enc (c := { c with pos := a.length, remaining := r, cs := 0, cr := 0 }) (a := a) (rest := rest) (d := d)
    hf hid hd rfl hr

theorem next_end {be strict : Bool} {c : Chunks} {p r : Nat} (hpd : Pend c p r) (hr : r < 8) :
    c.next be strict = .ok (none, { c with pos := p, remaining := r, cs := 0, cr := 0 }) := by
  unfold Chunks.next
  rw [hpd, ok_bind]
  unfold Chunks.header
  rw [if_pos hr]

theorem readExact_append {c : Chunks} {a x r : Bytes} {n : Nat} (hf : c.f = a ++ (x ++ r)) (hp : c.pos = a.length)
    (hx : x.length = n) (hn : n ≤ c.cr) :
    c.readExact n = .ok (x, { c with pos := c.pos + n, remaining := c.remaining - n, cr := c.cr - n }) := by
  unfold Chunks.readExact
  rw [if_pos hn, hf, hp, readAt_append _ _ _ n hx, ok_bind]

/-- Reading the first bytes of the current chunk. -/
theorem readExact_enc {be : Bool} {a rest : Bytes} {id x y : Bytes} {c : Chunks}
    (hf : c.f = a ++ (enc be (id, x ++ y) ++ rest)) (hid : id.length = 4)
    (hp : c.pos = a.length + 8) (hn : x.length ≤ c.cr) :
    c.readExact x.length
      = .ok (x, { c with pos := c.pos + x.length, remaining := c.remaining - x.length, cr := c.cr - x.length }) := by
  have hs : c.f = (a ++ (id ++ ((if be then beBytes 4 (x ++ y).length else leBytes 4 (x ++ y).length))))
      ++ (x ++ (y ++ (List.replicate ((x ++ y).length % 2) 0 ++ rest))) := by
    rw [hf]; simp [enc]
  exact readExact_append hs (by rw [hp]; cases be <;> simp [hid]) rfl hn

theorem encAll_nil (be : Bool) : encAll be [] = [] := rfl
theorem encAll_cons (be : Bool) (d : Chunk) (ds : List Chunk) : encAll be (d :: ds) = enc be d ++ encAll be ds := rfl
theorem encAll_append (be : Bool) (ds es : List Chunk) : encAll be (ds ++ es) = encAll be ds ++ encAll be es := by
  simp [encAll]

theorem length_le_encAll (be : Bool) (ds : List Chunk) : ds.length ≤ (encAll be ds).length := by
  induction ds with
  | nil => simp
  | cons d ds ih => rw [encAll_cons, List.length_append, List.length_cons, enc_length]; omega

theorem encAll_even (be : Bool) (ds : List Chunk) (h : ∀ d ∈ ds, d.1.length = 4) : (encAll be ds).length % 2 = 0 := by
  induction ds with
  | nil => rfl
  | cons d ds ih =>
    rw [encAll_cons, List.length_append, enc_length]
    have := ih (fun d hd => h d (by simp [hd]))
    have := h d (by simp)
    omega

/-! ### RIFF INFO -/

theorem infoItem_eq {i : Item} (h : i.2 ≠ []) : infoItem i = enc false (infoChunk i) := by
  unfold infoItem enc infoChunk
  rw [if_neg (by simpa using h)]
  simp only [Bool.false_eq_true, if_false, List.length_append, List.length_cons, List.length_nil, Nat.zero_add,
    List.append_assoc]
  split
  · rename_i h'; rw [h']; rfl
  · rename_i h'; rw [show ((utf8 i.2).length + 1) % 2 = 1 by omega]; rfl

theorem flatMap_infoItem (items : List Item) :
    items.flatMap infoItem = encAll false ((items.filter fun i => !i.2.isEmpty).map infoChunk) := by
  induction items with
  | nil => rfl
  | cons i items ih =>
    rw [List.flatMap_cons, ih]
    by_cases h : i.2 = []
    · rw [List.filter_cons_of_neg (by simp [h])]
      simp [infoItem, h]
    · rw [List.filter_cons_of_pos (by simp [h]), List.map_cons, encAll_cons, infoItem_eq h]

theorem utf8_snoc_nul (v : Str) : utf8 v ++ [0] = utf8 (v ++ ['\x00']) := by
  simp [utf8]
  rfl

theorem utf8Decode_nul (v : Str) (h : v.getLast? ≠ some '\x00') : Text.utf8Decode (utf8 v ++ [0]) = .ok v := by
  rw [utf8_snoc_nul, Text.utf8Decode, fromUtf8_utf8]
  simp only [Text.trimEndNulls]
  rw [List.reverse_append, List.reverse_singleton, List.singleton_append, List.dropWhile_cons_of_pos (by simp)]
  exact congrArg Except.ok (Text.trimEndNulls_eq v h)

/-- A valid key and a value that does not end in NUL. -/
def ItemOk (i : Item) : Prop := FourCC (utf8 i.1) ∧ i.2.getLast? ≠ some '\x00' ∧ (utf8 i.2).length < 2 ^ 32 - 1

theorem key_last {k : Str} (h : FourCC (utf8 k)) : k.getLast? ≠ some '\x00' := by
  intro hl
  obtain ⟨k', rfl⟩ : ∃ k', k = k' ++ ['\x00'] := by
    rw [List.getLast?_eq_some_iff] at hl
    exact hl
  rw [← utf8_snoc_nul] at h
  have := (h.2.1 0 (by simp)).1
  exact absurd this (by decide)

theorem parseInfo_items (strict : Bool) (j : Nat) (hj : j < 8) (items : List Item) : ∀ (fuel : Nat) (c : Chunks) (a rest : Bytes)
    (acc : List Item), items.length < fuel → (∀ i ∈ items, ItemOk i) →
    c.f = a ++ (encAll false (items.map infoChunk) ++ rest) →
    Pend c a.length ((encAll false (items.map infoChunk)).length + j) →
    parseInfo strict fuel c acc
      = .ok ({ c with pos := a.length + (encAll false (items.map infoChunk)).length, remaining := j, cs := 0, cr := 0 },
        acc ++ items) := by
  induction items with
  | nil =>
    intro fuel c a rest acc hfu _ hf hp
    obtain ⟨fuel, rfl⟩ : ∃ k, fuel = k + 1 := ⟨fuel - 1, by simp at hfu; omega⟩
    rw [parseInfo, next_end hp (by simpa [encAll] using hj), ok_bind]
    simp [encAll]
  | cons i items ih =>
    intro fuel c a rest acc hfu hok hf hp
    obtain ⟨fuel, rfl⟩ : ∃ k, fuel = k + 1 := ⟨fuel - 1, by simp at hfu; omega⟩
    obtain ⟨h1, h2, h3⟩ := hok i (by simp)
    simp only [List.map_cons, encAll_cons, List.length_append, List.append_assoc] at hf hp ⊢
    have hlen : (infoChunk i).2.length = (utf8 i.2).length + 1 := by simp [infoChunk]
    have hel := enc_length false (infoChunk i)
    have h14 : (infoChunk i).1.length = 4 := h1.1
    rw [parseInfo, next_pend (be := false) hp hf h1 (by omega) (by omega), ok_bind]
    simp only
    rw [show Text.utf8Decode (infoChunk i).1 = .ok i.1 from Vorbis.utf8Decode_utf8 _ (key_last h1), ok_bind,
      show validFourcc (infoChunk i).1 = true from (validFourcc_iff h1.1).mpr h1]
    simp only [Bool.not_true, Bool.false_eq_true, if_false]
    generalize hR : (enc false (infoChunk i)).length + (encAll false (items.map infoChunk)).length + j - 8 = R
    have hre := readExact_enc (be := false) (a := a) (rest := encAll false (items.map infoChunk) ++ rest)
      (id := (infoChunk i).1) (x := (infoChunk i).2) (y := [])
      (c := ⟨c.f, a.length + 8, c.total, R, (infoChunk i).2.length, (infoChunk i).2.length, c.lock⟩)
      (by simpa using hf) h1.1 rfl (Nat.le_refl _)
    rw [hre, ok_bind]
    simp only
    rw [show Text.utf8Decode (infoChunk i).2 = .ok i.2 from utf8Decode_nul _ h2]
    simp only
    have := ih fuel ⟨c.f, a.length + 8 + (infoChunk i).2.length, c.total, R - (infoChunk i).2.length,
      (infoChunk i).2.length, (infoChunk i).2.length - (infoChunk i).2.length, c.lock⟩
      (a ++ enc false (infoChunk i)) rest (acc ++ [(i.1, i.2)])
      (by simp at hfu; omega) (fun i hi => hok i (by simp [hi])) (by simp [hf])
      (by
        rw [List.length_append]
        exact pend_chunk (be := false) (d := infoChunk i) (a := a) hf h1.1 rfl (by simp) (by simp only; omega))
    rw [this]
    simp only [List.length_append, List.append_assoc, List.cons_append, List.nil_append, Nat.add_assoc]

theorem fourcc_list : FourCC (ascii "LIST") := (validFourcc_iff rfl).mp (by decide)

theorem ascii_info_length : (ascii "INFO").length = 4 := rfl

/-- Reading the list type of a list chunk. -/
theorem readType {a rest f : Bytes} {d : Chunk} {t R cs : Nat} {l : Option (Nat × Nat)}
    (hf : f = a ++ (enc false d ++ rest)) (hid : d.1.length = 4) (h4 : 4 ≤ d.2.length) :
    (Chunks.mk f (a.length + 8) t R cs d.2.length l).readExact 4
      = .ok (d.2.take 4, ⟨f, a.length + 12, t, R - 4, cs, d.2.length - 4, l⟩) := by
  have hl : (d.2.take 4).length = 4 := by simp; omega
  have := readExact_enc (be := false) (a := a) (rest := rest) (id := d.1) (x := d.2.take 4) (y := d.2.drop 4)
    (c := ⟨f, a.length + 8, t, R, cs, d.2.length, l⟩) (by simpa using hf) hid rfl (by simp only; omega)
  rw [hl] at this
  exact this

theorem findInfo_plain (strict : Bool) (ds : List Chunk) : ∀ (n : Nat) (c : Chunks) (a rest : Bytes) (r : Nat),
    (∀ d ∈ ds, d.Plain) → c.f = a ++ (encAll false ds ++ rest) → Pend c a.length ((encAll false ds).length + r) →
    ∃ c', findInfo strict (ds.length + n) c = findInfo strict n c' ∧ c'.f = c.f ∧ c'.total = c.total ∧
      Pend c' (a.length + (encAll false ds).length) r := by
  induction ds with
  | nil =>
    intro n c a rest r _ hf hp
    exact ⟨c, by simp, rfl, rfl, by simpa [encAll] using hp⟩
  | cons d ds ih =>
    intro n c a rest r hok hf hp
    obtain ⟨⟨h1, h2⟩, h3⟩ := hok d (by simp)
    have h14 := h1.1
    have hel := enc_length false d
    simp only [encAll_cons, List.length_append, List.append_assoc, Nat.add_assoc] at hf hp ⊢
    rw [show (d :: ds).length + n = (ds.length + n) + 1 by simp; omega, findInfo,
      next_pend (be := false) hp hf h1 h2 (by omega), ok_bind]
    simp only
    generalize hR : (enc false d).length + ((encAll false ds).length + r) - 8 = R
    have step : ∀ c1 : Chunks, c1.f = c.f → c1.total = c.total → c1.cs = d.2.length →
        c1.pos + c1.cr = a.length + 8 + d.2.length →
        c1.remaining = ((encAll false ds).length + r) + c1.cr + d.2.length % 2 →
        ∃ c', findInfo strict (ds.length + n) c1 = findInfo strict n c' ∧ c'.f = c.f ∧ c'.total = c.total ∧
          Pend c' (a.length + ((enc false d).length + (encAll false ds).length)) r := by
      intro c1 e1 e2 e3 e4 e5
      have hpd : Pend c1 (a ++ enc false d).length ((encAll false ds).length + r) := by
        rw [List.length_append]
        exact pend_chunk (be := false) (d := d) (a := a) (by rw [e1]; exact hf) h14 e3 e4 e5
      obtain ⟨c', q1, q2, q3, q4⟩ := ih n c1 (a ++ enc false d) rest r (fun d hd => hok d (by simp [hd]))
        (by rw [e1, hf]; simp) hpd
      rw [List.length_append, Nat.add_assoc] at q4
      exact ⟨c', q1, q2.trans e1, q3.trans e2, q4⟩
    by_cases hL : d.1 = ascii "LIST"
    · rw [if_neg (by simpa using hL)]
      obtain ⟨g1, g2⟩ := h3 hL
      rw [readType (d := d) (a := a) hf h14 g1, ok_bind]
      simp only
      rw [if_neg g2]
      exact step _ rfl rfl rfl (by simp only; omega) (by simp only; omega)
    · rw [if_pos hL]
      exact step _ rfl rfl rfl rfl (by simp only; omega)

theorem findInfo_none (strict : Bool) (ds : List Chunk) (n : Nat) (c : Chunks) (a rest : Bytes)
    (hn : ds.length < n) (hok : ∀ d ∈ ds, d.Plain) (hf : c.f = a ++ (encAll false ds ++ rest))
    (hp : Pend c a.length (encAll false ds).length) : findInfo strict n c = .ok none := by
  obtain ⟨m, rfl⟩ : ∃ m, n = ds.length + (m + 1) := ⟨n - ds.length - 1, by omega⟩
  obtain ⟨c', h1, -, -, h4⟩ := findInfo_plain strict ds (m + 1) c a rest 0 hok hf hp
  rw [h1, findInfo, next_end h4 (by omega), ok_bind]

theorem findInfo_some (strict : Bool) (pre : List Chunk) (d rest : Bytes) (n : Nat) (c : Chunks) (a : Bytes) (r : Nat)
    (hn : pre.length < n) (hok : ∀ d ∈ pre, d.Plain) (hd : d.length + 4 < 2 ^ 32)
    (hf : c.f = a ++ (encAll false pre ++ (enc false (ascii "LIST", ascii "INFO" ++ d) ++ rest)))
    (hr : 12 + d.length ≤ r) (hp : Pend c a.length ((encAll false pre).length + r)) :
    findInfo strict n c = .ok (some (4 + d.length, a.length + (encAll false pre).length + 12)) := by
  obtain ⟨m, rfl⟩ : ∃ m, n = pre.length + (m + 1) := ⟨n - pre.length - 1, by omega⟩
  obtain ⟨c', h1, h2, h3, h4⟩ := findInfo_plain strict pre (m + 1) c a _ r hok hf hp
  have hf' : c'.f = (a ++ encAll false pre) ++ (enc false (ascii "LIST", ascii "INFO" ++ d) ++ rest) := by
    rw [h2, hf]; simp
  have hl : (ascii "INFO" ++ d).length = 4 + d.length := by simp [ascii_info_length]
  rw [← List.length_append] at h4
  rw [h1, findInfo, next_pend (be := false) h4 hf' fourcc_list (by simp only; omega) (by simp only; omega), ok_bind]
  simp only
  rw [if_neg (by simp), readType (d := (ascii "LIST", ascii "INFO" ++ d)) hf' rfl (by simp only; omega), ok_bind]
  simp only
  rw [show (ascii "INFO" ++ d).take 4 = ascii "INFO" from List.take_left' rfl, if_pos rfl, hl]
  simp [List.length_append]

/-- Reading the whole content of a chunk. -/
theorem readAll {be : Bool} {a rest f : Bytes} {d : Chunk} {t R cs : Nat} {l : Option (Nat × Nat)}
    (hf : f = a ++ (enc be d ++ rest)) (hid : d.1.length = 4) :
    (Chunks.mk f (a.length + 8) t R cs d.2.length l).readExact d.2.length
      = .ok (d.2, ⟨f, a.length + 8 + d.2.length, t, R - d.2.length, cs, 0, l⟩) := by
  have := readExact_enc (be := be) (a := a) (rest := rest) (id := d.1) (x := d.2) (y := [])
    (c := ⟨f, a.length + 8, t, R, cs, d.2.length, l⟩) (by simpa using hf) hid rfl (Nat.le_refl _)
  rw [this]
  simp

theorem wavLoop_plain (strict : Bool) (id3 : Bytes → Except Err Unit) (L : Nat) (ds : List Chunk) :
    ∀ (n : Nat) (c : Chunks) (a rest : Bytes) (r : Nat) (items : List Item),
    (∀ d ∈ ds, d.Plain ∧ d.Id3Ok strict id3) → c.f = a ++ (encAll false ds ++ rest) →
    Pend c a.length ((encAll false ds).length + r) →
    ∃ c', wavLoop strict id3 L (ds.length + n) c items = wavLoop strict id3 L n c' items ∧ c'.f = c.f ∧
      c'.total = c.total ∧ c'.lock = c.lock ∧ Pend c' (a.length + (encAll false ds).length) r := by
  induction ds with
  | nil =>
    intro n c a rest r items _ hf hp
    exact ⟨c, by simp, rfl, rfl, rfl, by simpa [encAll] using hp⟩
  | cons d ds ih =>
    intro n c a rest r items hok hf hp
    obtain ⟨⟨⟨h1, h2⟩, h3⟩, h4⟩ := hok d (by simp)
    have h14 := h1.1
    have hel := enc_length false d
    simp only [encAll_cons, List.length_append, List.append_assoc, Nat.add_assoc] at hf hp ⊢
    rw [show (d :: ds).length + n = (ds.length + n) + 1 by simp; omega, wavLoop,
      next_pend (be := false) hp hf h1 h2 (by omega), ok_bind]
    simp only
    generalize hR : (enc false d).length + ((encAll false ds).length + r) - 8 = R
    have step : ∀ c1 : Chunks, c1.f = c.f → c1.total = c.total → c1.lock = c.lock → c1.cs = d.2.length →
        c1.pos + c1.cr = a.length + 8 + d.2.length →
        c1.remaining = ((encAll false ds).length + r) + c1.cr + d.2.length % 2 →
        ∃ c', wavLoop strict id3 L (ds.length + n) c1 items = wavLoop strict id3 L n c' items ∧ c'.f = c.f ∧
          c'.total = c.total ∧ c'.lock = c.lock ∧
          Pend c' (a.length + ((enc false d).length + (encAll false ds).length)) r := by
      intro c1 e1 e2 e2' e3 e4 e5
      have hpd : Pend c1 (a ++ enc false d).length ((encAll false ds).length + r) := by
        rw [List.length_append]
        exact pend_chunk (be := false) (d := d) (a := a) (by rw [e1]; exact hf) h14 e3 e4 e5
      obtain ⟨c', q1, q2, q3, q3', q4⟩ := ih n c1 (a ++ enc false d) rest r items (fun d hd => hok d (by simp [hd]))
        (by rw [e1, hf]; simp) hpd
      rw [List.length_append, Nat.add_assoc] at q4
      exact ⟨c', q1, q2.trans e1, q3.trans e2, q3'.trans e2', q4⟩
    unfold wavChunk
    by_cases hL : d.1 = ascii "LIST"
    · obtain ⟨g1, g2⟩ := h3 hL
      rw [if_pos hL, if_neg (by simp only; omega), readType (d := d) (a := a) hf h14 g1, ok_bind]
      simp only
      rw [if_pos g2, ok_bind]
      exact step _ rfl rfl rfl rfl (by simp only; omega) (by simp only; omega)
    · rw [if_neg hL]
      by_cases hI : d.1 = ascii "ID3 " ∨ d.1 = ascii "id3 "
      · obtain ⟨g1, g2⟩ := h4 hI
        rw [if_pos hI]
        simp only
        rw [readAll (be := false) (d := d) (a := a) hf h14, ok_bind]
        simp only
        by_cases h10 : d.2.length < 10
        · have hs : strict = false := by
            cases strict
            · rfl
            · exact absurd (g1 rfl) (by omega)
          subst hs
          rw [if_pos h10, if_neg (by simp), ok_bind]
          exact step _ rfl rfl rfl rfl rfl (by simp only; omega)
        · rw [if_neg h10, g2 (by omega), ok_bind, ok_bind]
          exact step _ rfl rfl rfl rfl rfl (by simp only; omega)
      · rw [if_neg hI, ok_bind]
        exact step ⟨c.f, a.length + 8, c.total, R, d.2.length, d.2.length, c.lock⟩ rfl rfl rfl rfl rfl (by simp only; omega)

/-- Reading an INFO list. -/
theorem wavChunk_info (strict : Bool) (id3 : Bytes → Except Err Unit) (its : List Item) (junk : Bytes) (hj : junk.length < 8)
    (f a rest : Bytes) (t r start : Nat) (items : List Item) (hits : ∀ i ∈ its, ItemOk i)
    (hf : f = a ++ (enc false (infoListWith its junk) ++ rest))
    (ht : (enc false (infoListWith its junk)).length + r ≤ t) :
    ∃ c', wavChunk strict id3 t ⟨ascii "LIST", (infoListWith its junk).2.length, start⟩
        ⟨f, a.length + 8, t, (enc false (infoListWith its junk)).length + r - 8, (infoListWith its junk).2.length,
          (infoListWith its junk).2.length, none⟩ items = .ok (c', items ++ its) ∧ c'.f = f ∧
      c'.total = t ∧ c'.lock = none ∧ Pend c' (a.length + (enc false (infoListWith its junk)).length) r := by
  have hl : (infoListWith its junk).2.length = 4 + (encAll false (its.map infoChunk)).length + junk.length := by
    simp [infoListWith, ascii_info_length]; omega
  have hel := enc_length false (infoListWith its junk)
  have h14 : (infoListWith its junk).1.length = 4 := rfl
  have hev : (encAll false (its.map infoChunk)).length % 2 = 0 := by
    apply encAll_even
    intro d hd
    obtain ⟨i, hi, rfl⟩ := List.mem_map.mp hd
    exact (hits i hi).1.1
  have hli := length_le_encAll false (its.map infoChunk)
  rw [List.length_map] at hli
  unfold wavChunk
  simp only
  rw [if_pos trivial, if_neg (by omega),
    readType (d := infoListWith its junk) (a := a) hf h14 (by omega), ok_bind]
  simp only
  rw [show (infoListWith its junk).2.take 4 = ascii "INFO" from List.take_left' rfl, if_neg (by simp)]
  unfold Chunks.streamPosition
  simp only
  rw [if_neg (by omega)]
  unfold Chunks.lockIn
  simp only [Option.isSome_none, Bool.false_eq_true, if_false]
  rw [ok_bind]
  generalize hR : (enc false (infoListWith its junk)).length + r - 8 - 4 - ((infoListWith its junk).2.length - 4) = R
  have hRr : R = r + 0 + (infoListWith its junk).2.length % 2 := by omega
  have hf2 : f = (a ++ (ascii "LIST" ++ (leBytes 4 (infoListWith its junk).2.length ++ ascii "INFO")))
      ++ (encAll false (its.map infoChunk) ++ (junk ++ (List.replicate ((infoListWith its junk).2.length % 2) 0 ++ rest))) := by
    rw [hf]
    unfold enc
    simp [infoListWith]
  have hal : (a ++ (ascii "LIST" ++ (leBytes 4 (infoListWith its junk).2.length ++ ascii "INFO"))).length = a.length + 12 := by
    simp [ascii_info_length]
    rfl
  have hpf := pend_fresh (Chunks.mk f (a.length + 12) t ((infoListWith its junk).2.length - 4) 0 0
    (some (R, (infoListWith its junk).2.length))) rfl rfl
  simp only at hpf
  rw [show (infoListWith its junk).2.length - 4 = (encAll false (its.map infoChunk)).length + junk.length by omega] at hpf ⊢
  rw [parseInfo_items strict junk.length hj its _ (Chunks.mk f (a.length + 12) t ((encAll false (its.map infoChunk)).length + junk.length) 0 0
    (some (R, (infoListWith its junk).2.length))) _ _ items (by simp only; omega) hits hf2 (by rw [hal]; exact hpf), ok_bind]
  simp only
  unfold Chunks.unlock
  simp only
  have hpf2 := pend_fresh (Chunks.mk f (a.length + 12 + (encAll false (its.map infoChunk)).length) t junk.length 0 0 none)
    rfl rfl
  unfold Pend at hpf2
  rw [hal, hpf2, ok_bind]
  have hpc := pend_chunk (be := false) (a := a) (rest := rest) (d := infoListWith its junk) (R := r)
    (c := Chunks.mk f (a.length + 8 + (infoListWith its junk).2.length) t R (infoListWith its junk).2.length 0 none)
    hf h14 rfl rfl hRr
  unfold Pend Chunks.skip at hpc
  simp only [Nat.lt_irrefl, gt_iff_lt, if_false] at hpc
  obtain ⟨c', hc', hpc⟩ := bind_ok hpc
  have hcp : (Chunks.mk f (a.length + 12 + (encAll false (its.map infoChunk)).length + junk.length) t R 0 0 none).correctPosition
      (infoListWith its junk).2.length = .ok ⟨f, a.length + (enc false (infoListWith its junk)).length, t, r, 0, 0, none⟩ := by
    have e : a.length + 12 + (encAll false (its.map infoChunk)).length + junk.length = a.length + 8 + (infoListWith its junk).2.length := by
      omega
    rw [e]
    obtain ⟨f', p', t', r', cs', cr', l'⟩ := c'
    simp only [Except.ok.injEq, Chunks.mk.injEq] at hpc
    obtain ⟨rfl, rfl, rfl, rfl, -, rfl, rfl⟩ := hpc
    revert hc'
    unfold Chunks.correctPosition
    split
    · intro h
      simp only [Except.ok.injEq, Chunks.mk.injEq] at h
      rw [h.2.1, h.2.2.2.1]
    · intro h
      obtain ⟨p, hp', h⟩ := bind_ok h
      rw [hp', ok_bind]
      split at h
      · obtain ⟨q, hq, h⟩ := bind_ok h
        rw [if_pos ‹_›, hq, ok_bind]
        split at h
        · rw [if_pos ‹_›]
          simp only [Except.ok.injEq, Chunks.mk.injEq] at h
          rw [h.2.1, h.2.2.2.1]
        · rw [if_neg ‹_›]
          simp only [Except.ok.injEq, Chunks.mk.injEq] at h
          rw [h.2.1, h.2.2.2.1]
      · rw [if_neg ‹_›]
        simp only [Except.ok.injEq, Chunks.mk.injEq] at h
        rw [h.2.1, h.2.2.2.1]
  rw [hcp, ok_bind]
  exact ⟨_, rfl, rfl, rfl, rfl, pend_fresh (Chunks.mk f _ t r 0 0 none) rfl rfl⟩

theorem wavLoop_info (strict : Bool) (id3 : Bytes → Except Err Unit) (its : List Item) (junk : Bytes) (hj : junk.length < 8)
    (n : Nat) (c : Chunks) (a rest : Bytes) (r : Nat) (items : List Item) (hits : ∀ i ∈ its, ItemOk i)
    (hsz : (infoListWith its junk).2.length < 2 ^ 32)
    (hf : c.f = a ++ (enc false (infoListWith its junk) ++ rest)) (hlock : c.lock = none)
    (hp : Pend c a.length ((enc false (infoListWith its junk)).length + r))
    (ht : (enc false (infoListWith its junk)).length + r ≤ c.total) :
    ∃ c', wavLoop strict id3 c.total (n + 1) c items = wavLoop strict id3 c.total n c' (items ++ its) ∧ c'.f = c.f ∧
      c'.total = c.total ∧ c'.lock = none ∧ Pend c' (a.length + (enc false (infoListWith its junk)).length) r := by
  have hel := enc_length false (infoListWith its junk)
  have h14 : (infoListWith its junk).1.length = 4 := rfl
  rw [wavLoop, next_pend (be := false) hp hf fourcc_list hsz (by omega), ok_bind]
  simp only
  obtain ⟨c', q1, q2, q3, q4, q5⟩ := wavChunk_info strict id3 its junk hj c.f a rest c.total r
    (c.total - ((enc false (infoListWith its junk)).length + r)) items hits hf ht
  rw [hlock, show (infoListWith its junk).1 = ascii "LIST" from rfl, q1, ok_bind]
  exact ⟨c', rfl, q2, q3, q4, q5⟩

end Lofty.Iff
