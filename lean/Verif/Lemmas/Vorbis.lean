import Verif.Model.Vorbis
import Verif.Lemmas.Picture
import Verif.Lemmas.Ascii
import Verif.Lemmas.Drain
/-! Helper lemmas for Vorbis comments. -/
namespace Lofty

/-- Bytes of an ASCII string. -/
theorem utf8_of_ascii (t : Str) (h : ∀ c ∈ t, c.toNat ≤ 127) : utf8 t = t.map fun c => UInt8.ofNat c.toNat :=
  utf8_ascii t h

theorem lowerByte_ofNat (c : Char) (h : c.toNat ≤ 127) :
    lowerByte (UInt8.ofNat c.toNat) = UInt8.ofNat (lowerChar c).toNat ∧ (lowerChar c).toNat ≤ 127 := by
  have h1 : 'A'.toNat = 65 := rfl
  have h2 : 'Z'.toNat = 90 := rfl
  have h3 : (UInt8.ofNat c.toNat).toNat = c.toNat := UInt8.toNat_ofNat_of_lt' (by simp [UInt8.size]; omega)
  unfold lowerByte lowerChar
  rw [h3, h1, h2]
  split
  · rename_i h
    have : (Char.ofNat (c.toNat + 32)).toNat = c.toNat + 32 :=
      toNat_charOfNat _ (by unfold Nat.isValidChar; omega)
    rw [this]
    exact ⟨rfl, by omega⟩
  · exact ⟨rfl, h⟩

theorem ofNat_toNat_inj {a b : Char} (ha : a.toNat ≤ 127) (hb : b.toNat ≤ 127)
    (h : UInt8.ofNat a.toNat = UInt8.ofNat b.toNat) : a = b := by
  have := congrArg UInt8.toNat h
  rw [UInt8.toNat_ofNat_of_lt' (by simp [UInt8.size]; omega), UInt8.toNat_ofNat_of_lt' (by simp [UInt8.size]; omega)] at this
  rw [← Text.char_ofNat_toNat a, this, Text.char_ofNat_toNat]

theorem map_ofNat_inj (a b : Str) (ha : ∀ c ∈ a, c.toNat ≤ 127) (hb : ∀ c ∈ b, c.toNat ≤ 127)
    (h : (a.map fun c => UInt8.ofNat c.toNat) = b.map fun c => UInt8.ofNat c.toNat) : a = b := by
  induction a generalizing b with
  | nil => cases b with
    | nil => rfl
    | cons => simp at h
  | cons x a ih => cases b with
    | nil => simp at h
    | cons y b =>
      simp only [List.map_cons, List.cons.injEq] at h
      rw [ofNat_toNat_inj (ha x (by simp)) (hb y (by simp)) h.1,
        ih b (fun c hc => ha c (by simp [hc])) (fun c hc => hb c (by simp [hc])) h.2]

/-- On ASCII strings, comparing bytes ignoring case is comparing characters ignoring case. -/
theorem eqIcB_utf8 (a b : Str) (ha : ∀ c ∈ a, c.toNat ≤ 127) (hb : ∀ c ∈ b, c.toNat ≤ 127) :
    eqIcB (utf8 a) (b.map fun c => UInt8.ofNat c.toNat) = eqIc a b := by
  have key : ∀ x : Str, (∀ c ∈ x, c.toNat ≤ 127) →
      ((x.map fun c => UInt8.ofNat c.toNat).map lowerByte) = (x.map lowerChar).map fun c => UInt8.ofNat c.toNat := by
    intro x hx
    rw [List.map_map, List.map_map]
    apply List.map_congr_left
    intro c hc
    exact (lowerByte_ofNat c (hx c hc)).1
  have low : ∀ x : Str, (∀ c ∈ x, c.toNat ≤ 127) → ∀ c ∈ x.map lowerChar, c.toNat ≤ 127 := by
    intro x hx c hc
    obtain ⟨d, hd, rfl⟩ := List.mem_map.mp hc
    exact (lowerByte_ofNat d (hx d hd)).2
  unfold eqIcB eqIc
  rw [utf8_of_ascii a ha, key a ha, key b hb, Bool.eq_iff_iff, beq_iff_eq, beq_iff_eq]
  constructor
  · exact map_ofNat_inj _ _ (low a ha) (low b hb)
  · intro h; rw [h]

namespace Vorbis

theorem verifyKey_ascii {k : Str} (h : verifyKey k = true) :
    k ≠ [] ∧ (∀ c ∈ k, c.toNat ≤ 127) ∧ '=' ∉ k ∧ validKey (utf8 k) = true := by
  unfold verifyKey at h
  simp only [Bool.and_eq_true, Bool.not_eq_true', List.isEmpty_eq_false_iff] at h
  obtain ⟨h1, h2⟩ := h
  have hall : ∀ c ∈ k, c.toNat ≤ 127 := by
    intro c hc
    refine Nat.le_of_not_lt fun hgt => ?_
    have hb := utf8EncodeChar_high c hgt
    cases he : String.utf8EncodeChar c with
    | nil => exact absurd (utf8_eq_nil (t := [c]) (by simp [utf8, he])) (by simp)
    | cons b bs =>
      have hmem : b ∈ utf8 k := List.mem_flatMap.mpr ⟨c, hc, by rw [he]; simp⟩
      have := List.all_eq_true.mp h2 b hmem
      have hge := hb b (by rw [he]; simp)
      simp only [Bool.and_eq_true, decide_eq_true_eq] at this
      omega
  refine ⟨h1, hall, ?_, h2⟩
  intro heq
  have hmem : (0x3D : UInt8) ∈ utf8 k := by
    rw [utf8_of_ascii k hall]
    exact List.mem_map.mpr ⟨'=', heq, rfl⟩
  have := List.all_eq_true.mp h2 _ hmem
  simp at this

theorem mem_utf8_char {k : Str} (h : ∀ c ∈ k, c.toNat ≤ 127) :
    (utf8 k).all (fun b => decide (0x20 ≤ b.toNat ∧ b.toNat ≤ 0x7D) && b.toNat != 0x3D)
      = k.all fun c => decide (0x20 ≤ c.toNat ∧ c.toNat ≤ 0x7D) && c.toNat != 0x3D := by
  rw [utf8_of_ascii k h, List.all_map]
  rw [Bool.eq_iff_iff, List.all_eq_true, List.all_eq_true]
  have key : ∀ c ∈ k, (UInt8.ofNat c.toNat).toNat = c.toNat := fun c hc =>
    UInt8.toNat_ofNat_of_lt' (by have := h c hc; simp [UInt8.size]; omega)
  constructor <;> intro h c hc
  · have := h c hc; simpa [Function.comp, key c hc] using this
  · have := h c hc; simpa [Function.comp, key c hc] using this

theorem verifyKey_iff (k : Str) : verifyKey k = true ↔
    k ≠ [] ∧ ∀ c ∈ k, 0x20 ≤ c.toNat ∧ c.toNat ≤ 0x7D ∧ c.toNat ≠ 0x3D := by
  constructor
  · intro h
    obtain ⟨h1, h2, _, h4⟩ := verifyKey_ascii h
    unfold validKey at h4
    rw [mem_utf8_char h2, List.all_eq_true] at h4
    refine ⟨h1, fun c hc => ?_⟩
    have := h4 c hc
    simp only [Bool.and_eq_true, decide_eq_true_eq, bne_iff_ne, ne_eq] at this
    exact ⟨this.1.1, this.1.2, this.2⟩
  · rintro ⟨h1, h2⟩
    unfold verifyKey
    rw [mem_utf8_char (fun c hc => by have := h2 c hc; omega)]
    simp only [Bool.and_eq_true, Bool.not_eq_true', List.isEmpty_eq_false_iff, List.all_eq_true,
      decide_eq_true_eq, bne_iff_ne, ne_eq]
    exact ⟨h1, fun c hc => ⟨⟨(h2 c hc).1, (h2 c hc).2.1⟩, (h2 c hc).2.2⟩⟩

theorem lowerChar_range (c : Char) : (0x20 ≤ (lowerChar c).toNat ∧ (lowerChar c).toNat ≤ 0x7D ∧ (lowerChar c).toNat ≠ 0x3D)
    ↔ (0x20 ≤ c.toNat ∧ c.toNat ≤ 0x7D ∧ c.toNat ≠ 0x3D) := by
  have h1 : 'A'.toNat = 65 := rfl
  have h2 : 'Z'.toNat = 90 := rfl
  unfold lowerChar
  rw [h1, h2]
  split
  · rename_i h
    rw [toNat_charOfNat _ (by unfold Nat.isValidChar; omega)]
    omega
  · exact Iff.rfl

theorem verifyKey_congr {a b : Str} (h : eqIc a b = true) : verifyKey a = verifyKey b := by
  have low : ∀ k : Str, verifyKey k = true ↔ k.map lowerChar ≠ [] ∧
      ∀ c ∈ k.map lowerChar, 0x20 ≤ c.toNat ∧ c.toNat ≤ 0x7D ∧ c.toNat ≠ 0x3D := by
    intro k
    rw [verifyKey_iff]
    constructor
    · rintro ⟨h1, h2⟩
      refine ⟨by simpa using h1, fun c hc => ?_⟩
      obtain ⟨d, hd, rfl⟩ := List.mem_map.mp hc
      exact (lowerChar_range d).mpr (h2 d hd)
    · rintro ⟨h1, h2⟩
      exact ⟨by simpa using h1, fun c hc => (lowerChar_range c).mp (h2 _ (List.mem_map.mpr ⟨c, hc, rfl⟩))⟩
  rw [eqIc_iff] at h
  rw [Bool.eq_iff_iff, low a, low b, h]

theorem asciiStr_utf8 (k : Str) (h : ∀ c ∈ k, c.toNat ≤ 127) : asciiStr (utf8 k) = k := by
  rw [utf8_of_ascii k h, asciiStr, List.map_map]
  conv => rhs; rw [← List.map_id k]
  apply List.map_congr_left
  intro c hc
  exact Text.latin1_char c (by have := h c hc; omega)

theorem eq_not_mem_utf8 (k : Str) (h : ∀ c ∈ k, c.toNat ≤ 127) (he : '=' ∉ k) : (0x3D : UInt8) ∉ utf8 k := by
  rw [utf8_of_ascii k h]
  intro hm
  obtain ⟨c, hc, h'⟩ := List.mem_map.mp hm
  have : c = '=' := ofNat_toNat_inj (h c hc) (by decide) h'
  exact he (this ▸ hc)

theorem split_comment (k v : Str) (h : verifyKey k = true) :
    split2 0x3D (commentBytes (k, v)) = (utf8 k, some (utf8 v)) := by
  obtain ⟨_, h1, h2, _⟩ := verifyKey_ascii h
  exact split2_append _ _ _ (eq_not_mem_utf8 k h1 h2)

theorem eqIcB_lit (k : Str) (h : verifyKey k = true) (s : String) (hs : ∀ c ∈ s.toList, c.toNat ≤ 127) :
    eqIcB (utf8 k) (ascii s) = eqIc k (str s) :=
  eqIcB_utf8 k s.toList (verifyKey_ascii h).2.1 hs

theorem utf8Decode_utf8 (v : Str) (h : v.getLast? ≠ some '\x00') : Text.utf8Decode (utf8 v) = .ok v := by
  rw [Text.utf8Decode, fromUtf8_utf8]
  simp only
  rw [Text.trimEndNulls_eq v h]

/-- The serialised form of a list of comments. -/
def encodeAll (cs : List Bytes) : Bytes := cs.flatMap fun c => leBytes 4 c.length ++ c

theorem createComments_eq (items : List Item) (b : Bytes) (n : Nat) (h : createComments items = .ok (b, n)) :
    b = encodeAll ((items.filter fun i => !i.2.isEmpty).map commentBytes) ∧
      n = (items.filter fun i => !i.2.isEmpty).length ∧
      ∀ i ∈ items.filter fun i => !i.2.isEmpty, (commentBytes i).length < 2 ^ 32 := by
  induction items generalizing b n with
  | nil => cases h; simp [encodeAll]
  | cons i is ih =>
    rw [createComments] at h
    split at h
    · rename_i hi
      rw [List.filter_cons_of_neg (by simp [hi])]
      exact ih b n h
    · rename_i hi
      rw [List.filter_cons_of_pos (by simp [hi])]
      split at h
      · rename_i hl
        obtain ⟨⟨b', n'⟩, h1, h2⟩ := bind_ok h
        obtain ⟨e1, e2, e3⟩ := ih b' n' h1
        cases h2
        refine ⟨by simp [encodeAll, e1], by simp [e2], ?_⟩
        intro j hj
        rcases List.mem_cons.mp hj with rfl | hj
        · exact hl
        · exact e3 j hj
      · cases h

theorem createPictures_eq (ps : List (Picture.Pic × Picture.Info)) (b : Bytes) (n : Nat)
    (h : createPictures ps = .ok (b, n)) :
    b = encodeAll (ps.map pictureComment) ∧ n = ps.length ∧ ∀ p ∈ ps, (pictureComment p).length < 2 ^ 32 := by
  induction ps generalizing b n with
  | nil => cases h; simp [encodeAll]
  | cons i is ih =>
    rw [createPictures] at h
    split at h
    · rename_i hl
      obtain ⟨⟨b', n'⟩, h1, h2⟩ := bind_ok h
      obtain ⟨e1, e2, e3⟩ := ih b' n' h1
      cases h2
      refine ⟨by simp [encodeAll, e1], by simp [e2], ?_⟩
      intro j hj
      rcases List.mem_cons.mp hj with rfl | hj
      · exact hl
      · exact e3 j hj
    · cases h

theorem encodeAll_length (cs : List Bytes) :
    (encodeAll cs).length = 4 * cs.length + (cs.map List.length).sum := by
  induction cs with
  | nil => rfl
  | cons c cs ih =>
    have e : encodeAll (c :: cs) = (leBytes 4 c.length ++ c) ++ encodeAll cs := rfl
    rw [e]
    simp only [List.length_append, leBytes_length, ih, List.length_cons, List.map_cons, List.sum_cons]
    omega

/-- Reading serialised comments is folding the item handler over them. -/
theorem readItems_encodeAll (o : Opts) (cs : List Bytes) (rest : Bytes) :
    ∀ (len : Nat) (t t' : Tag), (cs.map List.length).sum ≤ len → (∀ c ∈ cs, c.length < 2 ^ 32) →
      cs.foldlM (readItem o) t = .ok t' →
      readItems o cs.length len t (encodeAll cs ++ rest) = .ok (t', rest) := by
  induction cs with
  | nil =>
    intro len t t' _ _ h
    simp only [List.foldlM_nil] at h
    cases h
    rfl
  | cons c cs ih =>
    intro len t t' hsum hlen h
    simp only [List.foldlM_cons] at h
    obtain ⟨t1, h1, h2⟩ := bind_ok h
    simp only [List.map_cons, List.sum_cons] at hsum
    have e : encodeAll (c :: cs) ++ rest = leBytes 4 c.length ++ (c ++ (encodeAll cs ++ rest)) := by
      simp [encodeAll]
    have hcl := hlen c (by simp)
    rw [List.length_cons, readItems, e, readLE_append _ (by omega), ok_bind]
    simp only
    rw [if_neg (by omega), readN_append _ _ rfl, ok_bind]
    simp only
    rw [h1, ok_bind]
    exact ih _ _ _ (by omega) (fun c hc => hlen c (by simp [hc])) h2

end Vorbis
end Lofty
