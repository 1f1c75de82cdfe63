import Verif.Model.Ape
import Verif.Lemmas.Ascii
import Verif.Lemmas.Bytes
import Verif.Lemmas.File
import Verif.Lemmas.Text
import Verif.Lemmas.Vorbis
/-!
# Lemmas on APE tags
-/
namespace Lofty.Ape

theorem get_append (a b : List Item) (k : Str) : get (a ++ b) k = (get a k).or (get b k) := by
  simp [get, List.find?_append]

theorem get_remove_same (l : List Item) {k k' : Str} (h : eqIc k k' = true) : get (remove l k) k' = none := by
  rw [get, List.find?_eq_none]
  intro i hi
  simp only [remove, List.mem_filter, Bool.not_eq_true'] at hi
  intro hc
  have := eqIc_trans hc (by rw [eqIc_comm]; exact h)
  rw [this] at hi
  exact absurd hi.2 (by simp)

theorem get_remove_other (l : List Item) {k k' : Str} (h : eqIc k k' = false) : get (remove l k) k' = get l k' := by
  induction l with
  | nil => rfl
  | cons i l ih =>
    simp only [get, remove] at ih
    simp only [get, remove, List.filter_cons, List.find?_cons]
    cases h1 : eqIc i.key k with
    | true =>
      have h2 : eqIc i.key k' = false := by rw [eqIc_congr h1, h]
      simp [h2, ih]
    | false => simp [List.find?_cons, ih]

/-! Keys. -/

theorem validKey_ascii {k : Str} (h : validKey k = true) : ∀ c ∈ k, 0x20 ≤ c.toNat ∧ c.toNat ≤ 0x7E := by
  intro c hc
  simp only [validKey, Bool.and_eq_true, Bool.not_eq_true', List.any_eq_false, Bool.not_eq_false] at h
  have := h.2 c hc
  simpa using this

theorem utf8_validKey {k : Str} (h : ∀ c ∈ k, 0x20 ≤ c.toNat ∧ c.toNat ≤ 0x7E) : (utf8 k).length = k.length := by
  rw [utf8_ascii k (fun c hc => by have := (h c hc).2; omega)]
  simp

theorem validKey_zero {k : Str} (h : validKey k = true) : (0 : UInt8) ∉ utf8 k := by
  rw [zero_mem_utf8]
  intro hm
  have := (validKey_ascii h _ hm).1
  simp at this

theorem validKey_getLast {k : Str} (h : validKey k = true) : k.getLast? ≠ some '\x00' := by
  intro hl
  have := (validKey_ascii h _ (List.mem_of_getLast? hl)).1
  simp at this

theorem validKey_len {k : Str} (h : validKey k = true) : 2 ≤ (utf8 k).length := by
  simp only [validKey, Bool.and_eq_true, decide_eq_true_eq] at h
  exact h.1.2.1

theorem readKey_append (k r : Bytes) (h : (0 : UInt8) ∉ k) : readKey (k ++ 0 :: r) = .ok (k, r) := by
  induction k with
  | nil => rfl
  | cons b k ih =>
    simp only [List.mem_cons, not_or] at h
    rw [List.cons_append, readKey, if_neg (Ne.symm h.1), ih h.2]
    rfl

/-! Items. -/

theorem Item.write_length (i : Item) : i.write.length = 9 + (utf8 i.key).length + i.value.bytes.length := by
  simp [Item.write]; omega

theorem writeItems_cons (i : Item) (l : List Item) : writeItems (i :: l) = i.write ++ writeItems l := by
  simp [writeItems]

theorem flags_lt (i : Item) : i.flags < 8 := by
  unfold Item.flags
  split <;> split <;> omega

theorem flags_ro (i : Item) : decide (i.flags % 2 = 1) = i.readOnly := by
  cases i with
  | mk ro k v => cases ro <;> cases v <;> simp [Item.flags]

/-- The item can be read back: valid key, and a text that does not end in NUL. -/
def Kept (i : Item) : Prop :=
  validKey i.key = true ∧
    match i.value with
    | .text s => s.getLast? ≠ some '\x00'
    | .locator s => s.getLast? ≠ some '\x00'
    | .binary _ => True

theorem parseValue_rt {i : Item} (h : Kept i) : parseValue (i.flags / 2 % 4) i.value.bytes = .ok i.value := by
  obtain ⟨ro, k, v⟩ := i
  obtain ⟨_, h⟩ := h
  cases v with
  | text s =>
    simp only at h
    have : Item.flags ⟨ro, k, .text s⟩ / 2 % 4 = 0 := by cases ro <;> simp [Item.flags]
    rw [this, parseValue, if_pos rfl, Value.bytes, Vorbis.utf8Decode_utf8 s h]
    rfl
  | locator s =>
    simp only at h
    have : Item.flags ⟨ro, k, .locator s⟩ / 2 % 4 = 2 := by cases ro <;> simp [Item.flags]
    rw [this, parseValue, if_neg (by decide), if_neg (by decide), if_pos rfl, Value.bytes, Vorbis.utf8Decode_utf8 s h]
    rfl
  | binary d =>
    have : Item.flags ⟨ro, k, .binary d⟩ / 2 % 4 = 1 := by cases ro <;> simp [Item.flags]
    rw [this, parseValue, if_neg (by decide), if_pos rfl]
    rfl

theorem parseItem_rt {i : Item} (h : Kept i) (r : Bytes) :
    parseItem (i.value.bytes ++ r) i.key i.flags i.value.bytes.length = .ok (i, r) := by
  unfold parseItem
  rw [readN_append _ _ rfl, ok_bind]
  simp only
  rw [parseValue_rt h, ok_bind, Item.new, if_pos h.1, ok_bind]
  simp only [flags_ro]

theorem insert_new (l : List Item) (i : Item) (h : ∀ j ∈ l, eqIc j.key i.key = false) : insert l i = l ++ [i] := by
  unfold insert remove
  rw [List.filter_eq_self.mpr]
  intro j hj
  simp [h j hj]

/-- Two items never share a key, whatever the letter case. -/
def Distinct (l : List Item) : Prop := l.Pairwise fun a b => eqIc a.key b.key = false

theorem readItems_rt (cover : Bool) (l : List Item) : ∀ (rem : Nat) (rest : Bytes) (acc : List Item),
    (∀ i ∈ l, Kept i) → Distinct (acc ++ l) → (writeItems l).length ≤ rem → rem < 2 ^ 32 →
    readItems cover l.length rem (writeItems l ++ rest) acc
      = .ok (acc ++ l.filter fun i => cover || !Picture.apePictureTypes.contains i.key) := by
  induction l with
  | nil => intro rem rest acc _ _ _ _; simp [readItems]
  | cons i l ih =>
    intro rem rest acc hk hd hlen hrem
    have hki := hk i (by simp)
    have hkl : ∀ j ∈ l, Kept j := fun j hj => hk j (by simp [hj])
    have hw := Item.write_length i
    rw [writeItems_cons, List.length_append] at hlen
    have h2 := validKey_len hki.1
    have hsz : i.value.bytes.length < 2 ^ 32 := by omega
    rw [List.length_cons, readItems, if_neg (by omega), writeItems_cons]
    simp only [Item.write, Nat.mod_eq_of_lt hsz, List.append_assoc, List.cons_append]
    rw [readLE_append _ (by omega), ok_bind]
    simp only
    rw [if_neg (by omega), readLE_append _ (by have := flags_lt i; omega), ok_bind]
    simp only
    rw [readKey_append _ _ (validKey_zero hki.1), ok_bind]
    simp only
    rw [Vorbis.utf8Decode_utf8 _ (validKey_getLast hki.1), ok_bind]
    have hacc : ∀ j ∈ acc, eqIc j.key i.key = false := by
      intro j hj
      exact (List.pairwise_append.mp hd).2.2 j hj i (by simp)
    cases hc : Picture.apePictureTypes.contains i.key && !cover with
    | true =>
      rw [if_pos rfl, List.drop_left' rfl, ih _ _ _ hkl ?_ (by omega) (by omega)]
      · simp only [Bool.and_eq_true, Bool.not_eq_true'] at hc
        rw [List.filter_cons_of_neg (by simp only [hc.1, hc.2]; decide)]
      · unfold Distinct at *
        exact hd.sublist (by simp)
    | false =>
      rw [if_neg (by simp), parseItem_rt hki, ok_bind]
      simp only
      rw [insert_new _ _ hacc, ih _ _ _ hkl (by simpa using hd) (by omega) (by omega)]
      rw [List.filter_cons_of_pos]
      · simp
      · cases cover
        · simpa using hc
        · rfl

end Lofty.Ape
