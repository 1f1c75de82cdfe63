import Verif.Model.Picture
import Verif.Lemmas.Bytes
import Verif.Lemmas.Text
/-! Helper lemmas for pictures. -/
namespace Lofty.Picture

theorem b64Val_char : ∀ n : Fin 64, b64Val (b64Char n.val) = some n.val ∧ b64Char n.val ≠ 61 := by
  decide +kernel

theorem b64Val_char' {n : Nat} (h : n < 64) : b64Val (b64Char n) = some n :=
  (b64Val_char ⟨n, h⟩).1

theorem b64Char_ne {n : Nat} (h : n < 64) : b64Char n ≠ 61 := (b64Val_char ⟨n, h⟩).2

theorem ofNat_toNat_eq (a : UInt8) {n : Nat} (h : n = a.toNat) : UInt8.ofNat n = a := by
  subst h; simp

theorem b64Decode_encode (b : Bytes) : b64Decode (b64Encode b) = some b := by
  fun_induction b64Encode b with
  | case1 => rfl
  | case2 a =>
    have := a.toNat_lt
    simp only [b64Decode, b64Group]
    rw [b64Val_char' (by omega), b64Val_char' (by omega)]
    simp only [and_self, if_true]
    rw [if_pos (by omega), ofNat_toNat_eq a (by omega)]
    rfl
  | case3 a b =>
    have := a.toNat_lt
    have := b.toNat_lt
    simp only [b64Decode, b64Group]
    rw [b64Val_char' (by omega), b64Val_char' (by omega), b64Val_char' (by omega)]
    have hne := b64Char_ne (n := b.toNat % 16 * 4) (by omega)
    simp only [hne, false_and, if_false, if_true]
    rw [if_pos (by omega), ofNat_toNat_eq a (by omega), ofNat_toNat_eq b (by omega)]
    rfl
  | case4 a b c r ih =>
    have := a.toNat_lt
    have := b.toNat_lt
    have := c.toNat_lt
    simp only [b64Decode, b64Group, ih]
    rw [b64Val_char' (by omega), b64Val_char' (by omega), b64Val_char' (by omega), b64Val_char' (by omega)]
    have hne := b64Char_ne (n := b.toNat % 16 * 4 + c.toNat / 64) (by omega)
    have hne' := b64Char_ne (n := c.toNat % 64) (by omega)
    simp only [hne, hne', false_and, if_false]
    rw [ofNat_toNat_eq a (by omega), ofNat_toNat_eq b (by omega), ofNat_toNat_eq c (by omega)]
    rfl

theorem fromU8_asU8_table : ∀ i : Fin 256,
    (PicType.fromU8 (UInt8.ofNat i.val)).asU8 = UInt8.ofNat i.val := by decide +kernel

theorem slice_mid (a b c : Bytes) (n m : Nat) (hn : n = a.length) (hm : m = a.length + b.length) :
    slice (a ++ b ++ c) n m = .ok b := by
  subst hn hm
  unfold slice
  rw [if_pos (by simp)]
  congr 1
  rw [List.take_append_of_le_length (by simp), List.take_of_length_le (by simp)]
  simp

theorem readBE4 {n : Nat} (h : n < 2 ^ 32) (r : Bytes) : readBE 4 (beBytes 4 n ++ r) = .ok (n, r) :=
  readBE_append r (by omega)

theorem checkedSub_le {a b : Nat} (h : b ≤ a) : checkedSub a b = .ok (a - b) := if_pos h

theorem b64Decode_length (b d : Bytes) (h : b64Decode b = some d) : 4 * d.length ≤ 3 * b.length := by
  revert d
  fun_induction b64Decode b with
  | case1 => intro d h; cases h; simp
  | case2 c1 c2 c3 c4 r g t hg ht ih =>
    intro d h
    cases h
    have h3 : g.length ≤ 3 := by
      unfold b64Group at ht
      repeat' split at ht
      all_goals first | (cases ht; done) | (cases ht; simp)
    have := ih _ hg
    simp only [List.length_append, List.length_cons]
    omega
  | case3 => intro d h; cases h
  | case4 => intro d h; cases h

end Lofty.Picture
