import Verif.Model.Ascii
import Verif.Lemmas.Text
/-! Helper lemmas for ASCII case and decimal numbers. -/
namespace Lofty

theorem eqIc_iff (a b : Str) : eqIc a b = true ↔ a.map lowerChar = b.map lowerChar := by simp [eqIc]
theorem eqIc_refl (a : Str) : eqIc a a = true := by simp [eqIc]
theorem eqIc_comm (a b : Str) : eqIc a b = eqIc b a := by
  rw [Bool.eq_iff_iff, eqIc_iff, eqIc_iff]; exact ⟨Eq.symm, Eq.symm⟩
theorem eqIc_trans {a b c : Str} (h1 : eqIc a b = true) (h2 : eqIc b c = true) : eqIc a c = true := by
  rw [eqIc_iff] at *; exact h1.trans h2
theorem eqIc_congr {a b : Str} (h : eqIc a b = true) (c : Str) : eqIc a c = eqIc b c := by
  rw [eqIc_iff] at h; simp [eqIc, h]

theorem split2_noSep {α} [DecidableEq α] (sep : α) (a : List α) (h : sep ∉ a) : split2 sep a = (a, none) := by
  induction a with
  | nil => rfl
  | cons c a ih =>
    simp only [List.mem_cons, not_or] at h
    rw [split2, if_neg (Ne.symm h.1), ih h.2]

theorem split2_append {α} [DecidableEq α] (sep : α) (a b : List α) (h : sep ∉ a) :
    split2 sep (a ++ sep :: b) = (a, some b) := by
  induction a with
  | nil => simp [split2]
  | cons c a ih =>
    simp only [List.mem_cons, not_or] at h
    rw [List.cons_append, split2, if_neg (Ne.symm h.1), ih h.2]

theorem split2_spec {α} [DecidableEq α] (sep : α) (s : List α) :
    (sep ∉ s ∧ split2 sep s = (s, none)) ∨ ∃ a b, sep ∉ a ∧ s = a ++ sep :: b ∧ split2 sep s = (a, some b) := by
  induction s with
  | nil => left; simp [split2]
  | cons c s ih =>
    by_cases hc : c = sep
    · right; exact ⟨[], s, by simp, by simp [hc], by simp [split2, hc]⟩
    · rcases ih with ⟨h1, h2⟩ | ⟨a, b, h1, h2, h3⟩
      · left
        exact ⟨by simp [h1, Ne.symm hc], by rw [split2, if_neg hc, h2]⟩
      · right
        exact ⟨c :: a, b, by simp [h1, Ne.symm hc], by simp [h2], by rw [split2, if_neg hc, h3]⟩

/-! ### Decimal numbers -/

theorem digitChar_toNat : ∀ d : Fin 10, (Nat.digitChar d.val).toNat = 48 + d.val := by decide

theorem digitVal_digitChar {d : Nat} (h : d < 10) : digitVal (Nat.digitChar d) = some d := by
  have := digitChar_toNat ⟨d, h⟩
  simp only at this
  unfold digitVal
  rw [this]
  have h0 : '0'.toNat = 48 := rfl
  have h9 : '9'.toNat = 57 := rfl
  rw [h0, h9, if_pos (by omega)]
  congr 1; omega

/-- The value of a digit string, most significant first. -/
def decVal (acc : Nat) (ds : Str) : Nat := ds.foldl (fun a c => a * 10 + (c.toNat - 48)) acc

/-- Every character is an ASCII digit. -/
def AllDigits (ds : Str) : Prop := ∀ c ∈ ds, 48 ≤ c.toNat ∧ c.toNat ≤ 57

theorem toDigitsCore_spec (fuel : Nat) : ∀ (n : Nat) (ds : Str), n < fuel → AllDigits ds →
    AllDigits (Nat.toDigitsCore 10 fuel n ds) ∧
      (∀ acc, decVal acc (Nat.toDigitsCore 10 fuel n ds)
        = decVal (acc * 10 ^ ((Nat.toDigitsCore 10 fuel n ds).length - ds.length) + n) ds) ∧
      ds.length < (Nat.toDigitsCore 10 fuel n ds).length := by
  induction fuel with
  | zero => intro n ds h; omega
  | succ fuel ih =>
    intro n ds h hds
    rw [Nat.toDigitsCore]
    have hdig : 48 ≤ (Nat.digitChar (n % 10)).toNat ∧ (Nat.digitChar (n % 10)).toNat ≤ 57 ∧
        (Nat.digitChar (n % 10)).toNat - 48 = n % 10 := by
      have := digitChar_toNat ⟨n % 10, by omega⟩
      simp only at this
      omega
    have hds' : AllDigits (Nat.digitChar (n % 10) :: ds) := by
      intro c hc
      rcases List.mem_cons.mp hc with rfl | hc
      · exact ⟨hdig.1, hdig.2.1⟩
      · exact hds c hc
    split
    · rename_i h0
      refine ⟨hds', ?_, by simp⟩
      intro acc
      simp only [decVal, List.foldl_cons, hdig.2.2, List.length_cons]
      rw [show ds.length + 1 - ds.length = 1 by omega, Nat.pow_one]
      congr 2
      omega
    · rename_i h0
      obtain ⟨i1, i2, i3⟩ := ih (n / 10) (Nat.digitChar (n % 10) :: ds) (by omega) hds'
      refine ⟨i1, ?_, by simp at i3; omega⟩
      intro acc
      rw [i2 acc]
      simp only [decVal, List.foldl_cons, hdig.2.2, List.length_cons] at i3 ⊢
      generalize (Nat.toDigitsCore 10 fuel (n / 10) (Nat.digitChar (n % 10) :: ds)).length = L at i3
      congr 1
      rw [show L - ds.length = (L - (ds.length + 1)) + 1 by omega, Nat.pow_succ]
      have : acc * (10 ^ (L - (ds.length + 1)) * 10) = (acc * 10 ^ (L - (ds.length + 1))) * 10 := by
        rw [Nat.mul_assoc]
      omega

theorem toDec_digits (n : Nat) : AllDigits (toDec n) :=
  (toDigitsCore_spec (n + 1) n [] (by omega) (by intro c hc; cases hc)).1

theorem toDec_ne_nil (n : Nat) : toDec n ≠ [] := by
  have := (toDigitsCore_spec (n + 1) n [] (by omega) (by intro c hc; cases hc)).2.2
  intro h
  unfold toDec Nat.toDigits at h
  rw [h] at this
  simp at this

theorem toDec_val (n : Nat) : decVal 0 (toDec n) = n := by
  have := (toDigitsCore_spec (n + 1) n [] (by omega) (by intro c hc; cases hc)).2.1 0
  unfold toDec Nat.toDigits
  rw [this]
  simp [decVal]

theorem decVal_ge (ds : Str) : ∀ acc, acc ≤ decVal acc ds := by
  induction ds with
  | nil => intro acc; simp [decVal]
  | cons c ds ih =>
    intro acc
    have := ih (acc * 10 + (c.toNat - 48))
    simp only [decVal, List.foldl_cons] at this ⊢
    omega

theorem parseDigits_val (max : Nat) (ds : Str) : ∀ acc, AllDigits ds → decVal acc ds < max →
    parseDigits max acc ds = some (decVal acc ds) := by
  induction ds with
  | nil => intro acc _ _; rfl
  | cons c ds ih =>
    intro acc h hlt
    have hc := h c (by simp)
    have hge := decVal_ge ds (acc * 10 + (c.toNat - 48))
    have hdv : digitVal c = some (c.toNat - 48) := by
      unfold digitVal
      have h0 : '0'.toNat = 48 := rfl
      have h9 : '9'.toNat = 57 := rfl
      rw [h0, h9, if_pos hc]
    rw [parseDigits, hdv]
    simp only
    simp only [decVal, List.foldl_cons] at hlt hge ⊢
    rw [if_pos (by omega)]
    exact ih _ (fun c hc => h c (by simp [hc])) hlt

/-- `parse` of a digit string is its value. -/
theorem parseUInt_digits (max : Nat) (ds : Str) (h : AllDigits ds) (hne : ds ≠ []) (hlt : decVal 0 ds < max) :
    parseUInt max ds = some (decVal 0 ds) := by
  cases ds with
  | nil => exact absurd rfl hne
  | cons c ds =>
    have hc := h c (by simp)
    have hne' : c ≠ '+' := by
      rintro rfl
      have : '+'.toNat = 43 := rfl
      omega
    unfold parseUInt
    split
    · rename_i h'; cases h'
    · rename_i h'; cases h'; exact absurd rfl hne'
    · exact parseDigits_val max _ 0 h hlt

/-- Formatting a number and parsing it gives the number. -/
theorem parseUInt_toDec {n max : Nat} (h : n < max) : parseUInt max (toDec n) = some n := by
  rw [parseUInt_digits max _ (toDec_digits n) (toDec_ne_nil n) (by rw [toDec_val]; exact h), toDec_val]

theorem parseU32_toDec {n : Nat} (h : n < 2 ^ 32) : parseU32 (toDec n) = some n := parseUInt_toDec h

theorem toDec_inj {m n : Nat} (h : toDec m = toDec n) : m = n := by
  rw [← toDec_val m, h, toDec_val]

theorem not_mem_toDec (n : Nat) (c : Char) (h : c.toNat < 48 ∨ 57 < c.toNat) : c ∉ toDec n := by
  intro hc
  have := toDec_digits n c hc
  omega

/-- A result of `parse` is in range. -/
theorem parseDigits_lt (max : Nat) (ds : Str) : ∀ acc v, acc < max → parseDigits max acc ds = some v → v < max := by
  induction ds with
  | nil => intro acc v h hp; cases hp; exact h
  | cons c ds ih =>
    intro acc v h hp
    rw [parseDigits] at hp
    split at hp
    · cases hp
    · split at hp
      · rename_i h'; exact ih _ v h' hp
      · cases hp

theorem parseUInt_lt {max : Nat} (hm : 0 < max) {s : Str} {v : Nat} (h : parseUInt max s = some v) : v < max := by
  unfold parseUInt at h
  split at h
  · cases h
  · split at h
    · cases h
    · exact parseDigits_lt max _ 0 v hm h
  · exact parseDigits_lt max _ 0 v hm h

/-- A text that parses as a number has only digits after an optional sign. -/
theorem parseDigits_none_of_mem (max : Nat) {c : Char} (hc : digitVal c = none) (ds : Str) :
    ∀ acc, c ∈ ds → parseDigits max acc ds = none := by
  induction ds with
  | nil => intro acc h; cases h
  | cons d ds ih =>
    intro acc h
    rw [parseDigits]
    rcases List.mem_cons.mp h with rfl | h
    · rw [hc]
    · cases digitVal d with
      | none => rfl
      | some v =>
        simp only
        split
        · exact ih _ h
        · rfl

theorem parseUInt_none_of_mem (max : Nat) {c : Char} (hc : digitVal c = none) (hp : c ≠ '+') {s : Str} (h : c ∈ s) :
    parseUInt max s = none := by
  unfold parseUInt
  split
  · rfl
  · rename_i cs
    split
    · rfl
    · refine parseDigits_none_of_mem max hc cs 0 ?_
      rcases List.mem_cons.mp h with rfl | h
      · exact absurd rfl hp
      · exact h
  · exact parseDigits_none_of_mem max hc _ 0 h

theorem toDec_getLast (n : Nat) : (toDec n).getLast? ≠ some '\x00' := by
  intro h
  have := toDec_digits n _ (List.mem_of_getLast? h)
  have h0 : '\x00'.toNat = 0 := rfl
  omega

end Lofty
