import Verif.Model.Id3v1
import Verif.Lemmas.File
import Verif.Lemmas.Text
import Verif.Lemmas.Ascii
/-! Helper lemmas for ID3v1. -/
namespace Lofty.Id3v1
open Text

/-- The character written for `c`. -/
def latinChar (c : Char) : Char := if c.toNat ≤ 255 then c else '?'

theorem latinChar_le (c : Char) : (latinChar c).toNat ≤ 255 := by
  unfold latinChar
  split
  · assumption
  · decide

theorem encodeFrom_ok {lossy : Bool} (s : Str) (i : Nat) (h : lossy = true ∨ ∀ c ∈ s, c.toNat ≤ 255) :
    latin1EncodeFrom lossy i s = .ok (s.map fun c => UInt8.ofNat (latinChar c).toNat) := by
  induction s generalizing i with
  | nil => rfl
  | cons c s ih =>
    have ih := ih (i + 1) (h.imp id fun h x hx => h x (by simp [hx]))
    rw [latin1EncodeFrom, ih]
    by_cases hc : c.toNat ≤ 255
    · rw [if_pos hc]; simp [latinChar, hc, Except.map]
    · rw [if_neg hc]
      rcases h with h | h
      · rw [if_pos h]; simp [latinChar, hc, Except.map]
      · exact absurd (h c (by simp)) hc

theorem encodeFrom_error {s : Str} (i : Nat) (h : ∃ c ∈ s, 255 < c.toNat) : ∃ e, latin1EncodeFrom false i s = .error e := by
  induction s generalizing i with
  | nil => obtain ⟨c, hc, _⟩ := h; cases hc
  | cons c s ih =>
    rw [latin1EncodeFrom]
    by_cases hc : c.toNat ≤ 255
    · rw [if_pos hc]
      obtain ⟨d, hd, h'⟩ := h
      rcases List.mem_cons.mp hd with rfl | hd
      · omega
      · obtain ⟨e, he⟩ := ih (i + 1) ⟨d, hd, h'⟩
        exact ⟨e, by rw [he]; rfl⟩
    · rw [if_neg hc]; exact ⟨i, rfl⟩

/-- The characters of a text that are stored in a field of `n` bytes. -/
def shown (n : Nat) (s : Str) : Str := ((s.take n).map latinChar).takeWhile (· ≠ '\x00')

/-- What a field of `n` bytes holds after writing `o`. -/
def field (n : Nat) (o : Option Str) : Option Str :=
  if shown n (o.getD []) = [] then none else some (shown n (o.getD []))

theorem ofNat_latin (c : Char) : (UInt8.ofNat (latinChar c).toNat = 0) ↔ latinChar c = '\x00' := by
  have h := latinChar_le c
  constructor
  · intro e
    have e' := congrArg UInt8.toNat e
    simp at e'
    have : (latinChar c).toNat = 0 := by omega
    have hh := Char.ofNat_toNat (latinChar c)
    rw [this] at hh
    exact hh.symm
  · intro e; rw [e]; rfl

theorem takeWhile_map_zero (s : Str) (k : Nat) :
    ((s.map fun c => UInt8.ofNat (latinChar c).toNat) ++ List.replicate k 0).takeWhile (· ≠ 0)
      = ((s.map latinChar).takeWhile (· ≠ '\x00')).map fun c => UInt8.ofNat c.toNat := by
  induction s with
  | nil => cases k <;> simp [List.replicate_succ]
  | cons c s ih =>
    by_cases h : latinChar c = '\x00'
    · simp [h, ofNat_latin c]
    · have h' : ¬ UInt8.ofNat (latinChar c).toNat = 0 := fun e => h ((ofNat_latin c).mp e)
      simp only [List.map_cons, List.cons_append]
      rw [List.takeWhile_cons_of_pos (by simpa using h'), List.takeWhile_cons_of_pos (by simpa using h), List.map_cons, ih]

theorem mem_takeWhile {α : Type} {p : α → Bool} {l : List α} {x : α} (h : x ∈ l.takeWhile p) : x ∈ l ∧ p x = true := by
  induction l with
  | nil => cases h
  | cons y l ih =>
    rw [List.takeWhile_cons] at h
    split at h
    · rename_i hy
      rcases List.mem_cons.mp h with rfl | h
      · exact ⟨by simp, hy⟩
      · exact ⟨by simp [(ih h).1], (ih h).2⟩
    · cases h

theorem takeWhile_all {α : Type} {p : α → Bool} {l : List α} (h : ∀ x ∈ l, p x = true) : l.takeWhile p = l := by
  induction l with
  | nil => rfl
  | cons y l ih => rw [List.takeWhile_cons_of_pos (h y (by simp)), ih (fun x hx => h x (by simp [hx]))]

theorem decodeText_field {s : Str} {o : Option Str} (n k : Nat) (hk : 0 < k ∨ s ≠ []) (s' : s = (o.getD []).take n) :
    decodeText ((s.map fun c => UInt8.ofNat (latinChar c).toNat) ++ List.replicate k 0) = field n o := by
  have htw := takeWhile_map_zero s k
  unfold decodeText field shown
  rw [← s', htw]
  by_cases hz : (s.map latinChar).takeWhile (· ≠ '\x00') = []
  · rw [if_pos hz, if_pos]
    cases s with
    | nil =>
      have : 0 < k := by rcases hk with h | h; exact h; exact absurd rfl h
      obtain ⟨m, rfl⟩ : ∃ m, k = m + 1 := ⟨k - 1, by omega⟩
      simp [List.replicate_succ]
    | cons c s =>
      simp only [List.map_cons, List.takeWhile_cons] at hz
      split at hz
      · cases hz
      · rename_i hne
        simp only [ne_eq, decide_eq_true_eq, Decidable.not_not] at hne
        simp [ofNat_latin, hne]
  · rw [if_neg hz, if_neg]
    · unfold latin1Decode
      rw [latin1_map_map _ (by
        intro c hc
        obtain ⟨d, _, rfl⟩ := List.mem_map.mp (mem_takeWhile hc).1
        exact latinChar_le d)]
      rw [trimEndNulls_eq]
      intro hl
      have := (mem_takeWhile (List.mem_of_getLast? hl)).2
      simp at this
    · cases s with
      | nil => simp at hz
      | cons c s =>
        simp only [List.map_cons, List.takeWhile_cons] at hz
        split at hz
        · rename_i hne
          simpa [ofNat_latin] using hne
        · simp at hz

end Lofty.Id3v1
