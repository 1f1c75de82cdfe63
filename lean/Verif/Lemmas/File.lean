import Verif.Model.File
import Verif.Lemmas.Bytes
/-! Helper lemmas about random-access files. -/
namespace Lofty

theorem writeAt_length {f w : Bytes} {p : Nat} (h : p + w.length ≤ f.length) :
    (writeAt f p w).length = f.length := by
  simp [writeAt]; omega

theorem writeAt_eq {f w : Bytes} {p : Nat} (h : p ≤ f.length) :
    writeAt f p w = f.take p ++ w ++ f.drop (p + w.length) := by
  simp [writeAt, Nat.sub_eq_zero_of_le h]

theorem writeAt_end (f w : Bytes) : writeAt f f.length w = f ++ w := by
  simp [writeAt]

@[simp] theorem writeAt_nil_of_le {f : Bytes} {p : Nat} (h : p ≤ f.length) :
    writeAt f p [] = f := by
  simp [writeAt_eq h]

theorem getElem?_writeAt {f w : Bytes} {p : Nat} (h : p ≤ f.length) (i : Nat) :
    (writeAt f p w)[i]? =
      if i < p then f[i]? else if i < p + w.length then w[i - p]? else f[i]? := by
  rw [writeAt_eq h]
  simp only [List.getElem?_append, List.length_take, List.length_append, Nat.min_eq_left h]
  by_cases h1 : i < p
  · have : i < p + w.length := by omega
    simp [h1, this]
  · by_cases h2 : i < p + w.length
    · simp [h1, h2]
    · simp [h1, h2, List.getElem?_drop]
      congr 1; omega

/-- Two adjacent writes, the earlier region last. -/
theorem writeAt_writeAt_left {f a b : Bytes} {p : Nat} (h : p + a.length + b.length ≤ f.length) :
    writeAt (writeAt f (p + a.length) b) p a = writeAt f p (a ++ b) := by
  apply List.ext_getElem?
  intro i
  have hl : (writeAt f (p + a.length) b).length = f.length := writeAt_length (by omega)
  rw [getElem?_writeAt (by omega), getElem?_writeAt (by omega), getElem?_writeAt (by omega)]
  simp only [List.length_append, List.getElem?_append]
  by_cases h1 : i < p
  · simp [h1]; omega
  · by_cases h2 : i < p + a.length
    · have : i < p + (a.length + b.length) := by omega
      have : i - p < a.length := by omega
      simp [*]
    · by_cases h3 : i < p + (a.length + b.length)
      · have h4 : i < p + a.length + b.length := by omega
        have h5 : ¬ i - p < a.length := by omega
        simp [h1, h2, h3, h4, h5]
        congr 1; omega
      · have h4 : ¬ i < p + a.length + b.length := by omega
        simp [h1, h2, h3, h4]

/-- Two adjacent writes, the earlier region first. -/
theorem writeAt_writeAt_right {f a b : Bytes} {p : Nat} (h : p + a.length + b.length ≤ f.length) :
    writeAt (writeAt f p a) (p + a.length) b = writeAt f p (a ++ b) := by
  apply List.ext_getElem?
  intro i
  have hl : (writeAt f p a).length = f.length := writeAt_length (by omega)
  rw [getElem?_writeAt (by omega), getElem?_writeAt (by omega), getElem?_writeAt (by omega)]
  simp only [List.length_append, List.getElem?_append]
  by_cases h1 : i < p
  · simp [h1]; omega
  · by_cases h2 : i < p + a.length
    · have : i < p + (a.length + b.length) := by omega
      have : i - p < a.length := by omega
      simp [*]
    · by_cases h3 : i < p + (a.length + b.length)
      · have h4 : i < p + a.length + b.length := by omega
        have h5 : ¬ i - p < a.length := by omega
        simp [h1, h2, h3, h4, h5]
        congr 1; omega
      · have h4 : ¬ i < p + a.length + b.length := by omega
        simp [h1, h2, h3, h4]

/-- A slice that does not meet a written region is unchanged. -/
theorem slice_writeAt_of_disjoint {f w : Bytes} {p s n : Nat} (hp : p ≤ f.length)
    (h : s + n ≤ p ∨ p + w.length ≤ s) :
    ((writeAt f p w).drop s).take n = (f.drop s).take n := by
  apply List.ext_getElem?
  intro i
  simp only [List.getElem?_take, List.getElem?_drop]
  split
  · rw [getElem?_writeAt hp]
    rcases h with h | h
    · rw [if_pos (by omega)]
    · rw [if_neg (by omega), if_neg (by omega)]
  · rfl

theorem readAt_append (a x r : Bytes) (n : Nat) (h : x.length = n) :
    readAt (a ++ (x ++ r)) a.length n = .ok x := by
  subst h
  unfold readAt
  rw [if_pos (by simp), List.drop_left, List.take_left]

theorem readAt_ok {f : Bytes} {p n : Nat} {x : Bytes} (h : readAt f p n = .ok x) :
    p + n ≤ f.length ∧ x.length = n ∧ f = f.take p ++ (x ++ f.drop (p + n)) := by
  unfold readAt at h
  split at h
  · cases h
    refine ⟨by omega, by simp; omega, ?_⟩
    rw [← List.drop_drop, List.take_append_drop, List.take_append_drop]
  · cases h

end Lofty
