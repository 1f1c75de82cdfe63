import Verif.Model.FlacMove
import Verif.Lemmas.FlacMove
/-! # C03: replacing a byte range of a file is a splice -/
namespace Lofty.Flac

/-- C03: for every file, every valid range, every replacement and every positive
copy-buffer size, the result is the bytes before the range, the replacement, and
the bytes after the range. -/
theorem replaceRange_splice (B : Nat) (hB : 0 < B) (f : Bytes) (start stop : Nat) (new : Bytes)
    (h1 : start ≤ stop) (h2 : stop ≤ f.length) :
    replaceRange B hB f start stop new = .ok (f.take start ++ new ++ f.drop stop) := by
  unfold replaceRange
  rw [if_neg (by omega), if_neg (by omega)]
  by_cases hgt : new.length > stop - start
  · simp only [hgt, if_true, extendStorage_eq]
    rw [shiftRight_eq B hB _ _ _ _ h2 (by simp)]
    simp only [Except.ok.injEq]
    have hd : ((f ++ List.replicate (new.length - (stop - start)) (0 : UInt8)).drop stop).take
        (f.length - stop) = f.drop stop := by
      rw [List.drop_append_of_le_length h2, List.take_append_of_le_length (by simp), List.take_of_length_le (by simp)]
    have hp : stop + (new.length - (stop - start)) = start + new.length := by omega
    rw [hd, hp, writeAt_writeAt_left (by simp; omega), writeAt_eq (by simp; omega)]
    have hn : (f ++ List.replicate (new.length - (stop - start)) (0 : UInt8)).drop
        (start + (new ++ f.drop stop).length) = [] := by
      apply List.drop_eq_nil_of_le; simp; omega
    rw [hn, List.take_append_of_le_length (by omega)]
    simp
  · simp only [hgt, if_false]
    by_cases hlt : new.length < stop - start
    · simp only [hlt, if_true]
      rw [shiftLeft_eq B hB _ _ _ _ h2 (Nat.le_refl _) (by omega)]
      have hd : (f.drop stop).take (f.length - stop) = f.drop stop := by
        rw [List.take_of_length_le (by simp)]
      have hp : stop - (stop - start - new.length) = start + new.length := by omega
      simp only [hd, hp, Except.ok.injEq, truncate]
      rw [writeAt_eq (p := start + new.length) (by omega)]
      have hlen : f.length - (stop - start - new.length)
          = (f.take (start + new.length) ++ f.drop stop).length := by simp; omega
      rw [hlen, List.take_left]
      rw [writeAt_eq (by simp; omega)]
      congr 1
      · congr 1
        rw [List.take_append_of_le_length (by simp; omega), List.take_take]
        congr 1; omega
      · rw [List.drop_append, List.drop_eq_nil_of_le (by simp; omega)]
        simp; omega
    · simp only [hlt, if_false]
      rw [writeAt_eq (by omega)]
      congr 3; omega

/-- C03: an invalid range is refused (and nothing is written). -/
theorem replaceRange_invalid (B : Nat) (hB : 0 < B) (f : Bytes) (start stop : Nat) (new : Bytes)
    (h : stop < start ∨ f.length < stop) :
    replaceRange B hB f start stop new = .error .sizeMismatch := by
  unfold replaceRange
  rcases h with h | h
  · rw [if_pos h]
  · by_cases h' : start > stop
    · rw [if_pos h']
    · rw [if_neg h', if_pos h]

example : (2 : Nat) ≤ 4 ∧ 4 ≤ ([1, 2, 3, 4, 5, 6] : Bytes).length := by decide
example : replaceRange 1 (by decide) [1, 2, 3, 4, 5, 6] 2 4 [9, 9, 9] = .ok [1, 2, 9, 9, 9, 5, 6] := by
  rw [replaceRange_splice _ _ _ _ _ _ (by decide) (by decide)]; rfl

end Lofty.Flac
