import Verif.Lemmas.Bytes
/-! Helper lemmas: errors that reading does not give. -/
namespace Lofty

theorem bind_ne {α β : Type} {e : Err} {x : Except Err α} {g : α → Except Err β} (hx : x ≠ .error e) (hg : ∀ a, g a ≠ .error e) :
    (x >>= g) ≠ .error e := by
  cases x with
  | error y => rw [error_bind]; intro h; cases h; exact hx rfl
  | ok a => rw [ok_bind]; exact hg a

theorem readN_ne {e : Err} (he : e ≠ .eof) (n : Nat) (r : Bytes) : readN n r ≠ .error e := by
  unfold readN
  split
  · intro h; cases h
  · intro h; cases h; exact he rfl

theorem readU8_ne {e : Err} (he : e ≠ .eof) (r : Bytes) : readU8 r ≠ .error e := by
  cases r with
  | nil => intro h; cases h; exact he rfl
  | cons b r => intro h; cases h

theorem readBE_ne {e : Err} (he : e ≠ .eof) (n : Nat) (r : Bytes) : readBE n r ≠ .error e := by
  have := readN_ne he n r
  unfold readBE
  cases h : readN n r with
  | error y => rw [h] at this; intro hx; cases hx; exact this rfl
  | ok a => intro h; cases h

theorem readLE_ne {e : Err} (he : e ≠ .eof) (n : Nat) (r : Bytes) : readLE n r ≠ .error e := by
  have := readN_ne he n r
  unfold readLE
  cases h : readN n r with
  | error y => rw [h] at this; intro hx; cases hx; exact this rfl
  | ok a => intro h; cases h

end Lofty
