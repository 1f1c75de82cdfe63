import Verif.Model.Bytes
/-! Helper lemmas about bytes and fixed-width integers. -/
namespace Lofty

@[simp] theorem leBytes_length (k n : Nat) : (leBytes k n).length = k := by
  induction k generalizing n with
  | zero => rfl
  | succ k ih => simp [leBytes, ih]

@[simp] theorem beBytes_length (k n : Nat) : (beBytes k n).length = k := by
  simp [beBytes]

theorem fromLE_leBytes (k n : Nat) : fromLE (leBytes k n) = n % 256 ^ k := by
  induction k generalizing n with
  | zero => simp [leBytes, fromLE, Nat.mod_one]
  | succ k ih =>
    simp only [leBytes, fromLE, ih]
    rw [Nat.pow_succ, Nat.mul_comm (256 ^ k), Nat.mod_mul]
    simp

theorem fromLE_leBytes_of_lt {k n : Nat} (h : n < 256 ^ k) : fromLE (leBytes k n) = n := by
  rw [fromLE_leBytes, Nat.mod_eq_of_lt h]

theorem fromBE_beBytes (k n : Nat) : fromBE (beBytes k n) = n % 256 ^ k := by
  simp [fromBE, beBytes, fromLE_leBytes]

theorem fromBE_beBytes_of_lt {k n : Nat} (h : n < 256 ^ k) : fromBE (beBytes k n) = n := by
  rw [fromBE_beBytes, Nat.mod_eq_of_lt h]

theorem fromLE_lt (bs : Bytes) : fromLE bs < 256 ^ bs.length := by
  induction bs with
  | nil => simp [fromLE]
  | cons b bs ih =>
    have := b.toNat_lt
    simp only [fromLE, List.length_cons, Nat.pow_succ]
    omega

theorem fromBE_lt (bs : Bytes) : fromBE bs < 256 ^ bs.length := by
  have := fromLE_lt bs.reverse
  simpa [fromBE] using this

theorem leBytes_fromLE (bs : Bytes) : leBytes bs.length (fromLE bs) = bs := by
  induction bs with
  | nil => rfl
  | cons b bs ih =>
    have hb := b.toNat_lt
    simp only [fromLE, List.length_cons, leBytes]
    congr 1
    · apply UInt8.toNat_inj.mp
      simp
    · rw [show (b.toNat + 256 * fromLE bs) / 256 = fromLE bs by omega, ih]

theorem beBytes_fromBE (bs : Bytes) : beBytes bs.length (fromBE bs) = bs := by
  have := leBytes_fromLE bs.reverse
  simp only [List.length_reverse] at this
  simp [beBytes, fromBE, this]

theorem readN_append {n : Nat} (a r : Bytes) (h : a.length = n) :
    readN n (a ++ r) = .ok (a, r) := by
  subst h
  simp [readN]

theorem readN_le {n : Nat} {r : Bytes} (h : n ≤ r.length) :
    readN n r = .ok (r.take n, r.drop n) := by
  simp [readN, h]

theorem readN_gt {n : Nat} {r : Bytes} (h : r.length < n) : readN n r = .error .eof := by
  simp [readN, Nat.not_le.mpr h]

theorem readN_ok {n : Nat} {r a r' : Bytes} (h : readN n r = .ok (a, r')) :
    r = a ++ r' ∧ a.length = n := by
  unfold readN at h
  split at h
  · simp only [Except.ok.injEq, Prod.mk.injEq] at h
    obtain ⟨rfl, rfl⟩ := h
    simp; omega
  · cases h

@[simp] theorem readU8_cons (b : UInt8) (r : Bytes) : readU8 (b :: r) = .ok (b, r) := rfl

theorem readLE_append {k n : Nat} (r : Bytes) (h : n < 256 ^ k) :
    readLE k (leBytes k n ++ r) = .ok (n, r) := by
  simp [readLE, readN_append _ _ (leBytes_length k n), fromLE_leBytes_of_lt h]

theorem readBE_append {k n : Nat} (r : Bytes) (h : n < 256 ^ k) :
    readBE k (beBytes k n ++ r) = .ok (n, r) := by
  simp [readBE, readN_append _ _ (beBytes_length k n), fromBE_beBytes_of_lt h]

theorem readLE_ok {k : Nat} {r r' : Bytes} {n : Nat} (h : readLE k r = .ok (n, r')) :
    ∃ a, r = a ++ r' ∧ a.length = k ∧ n = fromLE a := by
  unfold readLE at h
  split at h
  · next b r1 hb =>
    simp only [Except.ok.injEq, Prod.mk.injEq] at h
    obtain ⟨rfl, rfl⟩ := h
    exact ⟨b, (readN_ok hb).1, (readN_ok hb).2, rfl⟩
  · cases h

theorem readBE_ok {k : Nat} {r r' : Bytes} {n : Nat} (h : readBE k r = .ok (n, r')) :
    ∃ a, r = a ++ r' ∧ a.length = k ∧ n = fromBE a := by
  unfold readBE at h
  split at h
  · next b r1 hb =>
    simp only [Except.ok.injEq, Prod.mk.injEq] at h
    obtain ⟨rfl, rfl⟩ := h
    exact ⟨b, (readN_ok hb).1, (readN_ok hb).2, rfl⟩
  · cases h

@[simp] theorem ok_bind {ε α β} (a : α) (f : α → Except ε β) : (Except.ok a >>= f) = f a := rfl

@[simp] theorem error_bind {ε α β} (e : ε) (f : α → Except ε β) :
    ((Except.error e : Except ε α) >>= f) = .error e := rfl

theorem bind_ok {ε α β} {x : Except ε α} {f : α → Except ε β} {b : β} (h : (x >>= f) = .ok b) :
    ∃ a, x = .ok a ∧ f a = .ok b := by
  cases x with
  | error e => cases h
  | ok a => exact ⟨a, rfl, h⟩

theorem readU8_ok {r r' : Bytes} {b : UInt8} (h : readU8 r = .ok (b, r')) : r = b :: r' := by
  cases r with
  | nil => cases h
  | cons x xs => cases h; rfl

end Lofty
