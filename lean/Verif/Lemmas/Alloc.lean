import Verif.Model.Alloc
/-!
# Lemmas about buffers
-/
namespace Lofty.Alloc
variable {α : Type}

theorem take_set_succ {l : List (Option α)} {i : Nat} (h : i < l.length) (x : α) :
    (l.set i (some x)).take (i + 1) = l.take i ++ [some x] := by
  induction l generalizing i with
  | nil => simp at h
  | cons a l ih =>
    cases i with
    | zero => simp
    | succ i =>
      simp only [List.length_cons] at h
      simp [ih (by omega : i < l.length)]

/-- The loop fills the vector with clones, or one of the clones panics. -/
theorem fill_spec (w : World α) (block n : Nat) : ∀ (d fuel current k : Nat) (b : Buf α), current + d = n → d ≤ fuel →
    n ≤ b.cells.length → block = b.block → ((b.cells.take current).all Option.isSome) = true →
    (∃ j, k ≤ j ∧ j < k + d ∧ w.clone j = none ∧ fill w block n fuel current k b = .panic) ∨
    (∃ xs : List α, xs.length = d ∧ (∀ j (h : j < xs.length), w.clone (k + j) = some xs[j]) ∧
      ∃ b', fill w block n fuel current k b = .ok b' ∧ b'.len = n ∧ b'.cells.length = b.cells.length ∧
        b'.cells.take n = b.cells.take current ++ xs.map some) := by
  intro d
  induction d with
  | zero =>
    intro fuel current k b hd hf hn hb hi
    obtain rfl : current = n := by omega
    right
    refine ⟨[], rfl, by intro j h; simp at h, { b with len := current }, ?_, rfl, rfl, by simp⟩
    unfold fill
    rw [if_pos rfl]
    unfold setLen
    rw [if_pos ⟨hn, hi⟩]
  | succ d ih =>
    intro fuel current k b hd hf hn hb hi
    have hc : current < b.cells.length := by omega
    obtain ⟨fuel, rfl⟩ : ∃ m, fuel = m + 1 := ⟨fuel - 1, by omega⟩
    cases hk : w.clone k with
    | none =>
      left
      refine ⟨k, Nat.le_refl _, by omega, hk, ?_⟩
      unfold fill
      rw [if_neg (by omega)]
      simp only [hk]
    | some x =>
      have step : fill w block n (fuel + 1) current k b = fill w block n fuel (current + 1) (k + 1) { b with cells := b.cells.set current (some x) } := by
        conv => lhs; unfold fill
        rw [if_neg (by omega)]
        simp only [hk, writeCell, if_pos (show block = b.block ∧ current < b.cells.length from ⟨hb, hc⟩)]
      rw [step]
      have hi' : (((b.cells.set current (some x)).take (current + 1)).all Option.isSome) = true := by
        rw [take_set_succ hc, List.all_append, hi]; rfl
      rcases ih fuel (current + 1) (k + 1) { b with cells := b.cells.set current (some x) } (by omega) (by omega)
        (by simpa using hn) hb hi' with ⟨j, h1, h2, h3, h4⟩ | ⟨xs, h1, h2, b', h3, h4, h5, h6⟩
      · exact .inl ⟨j, by omega, by omega, h3, h4⟩
      · right
        refine ⟨x :: xs, by simp [h1], ?_, b', h3, h4, by simpa using h5, ?_⟩
        · intro j hj
          cases j with
          | zero => simpa using hk
          | succ j =>
            have := h2 j (by simpa using hj)
            rw [show k + (j + 1) = k + 1 + j by omega]
            simpa using this
        · rw [h6, take_set_succ hc]; simp

/-- The fuel of the loop does not decide. -/
theorem fill_fuel (w : World α) (block n : Nat) : ∀ (d fuel fuel' current k : Nat) (b : Buf α), b.cells.length - current ≤ d → d < fuel → d < fuel' →
    fill w block n fuel current k b = fill w block n fuel' current k b := by
  intro d
  induction d with
  | zero =>
    intro fuel fuel' current k b hd hf hf'
    obtain ⟨fuel, rfl⟩ : ∃ m, fuel = m + 1 := ⟨fuel - 1, by omega⟩
    obtain ⟨fuel', rfl⟩ : ∃ m, fuel' = m + 1 := ⟨fuel' - 1, by omega⟩
    unfold fill
    have hw : ∀ x, writeCell b block current x = none := by
      intro x; unfold writeCell; rw [if_neg (by omega)]
    simp only [hw]
  | succ d ih =>
    intro fuel fuel' current k b hd hf hf'
    obtain ⟨fuel, rfl⟩ : ∃ m, fuel = m + 1 := ⟨fuel - 1, by omega⟩
    obtain ⟨fuel', rfl⟩ : ∃ m, fuel' = m + 1 := ⟨fuel' - 1, by omega⟩
    unfold fill
    by_cases hc : current = n
    · rw [if_pos hc, if_pos hc]
    · rw [if_neg hc, if_neg hc]
      simp only
      cases w.clone k with
      | none => rfl
      | some x =>
        simp only
        cases hw : writeCell b block current x with
        | none => rfl
        | some b' =>
          simp only
          refine ih fuel fuel' _ _ b' ?_ (by omega) (by omega)
          unfold writeCell at hw
          split at hw
          · obtain rfl := Option.some.inj hw
            simp only [List.length_set]
            omega
          · cases hw

theorem reserve_ok {w : World α} {b b' : Buf α} {n : Nat} (hl : b.len ≤ b.cells.length) (h : reserve w b n = .ok b') :
    b'.len = b.len ∧ b.len + n ≤ b'.cells.length ∧ b'.cells.take b.len = b.cells.take b.len := by
  unfold reserve at h
  split at h
  · obtain rfl := (Out.ok.injEq _ _).mp h
    exact ⟨rfl, by assumption, rfl⟩
  · split at h
    · cases h
    · split at h
      · cases h
      · obtain rfl := (Out.ok.injEq _ _).mp h
        refine ⟨rfl, ?_, ?_⟩
        · simp only [List.length_append, List.length_take, List.length_replicate]; omega
        · rw [List.take_append_of_le_length (by simp; omega), List.take_take, Nat.min_self]

theorem reserve_cases (w : World α) (b : Buf α) (n : Nat) : (∃ b', reserve w b n = .ok b') ∨ reserve w b n = .err .reserve := by
  unfold reserve
  split
  · exact .inl ⟨_, rfl⟩
  · split
    · exact .inr rfl
    · split
      · exact .inr rfl
      · exact .inl ⟨_, rfl⟩

end Lofty.Alloc
