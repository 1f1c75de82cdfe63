import Verif.Model.Resolvers
/-!
# Lemmas on custom resolvers
-/
namespace Lofty.Resolvers
open Item FileType

theorem lookup_world (n : Str) (w : World) : (lookup n w).2.entries = w.entries ∧ (w.poisoned = true → (lookup n w).2.poisoned = true) := by
  unfold lookup
  split
  · exact ⟨rfl, id⟩
  · split
    · exact ⟨rfl, id⟩
    · exact ⟨rfl, fun _ => rfl⟩

/-- What a call does to the registry: nothing, or one entry more. -/
theorem step_entries (c : Nat × Op) (w : World) : (step c w).2.entries = w.entries ∨
    ∃ n r, c.2 = .register n r ∧ (∀ e ∈ w.entries, e.1 ≠ n) ∧ w.poisoned = false ∧ (step c w).2.entries = w.entries ++ [(n, r)] := by
  obtain ⟨th, op⟩ := c
  cases op with
  | setUse u => exact .inl rfl
  | register n r =>
    simp only [step, register]
    split
    · exact .inl rfl
    · split
      · exact .inl rfl
      · rename_i h1 h2
        refine .inr ⟨n, r, rfl, ?_, by simpa using h1, rfl⟩
        intro e he hn
        exact h2 (List.any_eq_true.mpr ⟨e, he, by simpa using hn⟩)
  | guess o f s m =>
    left
    simp only [step, guess]
    split
    · rfl
    · split <;> rfl
  | primary t =>
    left
    cases t with
    | known t => rfl
    | custom c => exact (lookup_world c w).1
  | support t tag =>
    left
    cases t with
    | known t => rfl
    | custom c => exact (lookup_world c w).1
  | read t =>
    left
    cases t with
    | none => rfl
    | some t =>
      cases t with
      | known t => rfl
      | custom c =>
        simp only [step, reader]
        split
        · rfl
        · exact (lookup_world c w).1

theorem step_poisoned (c : Nat × Op) (w : World) (h : w.poisoned = true) : (step c w).2.poisoned = true := by
  obtain ⟨th, op⟩ := c
  cases op with
  | setUse u => exact h
  | register n r => simp only [step, register, h, if_true]
  | guess o f s m => simp only [step, guess, h, Bool.or_true, if_true]
  | primary t =>
    cases t with
    | known t => exact h
    | custom c => exact (lookup_world c w).2 h
  | support t tag =>
    cases t with
    | known t => exact h
    | custom c => exact (lookup_world c w).2 h
  | read t =>
    cases t with
    | none => exact h
    | some t =>
      cases t with
      | known t => exact h
      | custom c =>
        simp only [step, reader]
        split
        · exact h
        · exact (lookup_world c w).2 h

/-- Only a panic poisons the registry. -/
theorem step_quiet (c : Nat × Op) (w : World) (h : w.poisoned = false) (hq : (step c w).1 = false) : (step c w).2.poisoned = false := by
  have hl : ∀ n, (lookup n w).2.poisoned = true → (lookup n w).1 = .error .panic := by
    intro n hn
    unfold lookup at hn ⊢
    rw [h] at hn ⊢
    simp only [Bool.false_eq_true, if_false] at hn ⊢
    split at hn
    · rw [h] at hn; cases hn
    · rfl
  obtain ⟨th, op⟩ := c
  have key : ∀ {α : Type} (n : Str) (k : Resolver → α), isPanic ((lookup n w).1.map k) = false → (lookup n w).2.poisoned = false := by
    intro α n k hk
    cases hp : (lookup n w).2.poisoned with
    | false => rfl
    | true => rw [hl n hp] at hk; cases hk
  cases op with
  | setUse u => exact h
  | register n r =>
    simp only [step, register, h, Bool.false_eq_true, if_false] at hq ⊢
    split
    · rename_i hx; rw [if_pos hx] at hq; cases hq
    · rfl
  | guess o f s m =>
    simp only [step, guess, h, Bool.or_false] at hq ⊢
    split
    · exact h
    · rename_i hx
      rw [if_neg hx] at hq
      cases hg : guessLoop ((f.drop s).take 36) (o w.entries) with
      | error e =>
        rw [hg] at hq
        have he : e = .panic := by
          clear hq hx
          generalize o w.entries = l at hg
          induction l with
          | nil => cases hg
          | cons x l ih =>
            unfold guessLoop at hg
            split at hg
            · cases hg; rfl
            · cases hg
            · exact ih hg
        rw [he] at hq; cases hq
      | ok t => cases t <;> exact h
  | primary t =>
    cases t with
    | known t => exact h
    | custom c => exact key c _ hq
  | support t tag =>
    cases t with
    | known t => exact h
    | custom c => exact key c _ hq
  | read t =>
    cases t with
    | none => exact h
    | some t =>
      cases t with
      | known t => exact h
      | custom c =>
        simp only [step, reader] at hq ⊢
        split
        · exact h
        · rename_i hx
          rw [if_neg hx] at hq
          exact key c _ hq

theorem guessLoop_none {buf : Bytes} : ∀ {l : List (Str × Resolver)}, (∀ e ∈ l, e.2.guess buf = .ok none) → guessLoop buf l = .ok none
  | [], _ => rfl
  | e :: l, h => by
    unfold guessLoop
    rw [h e (by simp)]
    exact guessLoop_none fun x hx => h x (by simp [hx])

theorem guessLoop_some {buf : Bytes} {t : AnyType} : ∀ {l : List (Str × Resolver)}, (∀ e ∈ l, e.2.guess buf = .ok none ∨ e.2.guess buf = .ok (some t)) →
    (∃ e ∈ l, e.2.guess buf = .ok (some t)) → guessLoop buf l = .ok (some t)
  | e :: l, h, hx => by
    unfold guessLoop
    rcases h e (by simp) with h1 | h1
    · rw [h1]
      refine guessLoop_some (fun x hx => h x (by simp [hx])) ?_
      obtain ⟨x, hm, hg⟩ := hx
      rcases List.mem_cons.mp hm with rfl | hm
      · rw [h1] at hg; cases hg
      · exact ⟨x, hm, hg⟩
    · rw [h1]

end Lofty.Resolvers
