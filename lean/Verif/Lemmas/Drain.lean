import Verif.Model.Drain
/-! Helper lemmas for the swap-based drain. -/
namespace Lofty

theorem swap_self {α} (l : List α) (a : Nat) : swap l a a = l := by
  unfold swap
  split
  · rename_i x y hx hy
    rw [hx] at hy
    cases hy
    simp only [List.set_set]
    apply List.ext_getElem?
    intro i
    rw [List.getElem?_set]
    split
    · rename_i h; subst h
      split
      · exact hx.symm
      · rename_i h'; rw [List.getElem?_eq_none (by omega)]
    · rfl
  · rfl

theorem swap_parts {α} (m r t : List α) (y x : α) :
    swap (m ++ y :: r ++ x :: t) m.length (m.length + 1 + r.length) = m ++ x :: r ++ y :: t := by
  have h1 : (m ++ y :: r ++ x :: t)[m.length]? = some y := by simp
  have h2 : (m ++ y :: r ++ x :: t)[m.length + 1 + r.length]? = some x := by
    rw [List.getElem?_append_right (by simp; omega)]
    have : m.length + 1 + r.length - (m ++ y :: r).length = 0 := by simp; omega
    rw [this]; rfl
  unfold swap
  rw [h1, h2]
  simp only
  have e1 : (m ++ y :: r ++ x :: t).set m.length x = m ++ x :: r ++ x :: t := by
    rw [List.append_assoc, List.set_append_right _ _ (Nat.le_refl _)]
    simp
  rw [e1, List.set_append_right _ _ (by simp; omega)]
  have : m.length + 1 + r.length - (m ++ x :: r).length = 0 := by simp; omega
  rw [this]; rfl

theorem drainLoop_spec {α} (p : α → Bool) (todo : List α) : ∀ (m r : List α),
    (∀ x ∈ m, p x = true) → (∀ x ∈ r, p x = false) →
    ∃ r', drainLoop p todo.length (m.length + r.length) m.length (m ++ r ++ todo)
        = (m ++ todo.filter p ++ r', m.length + (todo.filter p).length) ∧
      r'.Perm (r ++ todo.filter (fun x => !p x)) ∧ (todo.filter p = [] → r' = r ++ todo) := by
  induction todo with
  | nil => intro m r hm hr; exact ⟨r, by simp [drainLoop], by simp, by simp⟩
  | cons x todo ih =>
    intro m r hm hr
    have hx : (m ++ r ++ x :: todo)[m.length + r.length]? = some x := by
      rw [List.getElem?_append_right (by simp)]
      simp
    rw [List.length_cons, drainLoop, hx]
    simp only
    by_cases hp : p x = true
    · rw [if_pos hp]
      -- after the swap: m ++ [x] ++ r1 ++ todo with r1 a rotation of r
      obtain ⟨r1, hsw, hperm, hlen⟩ : ∃ r1, swap (m ++ r ++ x :: todo) m.length (m.length + r.length)
          = (m ++ [x]) ++ r1 ++ todo ∧ r1.Perm r ∧ r1.length = r.length := by
        cases r with
        | nil => exact ⟨[], by simp [swap_self], List.Perm.refl _, rfl⟩
        | cons y r =>
          refine ⟨r ++ [y], ?_, List.perm_append_comm, by simp⟩
          have := swap_parts m r todo y x
          rw [List.length_cons, show m.length + (r.length + 1) = m.length + 1 + r.length by omega, this]
          simp
      have hm' : ∀ z ∈ m ++ [x], p z = true := by
        intro z hz
        rcases List.mem_append.mp hz with h | h
        · exact hm z h
        · simp at h; rw [h]; exact hp
      have hr' : ∀ z ∈ r1, p z = false := fun z hz => hr z (hperm.mem_iff.mp hz)
      obtain ⟨r', h1, h2, _⟩ := ih (m ++ [x]) r1 hm' hr'
      refine ⟨r', ?_, ?_, by simp [hp]⟩
      · rw [hsw]
        simp only [List.length_append, List.length_cons, List.length_nil, hlen] at h1
        rw [show m.length + r.length + 1 = m.length + (0 + 1) + r.length by omega,
          show m.length + 1 = m.length + (0 + 1) by omega, h1]
        rw [List.filter_cons_of_pos hp]
        simp
        omega
      · rw [List.filter_cons_of_neg (by simp [hp])]
        exact h2.trans (List.Perm.append_right _ hperm)
    · rw [if_neg hp]
      have hr' : ∀ z ∈ r ++ [x], p z = false := by
        intro z hz
        rcases List.mem_append.mp hz with h | h
        · exact hr z h
        · simp at h; rw [h]; simpa using hp
      obtain ⟨r', h1, h2, h3⟩ := ih m (r ++ [x]) hm hr'
      refine ⟨r', ?_, ?_, ?_⟩
      · rw [List.filter_cons_of_neg hp]
        simp only [List.length_append, List.length_cons, List.length_nil, List.append_assoc,
          List.cons_append, List.nil_append] at h1 ⊢
        rw [show m.length + r.length + 1 = m.length + (r.length + (0 + 1)) by omega]
        exact h1
      · rw [List.filter_cons_of_pos (by simp [hp])]
        simpa using h2
      · intro h
        rw [List.filter_cons_of_neg hp] at h
        simpa using h3 h

/-- The drained elements are the matches in order; what is left are the other elements,
in some order; nothing moves when nothing matches. -/
theorem drainFilter_spec {α} (p : α → Bool) (l : List α) :
    (drainFilter p l).1 = l.filter p ∧ (drainFilter p l).2.Perm (l.filter fun x => !p x) ∧
      (l.filter p = [] → (drainFilter p l).2 = l) := by
  obtain ⟨r', h1, h2, h3⟩ := drainLoop_spec p l [] [] (by simp) (by simp)
  simp only [List.length_nil, List.nil_append, Nat.zero_add] at h1 h2 h3
  unfold drainFilter
  rw [h1]
  refine ⟨by simp, by simpa using h2, ?_⟩
  intro h
  simp only [List.drop_left]
  exact h3 h

end Lofty
