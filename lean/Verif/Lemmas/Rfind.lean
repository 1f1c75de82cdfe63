import Verif.Model.Rfind
import Verif.Spec.Rfind
/-! Helper lemmas for C48. -/
namespace Lofty.Rfind

theorem find?_reverse_range_some {n i : Nat} {p : Nat → Bool}
    (h : (List.range n).reverse.find? p = some i) :
    i < n ∧ p i = true ∧ ∀ j, j < n → p j = true → j ≤ i := by
  induction n with
  | zero => simp at h
  | succ n ih =>
    rw [List.range_succ, List.reverse_append] at h
    simp only [List.reverse_cons, List.reverse_nil, List.nil_append, List.singleton_append,
      List.find?_cons] at h
    split at h
    · rename_i hp
      cases h
      exact ⟨by omega, hp, fun j hj _ => by omega⟩
    · rename_i hp
      obtain ⟨h1, h2, h3⟩ := ih h
      refine ⟨by omega, h2, fun j hj hpj => ?_⟩
      rcases Nat.lt_succ_iff_lt_or_eq.mp hj with hj | hj
      · exact h3 j hj hpj
      · subst hj; simp [hp] at hpj

theorem find?_reverse_range_none {n : Nat} {p : Nat → Bool}
    (h : (List.range n).reverse.find? p = none) (j : Nat) (hj : j < n) : p j = false := by
  rw [List.find?_eq_none] at h
  simpa using h j (by simpa using hj)

/-- What the window at `rs` of size `n` says about the file. -/
theorem window_iff (f pat : Bytes) (rs n i : Nat) (hi : i + pat.length ≤ n) :
    ((((f.drop rs).take n).drop i).take pat.length = pat) ↔
      ((f.drop (rs + i)).take pat.length = pat) := by
  rw [List.drop_take, List.take_take, List.drop_drop, Nat.min_eq_left (by omega)]

theorem loop_spec (f pat : Bytes) (B lo cur pos hi : Nat) (hlen : cur ≤ f.length)
    (hp : 0 < pat.length) (hB : pat.length ≤ B) (hch : cur ≤ hi)
    (inv : ∀ j, OccursAt f pat lo hi j → j + pat.length ≤ cur) :
    (∃ i, LastOccurrence f pat lo hi i ∧ loop f pat B lo cur pos = .ok (true, i)) ∨
    ((∀ i, ¬ OccursAt f pat lo hi i) ∧ ∃ p, loop f pat B lo cur pos = .ok (false, p)) := by
  fun_induction loop f pat B lo cur pos with
  | case1 cur pos h readSize readStart e he =>
    simp only [readAt] at he
    rw [if_pos (by omega)] at he
    cases he
  | case2 cur pos h readSize readStart window hw off hoff =>
    left
    have hwe : window = (f.drop readStart).take readSize := by
      simp only [readAt] at hw
      rw [if_pos (by omega)] at hw
      exact (Except.ok.inj hw).symm
    have hwl : window.length = readSize := by rw [hwe]; simp; omega
    obtain ⟨h1, h2, h3⟩ := find?_reverse_range_some hoff
    rw [hwl] at h1 h3
    refine ⟨readStart + off, ⟨⟨by omega, by omega, ?_⟩, ?_⟩, rfl⟩
    · have h2' : (window.drop off).take pat.length = pat := by simpa using h2
      rw [hwe] at h2'
      exact (window_iff f pat readStart readSize off (by omega)).mp h2'
    · intro j hj
      have hcur := inv j hj
      by_cases hjr : j < readStart
      · omega
      · have := h3 (j - readStart) (by omega) (by
          rw [hwe]
          have := (window_iff f pat readStart readSize (j - readStart) (by omega)).mpr (by
            rw [show readStart + (j - readStart) = j by omega]; exact hj.2.2)
          simpa using this)
        omega
  | case3 cur pos h readSize readStart window hw hoff ih =>
    have hwe : window = (f.drop readStart).take readSize := by
      simp only [readAt] at hw
      rw [if_pos (by omega)] at hw
      exact (Except.ok.inj hw).symm
    have hwl : window.length = readSize := by rw [hwe]; simp; omega
    apply ih (by omega) (by omega)
    intro j hj
    have hcur := inv j hj
    have hlo := hj.1
    have hjr : j < readStart := by
      apply Nat.lt_of_not_le
      intro hjr
      have hno := find?_reverse_range_none hoff (j - readStart) (by rw [hwl]; omega)
      rw [hwe] at hno
      have := (window_iff f pat readStart readSize (j - readStart) (by omega)).mpr (by
            rw [show readStart + (j - readStart) = j by omega]; exact hj.2.2)
      simp [this] at hno
    omega
  | case4 cur pos h =>
    right
    refine ⟨fun i hi => ?_, pos, rfl⟩
    have := inv i hi
    have := hi.1
    omega

end Lofty.Rfind
