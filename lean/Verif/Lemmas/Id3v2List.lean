import Verif.Spec.Id3v2List
import Verif.Lemmas.Drain
namespace Lofty.Id3v2

theorem sameFrame_iff (a b : Frame) : sameFrame a b = true ↔ Same a b := by
  cases a with
  | chapter => cases b <;> simp [sameFrame, Same]
  | toc => cases b <;> simp [sameFrame, Same]
  | leaf fa x =>
    cases b with
    | chapter => simp [sameFrame, Same]
    | toc => simp [sameFrame, Same]
    | leaf fb y => cases x <;> cases y <;> simp [sameFrame, sameContent, Same]

theorem same_symm {a b : Frame} (h : Same a b) : Same b a := by
  cases a with
  | chapter => cases b <;> simp_all [Same]
  | toc => cases b <;> simp_all [Same]
  | leaf fa x =>
    cases b with
    | chapter => simp [Same] at h
    | toc => simp [Same] at h
    | leaf fb y => cases x <;> cases y <;> simp_all [Same]

theorem same_picType {a b : Frame} (h : Same a b) : picTypeOf a = none → picTypeOf b = none := by
  cases a with
  | chapter => cases b <;> simp_all [Same, picTypeOf]
  | toc => cases b <;> simp_all [Same, picTypeOf]
  | leaf fa x =>
    cases b with
    | chapter => simp [Same] at h
    | toc => simp [Same] at h
    | leaf fb y => cases x <;> cases y <;> simp_all [Same, picTypeOf]

theorem same_id {a b : Frame} (h : Same a b) : a.id = b.id := by
  cases a with
  | chapter => cases b <;> first | rfl | exact h.elim
  | toc => cases b <;> first | rfl | exact h.elim
  | leaf fa x =>
    cases b with
    | chapter => exact h.elim
    | toc => exact h.elim
    | leaf fb y =>
      cases x <;> cases y <;> first
        | exact h.elim
        | rfl
        | exact h
        | (obtain ⟨_, h2⟩ := h; simp [Frame.id, h2])

theorem same_join {a b c : Frame} (h1 : Same a c) (h2 : Same b c) : Same a b := by
  cases c with
  | chapter =>
    cases a <;> first | exact h1.elim | skip
    cases b <;> first | exact h2.elim | skip
    exact Eq.trans h1 (Eq.symm h2)
  | toc =>
    cases a <;> first | exact h1.elim | skip
    cases b <;> first | exact h2.elim | skip
    exact Eq.trans h1 (Eq.symm h2)
  | leaf fc z =>
    cases a with
    | chapter => exact h1.elim
    | toc => exact h1.elim
    | leaf fa x =>
      cases b with
      | chapter => exact h2.elim
      | toc => exact h2.elim
      | leaf fb y =>
        cases z <;> cases x <;> first
          | exact h1.elim
          | (cases y <;> first
              | exact h2.elim
              | exact Eq.trans h1 (Eq.symm h2)
              | exact ⟨h1.1.trans h2.1.symm, h1.2.trans h2.2.symm⟩)

theorem takeFirst_cases (p : Frame → Bool) (l : List Frame) :
    ((∀ g ∈ l, p g = false) ∧ takeFirst p l = (none, l))
    ∨ ∃ a g b, l = a ++ g :: b ∧ (∀ x ∈ a, p x = false) ∧ p g = true ∧ takeFirst p l = (some g, a ++ b) := by
  induction l with
  | nil => left; simp [takeFirst]
  | cons f l ih =>
    by_cases hf : p f = true
    · right; exact ⟨[], f, l, rfl, by simp, hf, by simp [takeFirst, hf]⟩
    · have hf' : p f = false := by simpa using hf
      rcases ih with ⟨h1, h2⟩ | ⟨a, g, b, h1, h2, h3, h4⟩
      · left
        refine ⟨?_, by simp [takeFirst, hf', h2]⟩
        intro g hg
        rcases List.mem_cons.mp hg with rfl | hg
        · exact hf'
        · exact h1 g hg
      · right
        refine ⟨f :: a, g, b, by simp [h1], ?_, h3, by simp [takeFirst, hf', h4]⟩
        intro x hx
        rcases List.mem_cons.mp hx with rfl | hx
        · exact hf'
        · exact h2 x hx

theorem takeFirst_sublist (p : Frame → Bool) (l : List Frame) : (takeFirst p l).2.Sublist l := by
  rcases takeFirst_cases p l with ⟨_, h⟩ | ⟨a, g, b, h1, _, _, h⟩
  · rw [h]; exact List.Sublist.refl _
  · rw [h, h1]; simp

theorem onePerTag_eq : onePerTag = onceIds.map String.toList := rfl

theorem distinct_perm {l l' : List Frame} (h : l.Perm l') (hd : Distinct l) : Distinct l' := by
  refine (h.pairwise_iff ?_).mp hd
  intro a b hab hb hs
  have := same_symm hs
  exact hab (same_picType hs hb) this

theorem distinct_snoc {l : List Frame} {f : Frame} (hd : Distinct l) (h : ∀ g ∈ l, picTypeOf g = none → ¬ Same g f) :
    Distinct (l ++ [f]) := by
  rw [Distinct, List.pairwise_append]
  refine ⟨hd, by simp, ?_⟩
  intro a ha b hb
  rw [List.mem_singleton.mp hb]
  exact h a ha

theorem once_sublist {l l' : List Frame} (h : l'.Sublist l) (ho : OncePerTag l) : OncePerTag l' :=
  fun id hid => Nat.le_trans (h.filter _).length_le (ho id hid)

theorem once_perm {l l' : List Frame} (h : l'.Perm l) (ho : OncePerTag l) : OncePerTag l' :=
  fun id hid => (h.filter (fun f => decide (f.id = id))).length_eq ▸ ho id hid

theorem once_snoc {l : List Frame} {f : Frame} (ho : OncePerTag l) (h : f.id.asStr ∉ onceIds.map String.toList ∨ ∀ g ∈ l, g.id ≠ f.id) :
    OncePerTag (l ++ [f]) := by
  intro id hid
  rw [List.filter_append, List.length_append]
  by_cases hf : f.id = id
  · rcases h with h | h
    · exact absurd (hf ▸ hid) h
    · have : l.filter (fun g => decide (g.id = id)) = [] := by
        apply List.filter_eq_nil_iff.mpr
        intro g hg
        simpa [← hf] using h g hg
      rw [this]; simp [hf]
  · have := ho id hid
    simp [hf]; simpa using this

end Lofty.Id3v2
