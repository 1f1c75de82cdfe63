import Verif.Model.Whole
import Verif.Lemmas.IffFiles
/-! # Lemmas for reading with and without tags and properties -/
namespace Lofty.Opened
open Item Lofty.Save Lofty.FileTags Lofty.Iff Lofty.IffFiles

/-! ## The options of the readers around the audio -/

theorem front_props (o : Opts) (b : Bool) (f : Bytes) : ∀ (n pos : Nat) (st : Front),
    front { o with readProps := b } f n pos st = front o f n pos st := by
  intro n
  induction n with
  | zero => intros; rfl
  | succ n ih =>
    intro pos st
    rw [front, front]
    simp only [ih]
    rfl

theorem aacFront_props (o : Opts) (b : Bool) (f : Bytes) : ∀ (n pos stream : Nat) (t : Option Id3Tag),
    aacFront { o with readProps := b } f n pos stream t = aacFront o f n pos stream t := by
  intro n
  induction n with
  | zero => intros; rfl
  | succ n ih =>
    intro pos stream t
    rw [aacFront, aacFront]
    simp only [ih]
    rfl

theorem macLoop_props (o : Opts) (b : Bool) (f h : Bytes) : ∀ (n pos stream : Nat) (t : Option Ape.Tag),
    macLoop { o with readProps := b } f h n pos stream t = macLoop o f h n pos stream t := by
  intro n
  induction n with
  | zero => intros; rfl
  | succ n ih =>
    intro pos stream t
    rw [macLoop, macLoop]
    simp only [ih]
    rfl

theorem readMac_props (o : Opts) (b : Bool) (f : Bytes) : readMac { o with readProps := b } f = readMac o f := by
  unfold readMac
  simp only [macLoop_props]
  rfl

/-! ## The loop over the chunks of IFF files -/

theorem readExact_skip {c c' : Chunks} {n : Nat} {b : Bytes} (h : c.readExact n = .ok (b, c')) : c'.skip = c.skip := by
  unfold Chunks.readExact at h
  split at h
  · rename_i hn
    obtain ⟨b', hb, h⟩ := bind_ok h
    cases h
    unfold Chunks.skip
    by_cases h1 : c.cr - n > 0
    · have h2 : c.cr > 0 := by omega
      have e1 : c.pos + n + (c.cr - n) = c.pos + c.cr := by omega
      have e2 : c.remaining - n - (c.cr - n) = c.remaining - c.cr := by omega
      simp only [h1, h2, if_true, e1, e2]
    · have e : n = c.cr := by omega
      subst e
      by_cases h2 : c.cr > 0
      · simp only [h2, if_true, Nat.sub_self]
        rfl
      · have : c.cr = 0 := by omega
        simp only [this, Nat.sub_self, Nat.lt_irrefl, if_false, gt_iff_lt, Nat.add_zero, Nat.sub_zero]
        cases c
        simp only at this
        subst this
        rfl
  · cases h

/-- Two bodies that read a chunk alike. -/
def Alike {α β : Type} (R : α → β → Prop) (f : Hdr → Chunks → α → Except Err (Chunks × α)) (g : Hdr → Chunks → β → Except Err (Chunks × β)) : Prop :=
  ∀ h c a b c1 a1, R a b → f h c a = .ok (c1, a1) → ∃ c2 b1, g h c b = .ok (c2, b1) ∧ c2.skip = c1.skip ∧ R a1 b1

theorem chunkLoop_alike {α β : Type} {R : α → β → Prop} {be strict : Bool} {f : Hdr → Chunks → α → Except Err (Chunks × α)}
    {g : Hdr → Chunks → β → Except Err (Chunks × β)} (h : Alike R f g) :
    ∀ (n : Nat) (c c' : Chunks) (a : α) (b : β) (x : α) (p : Nat), c'.skip = c.skip → R a b → chunkLoop be strict f n c a = .ok (x, p) →
      ∃ y, chunkLoop be strict g n c' b = .ok (y, p) ∧ R x y := by
  intro n
  induction n with
  | zero => intro c c' a b x p _ _ hl; cases hl
  | succ n ih =>
    intro c c' a b x p hc hR hl
    rw [chunkLoop] at hl ⊢
    have hnext : c'.next be strict = c.next be strict := by unfold Chunks.next; rw [hc]
    rw [hnext]
    obtain ⟨⟨hd, c1⟩, h1, hl⟩ := bind_ok hl
    rw [h1, ok_bind]
    simp only at hl ⊢
    cases hd with
    | none =>
      cases hl
      exact ⟨b, rfl, hR⟩
    | some hd =>
      simp only at hl ⊢
      obtain ⟨⟨c2, a1⟩, h2, hl⟩ := bind_ok hl
      obtain ⟨c3, b1, q1, q2, q3⟩ := h _ _ _ _ _ _ hR h2
      rw [q1, ok_bind]
      exact ih _ _ _ _ _ _ q2 q3 hl

end Lofty.Opened
