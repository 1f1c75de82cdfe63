import Verif.Lemmas.Whole
/-! # Lemmas for reading without tags -/
namespace Lofty.Opened
open Item Lofty.Save Lofty.FileTags Lofty.Iff Lofty.IffFiles

theorem find_noTags {f : Bytes} {r : Option (Id3v2.Header × Option Bytes)} {p : Nat} (h : Id3v2.find f 0 true none = .ok (r, p)) :
    Id3v2.find f 0 false none = .ok (r.map fun x => (x.1, none), p) := by
  unfold Id3v2.find at h ⊢
  simp only at h ⊢
  unfold Id3v2.findAt at h ⊢
  split at h
  · split at h
    · cases h
    · rename_i hp
      rw [if_neg hp]
      cases h
      rfl
  · rename_i hd q _
    simp only [if_true, Bool.false_eq_true, if_false] at h ⊢
    unfold Id3v2.need at h
    split at h
    · rename_i c q' hn
      split at hn
      · cases hn
        cases h
        rfl
      · cases hn
    · cases h

theorem find_some {f : Bytes} {x : Id3v2.Header × Option Bytes} {p : Nat} (h : Id3v2.find f 0 true none = .ok (some x, p)) : x.2.isSome := by
  unfold Id3v2.find at h
  simp only at h
  unfold Id3v2.findAt at h
  split at h
  · split at h <;> cases h
  · simp only [if_true] at h
    split at h
    · cases h; rfl
    · cases h

theorem v1_noTags {s : Bool} {f : Bytes} {found : Bool} {v : Option Id3v1.Tag} {q : Nat} (h : Id3v1.find s true f = .ok (found, v, q)) :
    Id3v1.find s false f = .ok (found, none, q) := by
  unfold Id3v1.find at h ⊢
  split at h
  · rename_i hl; rw [if_pos hl]; cases h; rfl
  rename_i hl
  rw [if_neg hl]
  obtain ⟨b, h1, h⟩ := bind_ok h
  rw [h1, ok_bind]
  split at h
  · rename_i ht; rw [if_pos ht]; cases h; rfl
  rename_i ht
  rw [if_neg ht]
  simp only [if_true, Bool.false_eq_true, if_false] at h ⊢
  obtain ⟨b', h2, h⟩ := bind_ok h
  obtain ⟨t, h3, h⟩ := bind_ok h
  cases h
  rfl

theorem ape_noTags {o : Opts} {f : Bytes} {pos : Nat} {b : Bool} {t : Option Ape.Tag} {hd : Option Ape.Header} {q : Nat}
    (h : readApe { o with readTags := true } f pos b = .ok (t, hd, q)) :
    ∃ q', readApe { o with readTags := false } f pos b = .ok (none, hd, q') ∧ (hd = none → q' = q) ∧ (hd.isSome = t.isSome) := by
  unfold readApe at h ⊢
  obtain ⟨p, h1, h⟩ := bind_ok h
  rw [h1, ok_bind]
  split at h
  · rename_i hp; rw [if_pos hp]; cases h; exact ⟨_, rfl, fun _ => rfl, rfl⟩
  rename_i hp
  rw [if_neg hp]
  obtain ⟨⟨hd', next⟩, h2, h⟩ := bind_ok h
  rw [h2, ok_bind]
  simp only [if_true, Bool.false_eq_true, if_false] at h ⊢
  obtain ⟨⟨t', stop⟩, h3, h⟩ := bind_ok h
  cases h
  exact ⟨_, rfl, nofun, rfl⟩

theorem tail_noTags {o : Opts} {f : Bytes} {t : Tail} (h : tail { o with readTags := true } f = .ok t) :
    ∃ t', tail { o with readTags := false } f = .ok t' ∧ t'.hasV1 = t.hasV1 ∧ t'.v1 = none ∧ t'.ape = none ∧ t'.header = t.header ∧
      (t.header = none → t'.pos = t.pos) ∧ t.header.isSome = t.ape.isSome := by
  unfold tail at h ⊢
  obtain ⟨⟨found, v, q⟩, h1, h⟩ := bind_ok h
  rw [v1_noTags h1, ok_bind]
  simp only at h ⊢
  split at h
  · cases h
  rename_i h15
  rw [if_neg h15]
  split at h
  · cases h
  rename_i h32
  rw [if_neg h32]
  obtain ⟨⟨a, hd, p⟩, h2, h⟩ := bind_ok h
  obtain ⟨q', e, h3, h4⟩ := ape_noTags h2
  cases h
  rw [e]
  exact ⟨_, rfl, rfl, rfl, rfl, rfl, h3, h4⟩

end Lofty.Opened
