import Verif.Model.LimitsPadding
import Verif.Props.Chained
/-!
# C100: the allocation limit for the padding of ID3v2 tags
-/
namespace Lofty.LimitsPadding
open Lofty.Limits

/-- C100: **saving an ID3v2 tag is as without the limit, if the preferred padding is within the limit**, or not used because there is a footer or no
frame. -/
theorem padding_within {limit : Nat} {fl : Id3v2.Flags} {padding : Option Nat} {fs : List Id3v2.Frame}
    (h : fs = [] ∨ fl.footer = true ∨ ∀ n, padding = some n → n ≤ limit) (w : Id3v2.WriteOpts) (junk : Nat) (f : Bytes) :
    save limit fl w padding junk fs f = FileTags.saveId3v2 fl w padding junk fs f := by
  unfold save FileTags.saveId3v2
  by_cases hf : fs = []
  · subst hf; rfl
  · rw [if_neg (by simpa using hf), if_neg (by simpa using hf)]
    replace h := h.resolve_left hf
    have : ∀ body, createTag limit fl w.v23 padding body = Id3v2.createTag fl w.v23 padding body := by
      intro body
      unfold createTag
      cases Id3v2.createTag fl w.v23 padding body with
      | error e => rfl
      | ok t =>
        rw [ok_bind]
        cases padding with
        | none => rfl
        | some n =>
          simp only
          rcases h with h | h
          · rw [if_pos h, ok_bind]
          · have : tryVec limit n = .ok () := by unfold tryVec; rw [if_neg (by have := h n rfl; omega)]
            rw [this]
            split <;> rw [ok_bind]
    simp only [this]

/-- C100: **a larger padding refuses every save of a tag with frames**, whatever the frames, and the file is not touched. -/
theorem padding_refused {limit n : Nat} (hn : limit < n) {fl : Id3v2.Flags} (hfl : fl.footer = false) {fs : List Id3v2.Frame} (hfs : fs ≠ [])
    (w : Id3v2.WriteOpts) (junk : Nat) (f : Bytes) : ∃ e, save limit fl w (some n) junk fs f = .error e := by
  unfold save
  rw [if_neg (by simpa using hfs)]
  cases Id3v2.createItems w fs with
  | error e => exact ⟨e, rfl⟩
  | ok body =>
    rw [ok_bind]
    unfold createTag
    cases Id3v2.createTag fl w.v23 (some n) body with
    | error e => exact ⟨e, rfl⟩
    | ok t =>
      refine ⟨.alloc, ?_⟩
      rw [ok_bind]
      simp only
      rw [if_neg (by simp [hfl]), tryVec, if_pos hn]
      rfl

/-- C100: with the default limit this is a padding of more than 16 MiB; the tag itself may be longer. -/
example : (∃ e, save defaultLimit FileTags.exFlags FileTags.exW (some (2 ^ 24 + 1)) 100 (FileTags.titleTag "first") FileTags.threeFrames = .error e) ∧
    save defaultLimit FileTags.exFlags FileTags.exW (some (2 ^ 24)) 100 (FileTags.titleTag "first") FileTags.threeFrames =
      FileTags.saveId3v2 FileTags.exFlags FileTags.exW (some (2 ^ 24)) 100 (FileTags.titleTag "first") FileTags.threeFrames :=
  ⟨padding_refused (by decide) rfl (by simp [FileTags.titleTag]) _ _ _,
   padding_within (.inr (.inr fun n h => by cases h; decide)) _ _ _⟩

end Lofty.LimitsPadding
