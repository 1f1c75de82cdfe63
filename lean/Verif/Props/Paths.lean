import Verif.Lemmas.Paths
import Verif.Props.Save
/-!
# C85: removing a tag from a path removes it

`TagType::remove_from_path` is documented like `TagType::remove_from`; it should leave the file without the tag, and report an
error if it could not.
-/
namespace Lofty.Paths
open Item Save

/-- Saving to a path is saving to the file. -/
theorem save_path {o : Options} {t : Tag} {p q : Path} (h : saveToPath o t p = .ok q) :
    saveTo o t p.bytes = .ok q.bytes ∧ q.ext = p.ext := by
  unfold saveToPath at h
  split at h
  · obtain rfl := (Except.ok.injEq _ _).mp h
    exact ⟨by assumption, rfl⟩
  · cases h

/-- Success is never reported wrongly: if the extension tells the format, there was nothing to remove. -/
theorem remove_path_ok_partial {o : Options} (ho : o.Fair) {t : TagType} {p q : Path} {ft : FileType}
    (he : p.ext.bind FileType.fromExt = some ft) (hf : verified p.bytes = .ok ft)
    (h : removeFromPath o t p = (.ok (), q)) :
    q = p ∧ (∀ r, removeFromOpened o t p = .ok r → r = p) ∧ removeFrom o t p.bytes = .ok p.bytes := by
  unfold removeFromPath at h
  simp only [he] at h
  split at h
  · cases h
  · rename_i hr
    split at h
    · cases h
    · rename_i g hg
      simp only [Prod.mk.injEq] at h
      have hq : quiet o ft t p.bytes = true := by
        cases hb : quiet o ft t p.bytes with
        | true => rfl
        | false => rw [hb] at h; cases h.1
      obtain rfl := quiet_same ho hq hg
      have e : removeFrom o t p.bytes = .ok p.bytes := by
        unfold removeFrom
        rw [hf]
        simp only [hr]
        exact hg
      refine ⟨h.2.symm, ?_, e⟩
      intro r k
      unfold removeFromOpened at k
      rw [e] at k
      exact ((Except.ok.injEq _ _).mp k).symm

/-- The file is never changed. -/
theorem remove_path_same (o : Options) (t : TagType) (p : Path) : (removeFromPath o t p).2 = p := by
  unfold removeFromPath
  split
  · rfl
  · split
    · rfl
    · split <;> rfl

/-- So nothing is ever removed: if there is something to remove, the call fails. -/
theorem remove_path_fails {o : Options} (ho : o.Fair) {t : TagType} {p r : Path} {ft : FileType}
    (he : p.ext.bind FileType.fromExt = some ft) (hf : verified p.bytes = .ok ft)
    (h : removeFromOpened o t p = .ok r) (hne : r ≠ p) : removeFromPath o t p = (.error .notWritable, p) := by
  cases hr : removeFromPath o t p with
  | mk e q =>
    obtain rfl : q = p := by have := remove_path_same o t p; rw [hr] at this; exact this
    cases e with
    | ok u => exact absurd ((remove_path_ok_partial ho he hf hr).2.1 r h) hne
    | error e =>
      unfold removeFromOpened removeFrom at h
      rw [hf] at h
      unfold removeFromPath at hr
      simp only [he] at hr
      simp only at h
      cases hs : (ft.tagSupport t).readable with
      | false => rw [hs] at h; simp at h
      | true =>
        rw [hs] at h hr
        simp only [Bool.not_true, Bool.false_eq_true, if_false] at h hr
        cases hw : writeTag o ft (Tag.new t) q.bytes with
        | error e' => rw [hw] at h; cases h
        | ok g =>
          rw [hw] at hr
          simp only [Prod.mk.injEq] at hr
          cases hb : quiet o ft t q.bytes with
          | true => rw [hb] at hr; cases hr.1
          | false => rw [hb] at hr; rw [← hr.1]; rfl

/-- For most formats the call fails always. -/
theorem remove_path_never {o : Options} {t : TagType} {p : Path}
    (he : ∀ ft, p.ext.bind FileType.fromExt = some ft → ft ≠ .flac ∧ ft ≠ .mp4 ∧ ft ≠ .wav ∧ ft ≠ .aiff) :
    (removeFromPath o t p).1 ≠ .ok () := by
  intro h
  unfold removeFromPath at h
  split at h
  · cases h
  · rename_i ft hft
    split at h
    · cases h
    · split at h
      · cases h
      · simp only at h
        split at h
        · rename_i hq
          obtain ⟨h1, h2, h3, h4⟩ := he ft hft
          rcases quiet_format hq with k | k | k | k
          · exact h1 k
          · exact h2 k
          · exact h3 k
          · exact h4 k
        · cases h

/-- A path without a known extension is refused, whatever the file contains. -/
theorem remove_path_extension {o : Options} {t : TagType} {p : Path} (he : p.ext.bind FileType.fromExt = none) :
    removeFromPath o t p = (.error (.lib .parse), p) := by
  unfold removeFromPath; rw [he]

/-! ## Cases -/

/-- An MPEG file with an ID3v2 tag. -/
def song : Path := ⟨some (str "mp3"), ascii "ID3" ++ [4, 0, 0, 0, 0, 0, 10] ++ List.replicate 10 0 ++ mp3⟩

/-- The tag is not removed, while it is removed from the opened file. -/
theorem song_kept : removeFromPath exOptions .id3v2 song = (.error .notWritable, song) ∧
    (removeFromOpened exOptions .id3v2 song).toOption.map (·.bytes) = some mp3 ∧ song.bytes ≠ mp3 := by
  have hne : song.bytes ≠ mp3 := by
    intro h
    have := congrArg List.length h
    revert this
    decide +kernel
  have h1 : (removeFrom exOptions .id3v2 song.bytes).toOption = some mp3 := by decide +kernel
  have h2 : removeFrom exOptions .id3v2 song.bytes = .ok mp3 := by
    cases h : removeFrom exOptions .id3v2 song.bytes with
    | error e => rw [h] at h1; cases h1
    | ok g => rw [h] at h1; exact congrArg Except.ok (Option.some.inj h1)
  have h3 : removeFromOpened exOptions .id3v2 song = .ok ⟨some (str "mp3"), mp3⟩ := by
    unfold removeFromOpened; rw [h2]; rfl
  refine ⟨remove_path_fails exFair (ft := .mpeg) (by decide) (by decide +kernel) h3 ?_, ?_, hne⟩
  · intro h; exact hne (congrArg Path.bytes h).symm
  · rw [h3]; rfl

/-- The full statement: removing from a path is removing from the file. -/
theorem remove_path_wrong : ¬ ∀ (o : Options) (t : TagType) (p r : Path) (ft : FileType), o.Fair →
    p.ext.bind FileType.fromExt = some ft → verified p.bytes = .ok ft → removeFromOpened o t p = .ok r →
    removeFromPath o t p = (.ok (), r) := by
  intro h
  have h1 : (removeFromOpened exOptions .id3v2 song).toOption.map (·.bytes) = some mp3 := song_kept.2.1
  cases hr : removeFromOpened exOptions .id3v2 song with
  | error e => rw [hr] at h1; cases h1
  | ok r =>
    have := h exOptions .id3v2 song r .mpeg exFair (by decide) (by decide +kernel) hr
    rw [song_kept.1] at this
    cases congrArg Prod.fst this

/-- A FLAC file without comments: nothing to remove. -/
def bareFlac : Path := ⟨some (str "FLAC"), Flac.stream [] [(0, List.replicate 34 7)] [0xFF, 0xF8]⟩

example : bareFlac.ext.bind FileType.fromExt = some .flac ∧ verified bareFlac.bytes = .ok .flac ∧
    (removeFromPath exOptions .vorbisComments bareFlac).1 = .ok () := by decide +kernel

/-- The tag can be saved to a path with another extension, but not removed from it. -/
example : (saveToPath exOptions (titled .id3v1) ⟨some (str "bin"), mp3⟩).toOption.isSome = true ∧
    (removeFromPath exOptions .id3v1 ⟨some (str "bin"), mp3⟩).1 = .error (.lib .parse) := by decide +kernel

/-- No call succeeds for MPEG files, with or without tag. -/
example : (removeFromPath exOptions .ape ⟨some (str "mp3"), mp3⟩).1 ≠ .ok () :=
  remove_path_never (by intro ft h; obtain rfl : FileType.mpeg = ft := Option.some.inj h; decide)

end Lofty.Paths
