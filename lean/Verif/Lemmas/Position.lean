import Verif.Model.Position
import Verif.Model.Dump
import Verif.Lemmas.File
/-!
# Lemmas about files whose cursor is anywhere
-/
namespace Lofty.Position
open Item Save

theorem readAt_drop (f : Bytes) (p k n : Nat) : readAt (f.drop p) k n = readAt f (p + k) n ∨ f.length < p := by
  by_cases hp : f.length < p
  · exact .inr hp
  · left
    unfold readAt
    simp only [List.length_drop, List.drop_drop]
    by_cases h : p + k + n ≤ f.length
    · rw [if_pos (by omega), if_pos h]
    · rw [if_neg (by omega), if_neg h]

theorem checkFrames_drop (f : Bytes) (p k m : Nat) :
    (Probe.checkFrames f (p + k) m).map (·.1) = (Probe.checkFrames (f.drop p) k m).map (·.1) := by
  unfold Probe.checkFrames
  rw [List.drop_drop]
  cases hs : Mpeg.searchSync ((f.drop (p + k)).take m) with
  | none => rfl
  | some i =>
    have hp : ¬ f.length < p := by
      intro hl
      rw [List.drop_eq_nil_of_le (by omega)] at hs
      simp [Mpeg.searchSync] at hs
    have e : p + k + i + 2 - 2 = p + (k + i + 2 - 2) := by omega
    simp only
    rw [e, ← (readAt_drop f p (k + i + 2 - 2) 2).resolve_right hp]
    cases readAt (f.drop p) (k + i + 2 - 2) 2 <;> rfl

theorem guessInner_drop (f : Bytes) (p m : Nat) :
    (Probe.guessInner f p m).map (·.1) = (Probe.guessInner (f.drop p) 0 m).map (·.1) := by
  unfold Probe.guessInner
  simp only [List.drop_zero]
  cases FileType.fromBufferInner ((f.drop p).take 36) with
  | error e => rfl
  | ok g =>
    cases g with
    | none => rfl
    | some g =>
      cases g with
      | determined t => rfl
      | afterId3 n =>
        simp only [Probe.guessAfterId3]
        have hi : Probe.identAt f (p + (10 + n)) = Probe.identAt (f.drop p) (0 + (10 + n)) := by
          unfold Probe.identAt; rw [List.drop_drop]; simp
        rw [hi]
        generalize Probe.identAt (f.drop p) (0 + (10 + n)) = ident
        have hc := checkFrames_drop f p (10 + n) m
        rw [← Nat.zero_add (10 + n)] at hc
        unfold Probe.guessIdent
        by_cases k1 : ident.take 3 = ascii "MAC"
        · rw [if_pos k1, if_pos k1]; rfl
        rw [if_neg k1, if_neg k1]
        by_cases k2 : ident = ascii "fLaC"
        · rw [if_pos k2, if_pos k2]; rfl
        rw [if_neg k2, if_neg k2]
        by_cases k3 : ident = ascii "MPCK" ∨ ident.take 3 = ascii "MP+"
        · rw [if_pos k3, if_pos k3]; rfl
        · rw [if_neg k3, if_neg k3]
          rw [Nat.zero_add] at hc ⊢
          cases h1 : Probe.checkFrames f (p + (10 + n)) m with
          | error e => 
            rw [h1] at hc
            cases h2 : Probe.checkFrames (f.drop p) (10 + n) m with
            | error e' => rw [h2] at hc; simpa [Except.map] using hc
            | ok v => rw [h2] at hc; simp [Except.map] at hc
          | ok v =>
            rw [h1] at hc
            cases h2 : Probe.checkFrames (f.drop p) (10 + n) m with
            | error e' => rw [h2] at hc; simp [Except.map] at hc
            | ok w => rw [h2] at hc; simpa [Except.map] using hc
      | afterJunk =>
        have hc := checkFrames_drop f p 0 m
        simp only [Nat.add_zero] at hc
        simp only
        cases h1 : Probe.checkFrames f p m with
        | error e => 
          rw [h1] at hc
          cases h2 : Probe.checkFrames (f.drop p) 0 m with
          | error e' => rw [h2] at hc; simpa [Except.map] using hc
          | ok v => rw [h2] at hc; simp [Except.map] at hc
        | ok v =>
          rw [h1] at hc
          cases h2 : Probe.checkFrames (f.drop p) 0 m with
          | error e' => rw [h2] at hc; simp [Except.map] at hc
          | ok w => rw [h2] at hc; simpa [Except.map] using hc

/-- The type of a file is guessed from what is behind the cursor. -/
theorem verified_drop (f : Bytes) (p : Nat) : verified f p = Save.verified (f.drop p) := by
  have h := guessInner_drop f p 1024
  unfold verified Save.verified Probe.guessFileType
  simp only [Option.getD_none]
  cases h1 : Probe.guessInner f p 1024 with
  | error e =>
    rw [h1] at h
    cases h2 : Probe.guessInner (f.drop p) 0 1024 with
    | error e' => rw [h2] at h; simp only [Except.map, Except.error.injEq] at h; simp [h]
    | ok v => rw [h2] at h; simp [Except.map] at h
  | ok v =>
    rw [h1] at h
    cases h2 : Probe.guessInner (f.drop p) 0 1024 with
    | error e' => rw [h2] at h; simp [Except.map] at h
    | ok w =>
      rw [h2] at h
      obtain ⟨a, b⟩ := v
      obtain ⟨c, d⟩ := w
      simp only [Except.map, Except.ok.injEq] at h
      subst h
      rfl

theorem verified_zero (f : Bytes) : verified f 0 = Save.verified f := by rw [verified_drop, List.drop_zero]

theorem write_zero (o : Options) (ft : FileType) (f : Bytes) (x : Own) : write o ft f 0 x = x.write o ft f := by
  cases x with
  | ape t => rfl
  | id3v1 t => rfl
  | id3v2 fl fs => cases ft <;> rfl
  | mp4Ilst t => rfl
  | vorbisComments t => cases ft <;> rfl
  | riffInfo t => rfl
  | aiffText t => rfl

theorem save_zero (o : Options) (x : Own) (f : Bytes) : save o x 0 f = x.saveTo o f := by
  unfold save Own.saveTo
  rw [verified_zero]
  cases Save.verified f with
  | error e => rfl
  | ok ft => simp only [write_zero]

/-- The places of the APE tags. -/
theorem findApe_eq {f : Bytes} {p q a b : Nat} {x y u v : Bytes} {h h' : Option (Id3v2.Header × Option Bytes)}
    (hp : Id3v2.find f p false none = .ok (h, a)) (hu : readAt f a 8 = .ok u) (ha : readAt f (a + 8) 8 = .ok x) (hx : x ≠ Ape.preamble)
    (hq : Id3v2.find f q false none = .ok (h', b)) (hv : readAt f b 8 = .ok v) (hb : readAt f (b + 8) 8 = .ok y) (hy : y ≠ Ape.preamble) :
    findApe f p = findApe f q := by
  have e1 : Ape.readTag {} f (a + 8) false = .ok (none, none) := by
    unfold Ape.readTag; rw [ha]; show (if x ≠ Ape.preamble then _ else _) = _; rw [if_pos hx]
  have e2 : Ape.readTag {} f (b + 8) false = .ok (none, none) := by
    unfold Ape.readTag; rw [hb]; show (if y ≠ Ape.preamble then _ else _) = _; rw [if_pos hy]
  unfold findApe
  rw [hp, hq]
  simp only [bind, Except.bind, hu, hv, e1, e2, Ape.headRange]

end Lofty.Position
