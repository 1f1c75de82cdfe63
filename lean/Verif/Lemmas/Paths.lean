import Verif.Model.Paths
import Verif.Lemmas.Bytes
import Verif.Spec.Save
/-!
# Lemmas about writers that write nothing
-/
namespace Lofty.Paths
open Item Save

theorem toOption_getD {r : Except Err Bool} (h : r.toOption.getD false = true) : r = .ok true := by
  cases r with
  | error e => cases h
  | ok b =>
    have hb : b = true := h
    rw [hb]

theorem flac_quiet {f g : Bytes} {pad : Option Nat} (hq : flacQuiet f = true)
    (h : Flac.writeTo f ⟨[], [], []⟩ pad = .ok g) : g = f := by
  have hq := toOption_getD hq
  obtain ⟨⟨x, pos⟩, a1, hq⟩ := bind_ok hq
  obtain ⟨si, a2, hq⟩ := bind_ok hq
  obtain ⟨s, a3, hq⟩ := bind_ok hq
  have hs := (Except.ok.injEq _ _).mp hq
  unfold Flac.writeTo at h
  rw [a1] at h
  simp only [bind, Except.bind, a2, a3] at h
  rw [if_pos (by simp only [hs]; rfl)] at h
  exact ((Except.ok.injEq _ _).mp h).symm

theorem chunks_quiet {o : Options} {be w u pd : Bool} {f g : Bytes} (hq : chunksQuiet o be f = true)
    (h : IffFiles.writeChunkFile be w (o.mode = .strict) u pd f [] = .ok g) : g = f := by
  have hq := toOption_getD hq
  obtain ⟨⟨n, old⟩, a1, hq⟩ := bind_ok hq
  have hs := (Except.ok.injEq _ _).mp hq
  obtain rfl : old = none := Option.isNone_iff_eq_none.mp hs
  unfold IffFiles.writeChunkFile at h
  rw [a1] at h
  exact ((Except.ok.injEq _ _).mp h).symm

theorem mp4_quiet {o : Options} {f g : Bytes} (hq : mp4Quiet o f = true)
    (h : Mp4Write.writeTo f [] o.mode o.padding = .ok g) : g = f := by
  have hq := toOption_getD hq
  unfold Mp4Write.writeTo at h
  obtain ⟨_, _, h⟩ := bind_ok h
  obtain ⟨⟨atoms, q1, q2⟩, a1, hq⟩ := bind_ok hq
  rw [a1] at h
  simp only [bind, Except.bind] at h
  cases hm : Mp4Write.findTop atoms (ascii "moov") with
  | none => rw [hm] at h; cases h
  | some moov =>
    rw [hm] at h
    simp only [hm] at hq
    have hb : Ilst.build [] = .ok [] := by rfl
    simp only [hb] at h
    unfold Mp4Write.writeMoov at h
    obtain ⟨⟨udta, r⟩, a2, hq⟩ := bind_ok hq
    simp only [a2, bind, Except.bind] at h
    cases udta with
    | none =>
      simp only [if_true] at h
      exact ((Except.ok.injEq _ _).mp h).symm
    | some u =>
      obtain ⟨⟨m, r'⟩, a3, hq⟩ := bind_ok hq
      have hs := (Except.ok.injEq _ _).mp hq
      obtain rfl : m = none := Option.isNone_iff_eq_none.mp hs
      simp only [a3, if_true] at h
      exact ((Except.ok.injEq _ _).mp h).symm

theorem frames_new {o : Options} (ho : o.Fair) : frames o (Tag.new .id3v2) = [] := by
  unfold frames
  have : Convert.fromTag o.custom false (Tag.new .id3v2).items = [] := rfl
  rw [this, List.perm_nil.mp (ho [])]
  rfl

/-- A writer that writes nothing has nothing to change. -/
theorem quiet_same {o : Options} (ho : o.Fair) {ft : FileType} {t : TagType} {f g : Bytes} (hq : quiet o ft t f = true)
    (h : writeTag o ft (Tag.new t) f = .ok g) : g = f := by
  unfold quiet at hq
  split at hq
  · exact flac_quiet hq h
  · exact mp4_quiet hq h
  · have e : writeTag o .wav (Tag.new .id3v2) f = writeId3v2 o .wav noFlags (frames o (Tag.new .id3v2)) f := rfl
    rw [e, frames_new ho] at h
    exact chunks_quiet (w := true) (u := o.upper) (pd := o.padding.isSome) hq h
  · have e : writeTag o .aiff (Tag.new .id3v2) f = writeId3v2 o .aiff noFlags (frames o (Tag.new .id3v2)) f := rfl
    rw [e, frames_new ho] at h
    exact chunks_quiet (w := false) (u := o.upper) (pd := o.padding.isSome) hq h
  · cases hq

theorem quiet_format {o : Options} {ft : FileType} {t : TagType} {f : Bytes} (hq : quiet o ft t f = true) :
    ft = .flac ∨ ft = .mp4 ∨ ft = .wav ∨ ft = .aiff := by
  unfold quiet at hq
  split at hq <;> simp at hq ⊢

end Lofty.Paths
