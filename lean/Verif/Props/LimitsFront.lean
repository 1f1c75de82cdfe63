import Verif.Model.LimitsFront
import Verif.Lemmas.Limits
import Verif.Props.Id3v2Header
import Verif.Props.Chained
import Verif.Props.Save
import Verif.Props.EndToEnd
/-!
# C100: the allocation limit and ID3v2 tags in front of a file
-/
namespace Lofty.Limits
open FileTags

/-- At `pos` there is an ID3v2 tag whose content is longer than `limit`. -/
def Oversized (limit : Nat) (f : Bytes) (pos : Nat) : Prop := ∃ h p, Id3v2.parseHeader f pos = .ok (h, p) ∧ limit < h.size

/-- C100: the search for a tag is refused exactly if there is one that is longer than the limit and it is to be read. -/
theorem findAt_limited (limit : Nat) (f : Bytes) (pos : Nat) (read : Bool) :
    (read = true → Oversized limit f pos → findAt limit f pos read = .error .alloc) ∧
    (¬ (read = true ∧ Oversized limit f pos) → findAt limit f pos read = Id3v2.findAt f pos read) := by
  constructor
  · rintro rfl ⟨h, p, e, hl⟩
    unfold findAt
    rw [e]
    dsimp only
    rw [if_pos rfl, tryVec_gt hl, error_bind]
  · intro hn
    unfold findAt Id3v2.findAt
    cases e : Id3v2.parseHeader f pos with
    | error e => rfl
    | ok x =>
      obtain ⟨h, p⟩ := x
      dsimp only
      cases read with
      | false => rfl
      | true =>
        rw [if_pos rfl, if_pos rfl, tryVec_le (Nat.le_of_not_lt fun hl => hn ⟨rfl, h, p, e, hl⟩), ok_bind]
        rfl

/-- **C100, Monkey's Audio, Musepack and FLAC files.** If there is an ID3v2 tag in front that is longer than the limit as a whole, the file
cannot be opened. -/
theorem front_refused {limit : Nat} {f : Bytes} (h : Oversized limit f 0) :
    (∀ o : Opts, o.readTags = true → readMac limit o f = .error .alloc ∧ readMpc limit o f = .error .alloc) ∧
    ∀ o, openFlac limit o f = .error .alloc := by
  have hf := (findAt_limited limit f 0 true).1 rfl h
  refine ⟨fun o ho => ⟨?_, ?_⟩, fun o => ?_⟩
  · unfold readMac find
    rw [ho]; dsimp only; rw [hf]; rfl
  · unfold readMpc find
    rw [ho]; dsimp only; rw [hf]; rfl
  · unfold openFlac find
    dsimp only; rw [hf]; rfl

/-- C100: otherwise it is read as without the limit, and so it is if the tags are not to be read. -/
theorem front_same {limit : Nat} {f : Bytes} :
    (∀ o : Opts, ¬ (o.readTags = true ∧ Oversized limit f 0) → readMac limit o f = FileTags.readMac o f ∧ readMpc limit o f = FileTags.readMpc o f) ∧
    (¬ Oversized limit f 0 → ∀ o, openFlac limit o f = Opened.openFlac o f) := by
  refine ⟨fun o hn => ⟨?_, ?_⟩, fun hn o => ?_⟩
  · unfold readMac FileTags.readMac find Id3v2.find
    dsimp only; rw [(findAt_limited limit f 0 o.readTags).2 hn]
    rfl
  · unfold readMpc FileTags.readMpc find Id3v2.find
    dsimp only; rw [(findAt_limited limit f 0 o.readTags).2 hn]
    rfl
  · unfold openFlac Opened.openFlac find Id3v2.find
    dsimp only; rw [(findAt_limited limit f 0 true).2 (fun h => hn h.2)]

/-- **C100, MPEG files.** A tag behind `off` bytes of junk is refused in the same way; it is not if it is the first thing in the file, for
which no buffer is made. -/
theorem junk_refused {limit : Nat} {o : Opts} {f : Bytes} {off at_ : Nat} {st : Front} (ho : o.readTags = true) (hm : o.id3.mode ≠ .strict)
    (hoff : 0 < off) (hj : Id3v2.findInJunk (f.take (min off o.junk)) = some at_) (hst : st.id3v2 = none) :
    (Oversized limit f at_ → junkTag limit o f off st = .error .alloc) ∧
    (¬ Oversized limit f at_ → junkTag limit o f off st = FileTags.junkTag o f off st) := by
  have hc : st.id3v2.isNone ∧ o.id3.mode ≠ .strict ∧ 0 < off := ⟨by rw [hst]; rfl, hm, hoff⟩
  constructor
  · intro h
    unfold junkTag find
    rw [if_pos hc, ho]
    dsimp only
    rw [List.drop_zero, hj]
    dsimp only
    rw [Nat.zero_add, (findAt_limited limit f at_ true).1 rfl h]
    rfl
  · intro h
    unfold junkTag FileTags.junkTag find Id3v2.find
    rw [if_pos hc, if_pos hc, ho]
    dsimp only
    rw [List.drop_zero, hj]
    dsimp only
    rw [Nat.zero_add, (findAt_limited limit f at_ true).2 (fun x => h x.2)]
    rfl

/-- What it is to be oversized, in the bytes of the file: the size in the header, of four groups of seven bits, is above the limit. -/
theorem oversized_iff (limit : Nat) (pre rest : Bytes) (major minor fl s0 s1 s2 s3 : UInt8) (hext : fl.toNat / 64 % 2 = 0) :
    Oversized limit (pre ++ [0x49, 0x44, 0x33, major, minor, fl, s0, s1, s2, s3] ++ rest) pre.length ↔
      (major = 2 ∨ major = 3 ∨ major = 4) ∧
      limit < s0.toNat % 128 * 2 ^ 21 + s1.toNat % 128 * 2 ^ 14 + s2.toNat % 128 * 2 ^ 7 + s3.toNat % 128 := by
  constructor
  · rintro ⟨h, p, e, hl⟩
    obtain ⟨-, hv, -, hs, -⟩ := (Id3v2.parseHeader_spec pre rest _ _ _ major minor fl s0 s1 s2 s3 hext h p).mp e
    refine ⟨?_, hs ▸ hl⟩
    cases hh : h.version <;> rw [hh] at hv
    · exact .inl (UInt8.toNat_inj.mp hv)
    · exact .inr (.inl (UInt8.toNat_inj.mp hv))
    · exact .inr (.inr (UInt8.toNat_inj.mp hv))
  · rintro ⟨hm, hl⟩
    rcases hm with rfl | rfl | rfl
    · exact ⟨⟨.v2, ⟨decide (fl.toNat / 128 % 2 = 1), Id3v2.Version.v2 != .v2 && decide (fl.toNat / 32 % 2 = 1),
        Id3v2.Version.v2 != .v2 && decide (fl.toNat / 16 % 2 = 1), false, none⟩, _, 0⟩, _, (Id3v2.parseHeader_spec pre rest _ _ _ 2 minor fl s0 s1 s2 s3 hext _ _).mpr ⟨rfl, rfl, rfl, rfl, rfl, rfl⟩, hl⟩
    · exact ⟨⟨.v3, ⟨decide (fl.toNat / 128 % 2 = 1), Id3v2.Version.v3 != .v2 && decide (fl.toNat / 32 % 2 = 1),
        Id3v2.Version.v3 != .v2 && decide (fl.toNat / 16 % 2 = 1), false, none⟩, _, 0⟩, _, (Id3v2.parseHeader_spec pre rest _ _ _ 3 minor fl s0 s1 s2 s3 hext _ _).mpr ⟨rfl, rfl, rfl, rfl, rfl, rfl⟩, hl⟩
    · exact ⟨⟨.v4, ⟨decide (fl.toNat / 128 % 2 = 1), Id3v2.Version.v4 != .v2 && decide (fl.toNat / 32 % 2 = 1),
        Id3v2.Version.v4 != .v2 && decide (fl.toNat / 16 % 2 = 1), false, none⟩, _, 0⟩, _, (Id3v2.parseHeader_spec pre rest _ _ _ 4 minor fl s0 s1 s2 s3 hext _ _).mpr ⟨rfl, rfl, rfl, rfl, rfl, rfl⟩, hl⟩

/-! ## Cases that meet the hypotheses -/

/-- A FLAC file behind a tag of 16 bytes: with a limit of 15 it is refused, with one of 16 it is read. -/
theorem flac_front : openFlac 15 Opened.exRead (titleBytes "first" ++ Save.flacFile) = .error .alloc ∧
    ((openFlac 16 Opened.exRead (titleBytes "first" ++ Save.flacFile)).map (fun ts => ts.map (·.type))).toOption = some [.id3v2, .vorbisComments] := by
  have hb : titleBytes "first" ++ Save.flacFile =
      [] ++ [0x49, 0x44, 0x33, 4, 0, 0, 0, 0, 0, 16] ++ ((titleBytes "first").drop 10 ++ Save.flacFile) := by decide +kernel
  have key : ∀ l, Oversized l (titleBytes "first" ++ Save.flacFile) 0 ↔ l < 16 := fun l => by
    rw [hb]
    exact (oversized_iff l [] _ 4 0 0 0 0 0 16 (by decide)).trans ⟨fun h => h.2, fun h => ⟨by decide, h⟩⟩
  refine ⟨(front_refused ((key 15).mpr (by decide))).2 _, ?_⟩
  rw [front_same.2 (fun h => absurd ((key 16).mp h) (by decide))]
  decide +kernel

/-- The same in front of a Monkey's Audio file; without reading tags the file can be opened. -/
example : readMac 15 (exOpts true true) (titleBytes "first" ++ macFile) = .error .alloc ∧
    ((readMac 15 (exOpts false true) (titleBytes "first" ++ macFile)).map (·.stream)).toOption = some macFile.length := by
  have hb : titleBytes "first" ++ macFile =
      [] ++ [0x49, 0x44, 0x33, 4, 0, 0, 0, 0, 0, 16] ++ ((titleBytes "first").drop 10 ++ macFile) := by decide +kernel
  have h15 : Oversized 15 (titleBytes "first" ++ macFile) 0 := by
    rw [hb]
    exact (oversized_iff 15 [] _ 4 0 0 0 0 0 16 (by decide)).mpr ⟨by decide, by decide⟩
  refine ⟨((front_refused h15).1 _ rfl).1, ?_⟩
  rw [(front_same.1 _ (fun h => absurd h.1 (by decide))).1]
  decide +kernel

/-- Behind a byte of junk in an MPEG file. -/
example : junkTag 15 (exOpts true true) (0 :: titleBytes "first" ++ threeFrames) 27 ⟨none, none⟩ = .error .alloc := by
  refine (junk_refused (at_ := 1) rfl (by decide) (by decide) (by decide +kernel) rfl).1 ?_
  have hb : 0 :: titleBytes "first" ++ threeFrames =
      [0] ++ [0x49, 0x44, 0x33, 4, 0, 0, 0, 0, 0, 16] ++ ((titleBytes "first").drop 10 ++ threeFrames) := by decide +kernel
  rw [hb]
  exact (oversized_iff 15 [0] _ 4 0 0 0 0 0 16 (by decide)).mpr ⟨by decide, by decide⟩

end Lofty.Limits
